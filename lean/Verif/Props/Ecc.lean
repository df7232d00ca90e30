import Verif.Lemmas.Codes

/-!
# Properties C01–C05: the Golay and Hamming block decoders

The codes are defined in `Verif.Spec.Codes` by generator polynomial / parity equations.
-/

namespace Verif.Props
open Verif Verif.Spec Verif.Model

/-- C01, systematic code: every 12-bit message has exactly one codeword carrying it in the top twelve bits. -/
theorem C01_golay_systematic (m : Nat) (hm : m < 2^12) :
    ∃ c, (IsGolay c ∧ c >>> 11 = m) ∧ ∀ c', IsGolay c' ∧ c' >>> 11 = m → c' = c :=
  ⟨golayWord m, ⟨golayWord_isGolay m, golayWord_data hm⟩,
    fun _ h => h.1.eq_of_data (golayWord_isGolay m) (h.2.trans (golayWord_data hm).symm)⟩

/-- C01: `mbe_golay2312` recovers the data bits of every codeword with at most three flipped bits,
passes the received parity bits through, counts the flipped data bits and writes nothing else. -/
theorem C01_golay2312_corrects_three {c e : Nat} (hc : IsGolay c) (he : e < 2^23) (hw : weight 23 e ≤ 3)
    (inp out : Nat → Int) (hin : ∀ i, i < 23 → inp i = bit (c ^^^ e) i) :
    ∃ o, golay2312 inp out = .ok (o, weight 12 (e >>> 11)) ∧
      (∀ i, i < 12 → o (11 + i) = bit c (11 + i)) ∧
      (∀ i, i < 11 → o i = inp i) ∧
      (∀ i, 23 ≤ i → o i = out i) := by
  obtain ⟨o, errs, h, ho, herr⟩ := golay2312_eq inp out
  have hlt : c ^^^ e < 2^23 := Nat.xor_lt_two_pow hc.lt he
  have hp : packBits 23 inp = c ^^^ e := packBits_eq (by decide) hlt hin
  have hs : golaySyndrome (c ^^^ e) = golaySyndrome e := by
    rw [golaySyndrome_linear, hc.syndrome, Nat.zero_xor]
  have hfix := golayFix_of_weight he hw
  have hd : golayData (c ^^^ e) = c >>> 11 := by
    unfold golayData
    rw [hs, hfix]
    have := linear_shiftRight 11 c e
    simp only at this
    rw [this, xor_xor_cancel_right]
  have hE : errs = weight 12 (e >>> 11) := by
    rw [herr]
    refine golay_errs (w := c ^^^ e) hin ?_
    intro j h1 h2
    rw [ho j, if_neg (by omega), if_pos h2, hp]
    unfold golayData
    rw [hs, hfix]
  refine ⟨o, by rw [h, hE], ?_, ?_, ?_⟩
  · intro i hi
    rw [ho, if_neg (by omega), if_pos (by omega), hp, hd]
    unfold bit
    rw [Nat.testBit_shiftRight, show 11 + (11 + i - 11) = 11 + i by omega]
  · intro i hi
    rw [ho, if_pos (by omega)]
  · intro i hi
    rw [ho, if_neg (by omega), if_neg (by omega)]

/-- Codeword of message 0xABC with bits 0, 12 and 22 flipped: two data errors. -/
example : IsGolay (golayWord 0xABC) ∧ (0x401001 : Nat) < 2^23 ∧ weight 23 0x401001 ≤ 3 ∧
    golayWord 0xABC ≠ 0 ∧ weight 12 (0x401001 >>> 11) = 2 :=
  ⟨golayWord_isGolay _, by decide, by decide, by decide, by decide⟩

/-- C01: `mbe_checkGolayBlock` leaves exactly the 12-bit message of every codeword with at most three flipped bits. -/
theorem C01_checkGolayBlock_corrects_three {c e : Nat} (hc : IsGolay c) (he : e < 2^23) (hw : weight 23 e ≤ 3) :
    checkGolayBlock ((c ^^^ e : Nat) : Int) = .ok ((c >>> 11 : Nat) : Int) := by
  have hlt : c ^^^ e < 2^23 := Nat.xor_lt_two_pow hc.lt he
  unfold checkGolayBlock
  have e1 : (((c ^^^ e : Nat) : Int) % 2^32).toNat = c ^^^ e := by omega
  rw [e1, checkGolayBlockU_eq]
  show Except.ok _ = _
  rw [golaySyndrome_linear, hc.syndrome, Nat.zero_xor, golayFix_of_weight he hw]
  have := linear_shiftRight 11 c e
  simp only at this
  rw [this, xor_xor_cancel_right]

example : IsGolay (golayWord 0x123) ∧ weight 23 0x700 ≤ 3 := ⟨golayWord_isGolay _, by decide⟩

/-- C02: the code is perfect. Every 23-bit word has exactly one codeword within distance three. -/
theorem C02_golay_perfect (w : Nat) (hw : w < 2^23) :
    ∃ c, (IsGolay c ∧ dist 23 w c ≤ 3) ∧ ∀ c', IsGolay c' ∧ dist 23 w c' ≤ 3 → c' = c := by
  have hs := golaySyndrome_lt w
  have hE := golayErr_lt hs
  have key : IsGolay (w ^^^ golayErr (golaySyndrome w)) := by
    rw [isGolay_iff]
    refine ⟨Nat.xor_lt_two_pow hw hE, ?_⟩
    rw [golaySyndrome_linear, golayErr_syndrome hs, Nat.xor_self]
  refine ⟨w ^^^ golayErr (golaySyndrome w), ⟨key, ?_⟩, ?_⟩
  · unfold dist
    rw [← Nat.xor_assoc, Nat.xor_self, Nat.zero_xor]
    exact golayErr_weight hs
  · intro c' ⟨hc', hd⟩
    have hsyn : golaySyndrome (w ^^^ c') = golaySyndrome (golayErr (golaySyndrome w)) := by
      rw [golaySyndrome_linear, hc'.syndrome, golayErr_syndrome hs, Nat.xor_zero]
    have := pattern_unique (Nat.xor_lt_two_pow hw hc'.lt) hE hd (golayErr_weight hs) hsyn
    rw [← this, ← Nat.xor_assoc, Nat.xor_self, Nat.zero_xor]

/-- C02: on every 0/1 input `mbe_golay2312` returns the data bits of the nearest codeword, and its error count
is the number of data positions that differ from it, at most three. -/
theorem C02_golay2312_nearest (w : Nat) (hw : w < 2^23) (inp out : Nat → Int)
    (hin : ∀ i, i < 23 → inp i = bit w i) :
    ∃ c o errs, IsGolay c ∧ dist 23 w c ≤ 3 ∧ (∀ c', IsGolay c' → dist 23 w c' ≤ 3 → c' = c) ∧
      golay2312 inp out = .ok (o, errs) ∧ (∀ i, i < 12 → o (11 + i) = bit c (11 + i)) ∧
      errs = dist 12 (w >>> 11) (c >>> 11) ∧ errs ≤ 3 := by
  obtain ⟨c, ⟨hc, hd⟩, hu⟩ := C02_golay_perfect w hw
  have he : w ^^^ c < 2^23 := Nat.xor_lt_two_pow hw hc.lt
  have hcw : c ^^^ (w ^^^ c) = w := by rw [Nat.xor_comm w c, ← Nat.xor_assoc, Nat.xor_self, Nat.zero_xor]
  obtain ⟨o, ho, hdata, _, _⟩ := C01_golay2312_corrects_three hc he hd inp out (by rw [hcw]; exact hin)
  have hsh : (w ^^^ c) >>> 11 = (w >>> 11) ^^^ (c >>> 11) := linear_shiftRight 11 w c
  refine ⟨c, o, _, hc, hd, fun c' h1 h2 => hu c' ⟨h1, h2⟩, ho, hdata, by rw [hsh]; rfl, ?_⟩
  have hsplit : weight 23 (w ^^^ c) = weight 11 (w ^^^ c) + weight 12 ((w ^^^ c) >>> 11) := by
    simp only [weight_succ, weight_zero_left, Nat.testBit_shiftRight, Nat.reduceAdd]
    omega
  unfold dist at hd
  omega

example : (0x5A5A5A : Nat) < 2^23 ∧ ¬ IsGolay 0x5A5A5A := by
  refine ⟨by decide, ?_⟩
  rw [isGolay_iff]; decide

/-! ## Hamming -/

/-- C03: `mbe_hamming1511` returns the unique codeword within distance one of any 0/1 input; the return value
is the distance. -/
theorem C03_hamming1511_nearest (w : Nat) (hw : w < 2^15) (inp out : Nat → Int)
    (hin : ∀ i, i < 15 → inp i = bit w i) :
    ∃ c o, IsHamming7200 c ∧ dist 15 w c ≤ 1 ∧ (∀ c', IsHamming7200 c' → dist 15 w c' ≤ 1 → c' = c) ∧
      hamming1511 inp out = .ok (o, dist 15 w c) ∧
      (∀ i, i < 15 → o i = bit c i) ∧ (∀ i, 15 ≤ i → o i = out i) :=
  hamming_nearest isHamming7200_iff tables7200 (hammingSyndrome_lt _ _ _ _) (hammingSyndrome_linear _ _ _ _) w hw inp out hin

/-- C03: the same for `mbe_7100x4400hamming1511` and the cyclic code with generator `x^4+x+1`. -/
theorem C03_hamming1511_7100_nearest (w : Nat) (hw : w < 2^15) (inp out : Nat → Int)
    (hin : ∀ i, i < 15 → inp i = bit w i) :
    ∃ c o, IsHamming7100 c ∧ dist 15 w c ≤ 1 ∧ (∀ c', IsHamming7100 c' → dist 15 w c' ≤ 1 → c' = c) ∧
      hamming1511_7100 inp out = .ok (o, dist 15 w c) ∧
      (∀ i, i < 15 → o i = bit c i) ∧ (∀ i, 15 ≤ i → o i = out i) :=
  hamming_nearest isHamming7100_iff tables7100 (hammingSyndrome_lt _ _ _ _) (hammingSyndrome_linear _ _ _ _) w hw inp out hin

/-- A received word that is not a codeword of either variant. -/
example : (0x1234 : Nat) < 2^15 ∧ ¬ IsHamming7200 0x1234 ∧ ¬ IsHamming7100 0x1234 := by
  refine ⟨by decide, ?_, ?_⟩
  · rw [isHamming7200_iff]; decide
  · rw [isHamming7100_iff]; decide

/-- The two codes differ: 0x26 is a codeword of the 7100x4400 code only. -/
example : IsHamming7100 0x26 ∧ ¬ IsHamming7200 0x26 := by
  rw [isHamming7100_iff, isHamming7200_iff]; decide

/-! ## C04 -/

/-- C04: the corrected data bits of `mbe_golay2312` and all output bits of the Hamming decoders depend on each
input `char` only through its lowest bit. -/
theorem C04_only_low_bits (inp inp' out : Nat → Int) (h : ∀ i, i < 23 → inp i % 2 = inp' i % 2) :
    (∃ o e o' e', golay2312 inp out = .ok (o, e) ∧ golay2312 inp' out = .ok (o', e') ∧
      ∀ i, 11 ≤ i → i ≤ 22 → o i = o' i) ∧
    hamming1511 inp out = hamming1511 inp' out ∧
    hamming1511_7100 inp out = hamming1511_7100 inp' out := by
  have hp : ∀ n, n ≤ 23 → packBits n inp = packBits n inp' := by
    intro n hn
    apply Nat.eq_of_testBit_eq; intro i
    rw [packBits_testBit (by omega), packBits_testBit (by omega)]
    by_cases hi : i < n
    · unfold bitOf; rw [h i (by omega)]
    · simp [hi]
  refine ⟨?_, ?_, ?_⟩
  · obtain ⟨o, e, h1, h2, _⟩ := golay2312_eq inp out
    obtain ⟨o', e', h1', h2', _⟩ := golay2312_eq inp' out
    refine ⟨o, e, o', e', h1, h1', ?_⟩
    intro i hi1 hi2
    rw [h2, h2', hp 23 (by omega), if_neg (by omega), if_pos hi2, if_neg (by omega)]
  · unfold hamming1511 hammingWith; rw [hp 15 (by omega)]
  · unfold hamming1511_7100 hammingWith; rw [hp 15 (by omega)]

/-- ASCII digits instead of 0/1. -/
example : ∀ i, i < 23 → (fun i => bit 0x2A5 i) i % 2 = (fun i => 48 + bit 0x2A5 i) i % 2 := by
  intro i _; simp only; omega

/-! ## C05 -/

/-- C05, exact behaviour: for every `long` block the result is the 12-bit result for its low 23 bits, plus
bits 23..31 of the block moved to bits 12..20. -/
theorem C05_checkGolayBlock_exact (block : Int) :
    ∃ d : Nat, d < 4096 ∧ checkGolayBlock (block % 2^23) = .ok (d : Int) ∧
      checkGolayBlock block = .ok ((d + 4096 * ((block % 2^32) / 2^23) : Int)) := by
  obtain ⟨r, hr, h1, h2⟩ := checkGolayBlock_parts block
  obtain ⟨d, hd, k1, k2⟩ := checkGolayBlock_parts (block % 2^23)
  have e1 : (block % 2^23 % 2^23).toNat = (block % 2^23).toNat := by omega
  have e2 : (block % 2^23 % 2^32).toNat / 2^23 = 0 := by omega
  rw [e1, ← h1] at k1
  rw [e2] at k2
  refine ⟨d, by omega, hd, ?_⟩
  rw [hr]
  congr 1
  omega

/-- C05, the documented claim restricted to blocks without upper bits: the result is 12-bit data. The full claim
(for every block, upper bits ignored) is refuted by `C05_upper_bits_not_ignored`. -/
theorem C05_checkGolayBlock_partial (block : Nat) (h : block < 2^23) :
    ∃ r : Nat, checkGolayBlock block = .ok (r : Int) ∧ r < 4096 := by
  obtain ⟨r, hr, _, h2⟩ := checkGolayBlock_parts block
  refine ⟨r, hr, ?_⟩
  have : ((block : Int) % 2^32).toNat = block := by omega
  rw [this, Nat.div_eq_of_lt h] at h2
  omega

example : (0x7FFFFF : Nat) < 2^23 := by decide

/-- C05 as documented ("upper bits ignored. On return, contains 12-bit data") is false: two blocks with the same
low 23 bits give different results, one of them not 12-bit data. -/
theorem C05_upper_bits_not_ignored :
    ∃ b b' : Int, b % 2^23 = b' % 2^23 ∧ checkGolayBlock b = .ok 0 ∧ checkGolayBlock b' = .ok 4096 := by
  refine ⟨0, 0x800000, by decide, by decide +kernel, by decide +kernel⟩

end Verif.Props
