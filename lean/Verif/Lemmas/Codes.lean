import Verif.Lemmas.Ecc

/-! The codes of `Verif.Spec.Codes` as kernels of the syndrome maps, and the shared Hamming argument. -/

namespace Verif
open Verif.Spec Verif.Model

theorem evenAt_iff {c g : Nat} {ps : List Nat}
    (h : weight 15 (c &&& g) % 2 = ps.countP (fun i => c.testBit i) % 2) :
    parity15 (c &&& g) = 0 ↔ evenAt c ps = true := by
  rw [parity15_eq, h]; unfold evenAt; simp

theorem isHamming7200_iff (c : Nat) :
    IsHamming7200 c ↔ c < 2^15 ∧ hammingSyndrome Gen.hammingGenerator c = 0 := by
  unfold IsHamming7200
  have h4 := hammingSyndrome4 0x7f08 0x78e4 0x66d2 0x55b1 c
  have e : hammingSyndrome Gen.hammingGenerator c = hammingSyndrome [0x7f08, 0x78e4, 0x66d2, 0x55b1] c := rfl
  rw [e, h4]
  have hif : ∀ b : Bool, (if b = true then 1 else 0) = b.toNat := by intro b; cases b <;> rfl
  have w0 : weight 15 (c &&& 0x7f08) % 2 = [3, 14, 13, 12, 11, 10, 9, 8].countP (fun i => c.testBit i) % 2 := by
    have b0 : Nat.testBit 0x7f08 0 = false := by decide
    have b1 : Nat.testBit 0x7f08 1 = false := by decide
    have b2 : Nat.testBit 0x7f08 2 = false := by decide
    have b3 : Nat.testBit 0x7f08 3 = true := by decide
    have b4 : Nat.testBit 0x7f08 4 = false := by decide
    have b5 : Nat.testBit 0x7f08 5 = false := by decide
    have b6 : Nat.testBit 0x7f08 6 = false := by decide
    have b7 : Nat.testBit 0x7f08 7 = false := by decide
    have b8 : Nat.testBit 0x7f08 8 = true := by decide
    have b9 : Nat.testBit 0x7f08 9 = true := by decide
    have b10 : Nat.testBit 0x7f08 10 = true := by decide
    have b11 : Nat.testBit 0x7f08 11 = true := by decide
    have b12 : Nat.testBit 0x7f08 12 = true := by decide
    have b13 : Nat.testBit 0x7f08 13 = true := by decide
    have b14 : Nat.testBit 0x7f08 14 = true := by decide
    simp only [weight_succ, weight_zero_left, Nat.testBit_and, List.countP_cons, List.countP_nil, hif, b0, b1, b2, b3, b4, b5, b6, b7, b8, b9, b10, b11, b12, b13, b14]
    simp only [Bool.and_true, Bool.and_false, Bool.toNat_false]
    omega
  have w1 : weight 15 (c &&& 0x78e4) % 2 = [2, 14, 13, 12, 11, 7, 6, 5].countP (fun i => c.testBit i) % 2 := by
    have b0 : Nat.testBit 0x78e4 0 = false := by decide
    have b1 : Nat.testBit 0x78e4 1 = false := by decide
    have b2 : Nat.testBit 0x78e4 2 = true := by decide
    have b3 : Nat.testBit 0x78e4 3 = false := by decide
    have b4 : Nat.testBit 0x78e4 4 = false := by decide
    have b5 : Nat.testBit 0x78e4 5 = true := by decide
    have b6 : Nat.testBit 0x78e4 6 = true := by decide
    have b7 : Nat.testBit 0x78e4 7 = true := by decide
    have b8 : Nat.testBit 0x78e4 8 = false := by decide
    have b9 : Nat.testBit 0x78e4 9 = false := by decide
    have b10 : Nat.testBit 0x78e4 10 = false := by decide
    have b11 : Nat.testBit 0x78e4 11 = true := by decide
    have b12 : Nat.testBit 0x78e4 12 = true := by decide
    have b13 : Nat.testBit 0x78e4 13 = true := by decide
    have b14 : Nat.testBit 0x78e4 14 = true := by decide
    simp only [weight_succ, weight_zero_left, Nat.testBit_and, List.countP_cons, List.countP_nil, hif, b0, b1, b2, b3, b4, b5, b6, b7, b8, b9, b10, b11, b12, b13, b14]
    simp only [Bool.and_true, Bool.and_false, Bool.toNat_false]
    omega
  have w2 : weight 15 (c &&& 0x66d2) % 2 = [1, 14, 13, 10, 9, 7, 6, 4].countP (fun i => c.testBit i) % 2 := by
    have b0 : Nat.testBit 0x66d2 0 = false := by decide
    have b1 : Nat.testBit 0x66d2 1 = true := by decide
    have b2 : Nat.testBit 0x66d2 2 = false := by decide
    have b3 : Nat.testBit 0x66d2 3 = false := by decide
    have b4 : Nat.testBit 0x66d2 4 = true := by decide
    have b5 : Nat.testBit 0x66d2 5 = false := by decide
    have b6 : Nat.testBit 0x66d2 6 = true := by decide
    have b7 : Nat.testBit 0x66d2 7 = true := by decide
    have b8 : Nat.testBit 0x66d2 8 = false := by decide
    have b9 : Nat.testBit 0x66d2 9 = true := by decide
    have b10 : Nat.testBit 0x66d2 10 = true := by decide
    have b11 : Nat.testBit 0x66d2 11 = false := by decide
    have b12 : Nat.testBit 0x66d2 12 = false := by decide
    have b13 : Nat.testBit 0x66d2 13 = true := by decide
    have b14 : Nat.testBit 0x66d2 14 = true := by decide
    simp only [weight_succ, weight_zero_left, Nat.testBit_and, List.countP_cons, List.countP_nil, hif, b0, b1, b2, b3, b4, b5, b6, b7, b8, b9, b10, b11, b12, b13, b14]
    simp only [Bool.and_true, Bool.and_false, Bool.toNat_false]
    omega
  have w3 : weight 15 (c &&& 0x55b1) % 2 = [0, 14, 12, 10, 8, 7, 5, 4].countP (fun i => c.testBit i) % 2 := by
    have b0 : Nat.testBit 0x55b1 0 = true := by decide
    have b1 : Nat.testBit 0x55b1 1 = false := by decide
    have b2 : Nat.testBit 0x55b1 2 = false := by decide
    have b3 : Nat.testBit 0x55b1 3 = false := by decide
    have b4 : Nat.testBit 0x55b1 4 = true := by decide
    have b5 : Nat.testBit 0x55b1 5 = true := by decide
    have b6 : Nat.testBit 0x55b1 6 = false := by decide
    have b7 : Nat.testBit 0x55b1 7 = true := by decide
    have b8 : Nat.testBit 0x55b1 8 = true := by decide
    have b9 : Nat.testBit 0x55b1 9 = false := by decide
    have b10 : Nat.testBit 0x55b1 10 = true := by decide
    have b11 : Nat.testBit 0x55b1 11 = false := by decide
    have b12 : Nat.testBit 0x55b1 12 = true := by decide
    have b13 : Nat.testBit 0x55b1 13 = false := by decide
    have b14 : Nat.testBit 0x55b1 14 = true := by decide
    simp only [weight_succ, weight_zero_left, Nat.testBit_and, List.countP_cons, List.countP_nil, hif, b0, b1, b2, b3, b4, b5, b6, b7, b8, b9, b10, b11, b12, b13, b14]
    simp only [Bool.and_true, Bool.and_false, Bool.toNat_false]
    omega
  rw [← evenAt_iff w0, ← evenAt_iff w1, ← evenAt_iff w2, ← evenAt_iff w3]
  omega


/-- `c` is a codeword of the 7100x4400 code exactly when it has 15 bits and zero syndrome. -/
theorem isHamming7100_iff (c : Nat) :
    IsHamming7100 c ↔ c < 2^15 ∧ hammingSyndrome Gen.imbe7100x4400hammingGenerator c = 0 := by
  have hlin : Linear (hammingSyndrome Gen.imbe7100x4400hammingGenerator) := hammingSyndrome_linear _ _ _ _
  constructor
  · rintro ⟨q, _, rfl⟩
    exact ⟨clmul_lt (n := 10) (k := 5) (by decide), hlin.clmul_zero (n := 11) (by decide +kernel) q⟩
  · intro ⟨hlt, hs⟩
    let Q : Nat → Nat := golayLin [0x4d7, 0x26b, 0x135, 0x9a, 0x4d, 0x26, 0x13, 0x9, 0x4, 0x2, 0x1] 10
    have hQ : Linear Q := golayLin_linear _ _
    have hdata : ∀ m, m < 2^11 → clmul 11 (Q m) hammingPoly >>> 4 = m := by
      intro m hm
      exact Linear.ext (f := fun m => clmul 11 (Q m) hammingPoly >>> 4) (g := fun x => x) (n := 11)
        (fun a b => by
          show clmul 11 (Q (a ^^^ b)) hammingPoly >>> 4 = _
          rw [hQ, clmul_xor]; exact linear_shiftRight 4 _ _) (fun _ _ => rfl) (by decide +kernel) hm
    have hm : c >>> 4 < 2^11 := shiftRight_lt hlt
    have hz : hammingSyndrome Gen.imbe7100x4400hammingGenerator (clmul 11 (Q (c >>> 4)) hammingPoly) = 0 :=
      hlin.clmul_zero (n := 11) (by decide +kernel) _
    have hsyn : hammingSyndrome Gen.imbe7100x4400hammingGenerator (c ^^^ clmul 11 (Q (c >>> 4)) hammingPoly) = 0 := by
      rw [hlin, hs, hz]; rfl
    have htop : (c ^^^ clmul 11 (Q (c >>> 4)) hammingPoly) >>> 4 = 0 := by
      have := linear_shiftRight 4 c (clmul 11 (Q (c >>> 4)) hammingPoly)
      simp only at this
      rw [this, hdata _ hm, Nat.xor_self]
    have hsmall := lt_of_shiftRight_eq_zero htop
    have hinj : ∀ x, x < 2^4 → hammingSyndrome Gen.imbe7100x4400hammingGenerator x = 0 → x = 0 := by decide +kernel
    have := xor_eq_zero (hinj _ hsmall hsyn)
    exact ⟨Q (c >>> 4), golayLin_lt _ _ _ _ (by decide), this⟩

/-- Shared argument for both Hamming variants. -/
theorem hamming_nearest {gen lut : List Nat} {IsCode : Nat → Prop}
    (hcode : ∀ c, IsCode c ↔ c < 2^15 ∧ hammingSyndrome gen c = 0)
    (ht : HammingTables gen lut) (hlt : ∀ b, hammingSyndrome gen b < 16) (hlin : Linear (hammingSyndrome gen))
    (w : Nat) (hw : w < 2^15) (inp out : Nat → Int) (hin : ∀ i, i < 15 → inp i = bit w i) :
    ∃ c o, IsCode c ∧ dist 15 w c ≤ 1 ∧ (∀ c', IsCode c' → dist 15 w c' ≤ 1 → c' = c) ∧
      hammingWith gen lut inp out = .ok (o, dist 15 w c) ∧
      (∀ i, i < 15 → o i = bit c i) ∧ (∀ i, 15 ≤ i → o i = out i) := by
  obtain ⟨o, ho, hbits⟩ := hammingWith_eq ht hlt inp out
  have hp : packBits 15 inp = w := packBits_eq (by decide) hw hin
  rw [hp] at ho hbits
  have huniq : ∀ c c', IsCode c → IsCode c' → dist 15 w c ≤ 1 → dist 15 w c' ≤ 1 → c' = c := by
    intro c c' hc hc' hd hd'
    have h1 := (hcode c).mp hc
    have h2 := (hcode c').mp hc'
    have hx : c' ^^^ c = (w ^^^ c') ^^^ (w ^^^ c) := by
      apply Nat.eq_of_testBit_eq; intro i
      simp only [Nat.testBit_xor]
      cases w.testBit i <;> cases c.testBit i <;> cases c'.testBit i <;> rfl
    have hwt : weight 15 (c' ^^^ c) ≤ 2 := by
      rw [hx]
      have := weight_xor_le 15 (w ^^^ c') (w ^^^ c)
      unfold dist at hd hd'
      omega
    have hm := mem_patterns (Nat.xor_lt_two_pow h2.1 h1.1) hwt
    have := List.all_eq_true.mp ht.sep _ hm
    have hz : hammingSyndrome gen (c' ^^^ c) = 0 := by rw [hlin, h1.2, h2.2]; rfl
    rw [hz] at this
    simp at this
    exact xor_eq_zero this
  by_cases hs : hammingSyndrome gen w = 0
  · have hc : IsCode w := (hcode w).mpr ⟨hw, hs⟩
    have hd : dist 15 w w = 0 := by unfold dist; rw [Nat.xor_self]; simp
    refine ⟨w, o, hc, by omega, fun c' h1 h2 => huniq w c' hc h1 (by omega) h2, ?_, ?_, ?_⟩
    · rw [ho, if_pos hs, hd]
    · intro i hi
      rw [hbits, if_pos (by omega)]
      unfold hammingCorrect; rw [if_pos hs]
    · intro i hi
      rw [hbits, if_neg (by omega)]
  · obtain ⟨h1, h2, h3⟩ := ht.fix _ (hlt w) hs
    have hc : IsCode (w ^^^ lut.getD (hammingSyndrome gen w) 0) := by
      rw [hcode]
      refine ⟨Nat.xor_lt_two_pow hw h2, ?_⟩
      rw [hlin, h1, Nat.xor_self]
    have hd : dist 15 w (w ^^^ lut.getD (hammingSyndrome gen w) 0) = 1 := by
      unfold dist
      rw [← Nat.xor_assoc, Nat.xor_self, Nat.zero_xor, h3]
    refine ⟨_, o, hc, by omega, fun c' h1 h2 => huniq _ c' hc h1 (by omega) h2, ?_, ?_, ?_⟩
    · rw [ho, if_neg hs, hd]
    · intro i hi
      rw [hbits, if_pos (by omega)]
      unfold hammingCorrect; rw [if_neg hs]
    · intro i hi
      rw [hbits, if_neg (by omega)]

theorem golaySyndrome_mod (b : Nat) : golaySyndrome b = golaySyndrome (b % 2^23) := by
  have hx : b = (b % 2^23) ^^^ ((b >>> 23) <<< 23) := by
    apply Nat.eq_of_testBit_eq; intro i
    rw [Nat.testBit_xor, Nat.testBit_mod_two_pow, Nat.testBit_shiftLeft, Nat.testBit_shiftRight]
    by_cases h : i < 23
    · simp [h, show ¬ 23 ≤ i by omega]
    · simp [h, show 23 ≤ i by omega, show 23 + (i - 23) = i by omega]
  conv => lhs; rw [hx]
  rw [golaySyndrome_linear]
  have hz : golaySyndrome ((b >>> 23) <<< 23) = 0 := by
    have hbit : ∀ i, i < 23 → ((b >>> 23) <<< 23).testBit i = false := by
      intro i hi
      rw [Nat.testBit_shiftLeft]
      simp [show ¬ 23 ≤ i by omega]
    have hl : ∀ gs k, k < 23 → golayLin gs k ((b >>> 23) <<< 23) = 0 := by
      intro gs
      induction gs with
      | nil => intro k _; rfl
      | cons g gs ih =>
        intro k hk
        simp only [golayLin, hbit k hk, ih (k - 1) (by omega)]
        simp
    unfold golaySyndrome
    rw [golayExpected_eq, hl _ _ (by decide)]
    have h7 : (0x7ff : Nat) = 2^11 - 1 := by decide
    rw [h7, Nat.and_two_pow_sub_one_eq_mod, Nat.shiftLeft_eq, Nat.zero_xor]
    omega
  rw [hz, Nat.xor_zero]

/-- For every `long` block the result's low twelve bits are the data decoded from the
low 23 bits, but bits 23..31 of the block reappear as bits 12..20 of the result. -/
theorem checkGolayBlock_parts (block : Int) :
    ∃ r : Nat, checkGolayBlock block = .ok (r : Int) ∧
      r % 4096 = golayData ((block % 2^23).toNat) ∧
      r / 4096 = (block % 2^32).toNat / 2^23 := by
  unfold checkGolayBlock
  rw [checkGolayBlockU_eq]
  generalize hu : (block % 2^32).toNat = u
  have hu' : u % 2^23 = (block % 2^23).toNat := by omega
  refine ⟨_, rfl, ?_, ?_⟩
  · rw [← hu', golaySyndrome_mod u]
    apply Nat.eq_of_testBit_eq; intro i
    have h4 : (4096 : Nat) = 2^12 := by decide
    rw [h4, Nat.testBit_mod_two_pow]
    unfold golayData
    have hs := testBit_lt_of_lt (golayFix_lt (golaySyndrome (u % 2^23))) (i := i)
    rw [Nat.testBit_xor, Nat.testBit_xor, Nat.testBit_shiftRight, Nat.testBit_shiftRight, Nat.testBit_mod_two_pow]
    by_cases h : i < 12
    · simp [h, show 11 + i < 23 by omega]
    · simp [h, show ¬ 11 + i < 23 by omega, hs (by omega)]
  · have hs := golayFix_lt (golaySyndrome u)
    have e : (4096 : Nat) = 2^12 := by decide
    rw [e, ← Nat.shiftRight_eq_div_pow, ← Nat.shiftRight_eq_div_pow]
    have := linear_shiftRight 12 (u >>> 11) (golayFix (golaySyndrome u))
    simp only at this
    rw [this, ← Nat.shiftRight_add]
    have hz : golayFix (golaySyndrome u) >>> 12 = 0 := by
      rw [Nat.shiftRight_eq_div_pow]; exact Nat.div_eq_of_lt hs
    rw [hz, Nat.xor_zero]

end Verif
