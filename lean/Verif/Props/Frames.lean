import Verif.Lemmas.FrameTx

/-!
# Properties C06–C11 and C13: frame-level ECC, descrambling and packing

Transmitted frames are specified in `Verif.Spec.Frames`.
-/

namespace Verif.Props
open Verif Verif.Spec Verif.Model

/-! ## C06 -/

/-- C06: C0 of an AMBE frame is a Golay(24,12) word with at most three of its 24 bits flipped. The data bits in columns
12..23 become correct, no other row changes, and the return value is the number of flipped data bits; only when no
data bit was flipped it is instead the parity of the number of flipped check bits. -/
theorem C06_ambeC0_corrects_three {c e : Nat} {pe : Bool} {fr : Frame} (hc : IsGolay c) (he : e < 2^23)
    (hw : weight 23 e + pe.toNat ≤ 3) (hrow : Row fr 0 1 23 c e plain 0)
    (hpar : fr 0 0 = chr (decide (weight 23 c % 2 = 1) ^^ pe)) :
    ∃ fr', eccAmbeC0 fr = .ok (fr', if weight 12 (e >>> 11) = 0 then (weight 23 e + pe.toNat) % 2 else weight 12 (e >>> 11)) ∧
      (∀ j, j < 12 → fr' 0 (12 + j) = bit c (11 + j)) ∧
      (∀ i j, i ≠ 0 → fr' i j = fr i j) := by
  have hbits : ∀ j, j < 23 → fr 0 (1 + j) = bit (c ^^^ e) j := by
    intro j hj; rw [hrow j hj, bit_eq_chr]; simp [plain]
  obtain ⟨o, ho, hdata, hpass, _⟩ := C01_golay2312_corrects_three hc he (by omega)
    (fun j => if j < 23 then fr 0 (j + 1) else garbage j) garbage
    (by intro j hj; rw [if_pos hj, Nat.add_comm]; exact hbits j hj)
  unfold eccAmbeC0
  rw [copyIn_eq (by decide) (by decide) (by decide), ok_bind, ho, ok_bind]
  simp only
  rw [copyBack_eq (by decide) (by decide) (by decide), ok_bind]
  have hset : (fun i' j' => if i' = 0 ∧ 1 ≤ j' ∧ j' < 1 + 23 then o (j' - 1) else fr i' j') = setRow0 fr 1 23 o := rfl
  rw [hset]
  have hd : ∀ j, j < 12 → setRow0 fr 1 23 o 0 (12 + j) = bit c (11 + j) := by
    intro j hj
    have := setRow0_row (fr := fr) (off := 1) (n := 23) (buf := o) (show 11 + j < 23 by omega)
    rw [show 1 + (11 + j) = 12 + j by omega] at this
    rw [this, hdata j hj]
  by_cases h0 : weight 12 (e >>> 11) = 0
  · rw [if_pos h0, if_pos h0, loop_ones, ok_bind]
    have hones := ones_eq (fr := setRow0 fr 1 23 o) (w := c ^^^ e) (b := decide (weight 23 c % 2 = 1) ^^ pe)
      (by rw [setRow0_out (by omega)]; exact hpar)
      (by
        intro j hj
        rw [setRow0_row hj]
        by_cases h11 : j < 11
        · rw [hpass j h11, if_pos hj, Nat.add_comm j 1, hbits j hj]
        · have := hdata (j - 11) (by omega)
          rw [show 11 + (j - 11) = j by omega] at this
          rw [this]
          have he' : e.testBit j = false := by
            have hz : ∀ n, n ≤ 12 → weight n (e >>> 11) = 0 := by
              intro n
              intro hn
              have mono : ∀ k, weight n (e >>> 11) ≤ weight (n + k) (e >>> 11) := by
                intro k
                induction k with
                | zero => exact Nat.le_refl _
                | succ k ih => rw [← Nat.add_assoc, weight_succ]; omega
              have := mono (12 - n)
              rw [show n + (12 - n) = 12 by omega] at this
              omega
            have h1 := hz (j - 11 + 1) (by omega)
            rw [weight_succ, Nat.testBit_shiftRight, show 11 + (j - 11) = j by omega] at h1
            cases hb : e.testBit j
            · rfl
            · rw [hb] at h1; simp at h1
          unfold bit
          rw [Nat.testBit_xor, he', Bool.xor_false])
    rw [hones]
    have hpeq : ((decide (weight 23 c % 2 = 1) ^^ pe).toNat + weight 23 (c ^^^ e)) % 2 = (weight 23 e + pe.toNat) % 2 := by
      have := weight_xor_mod 23 c e
      cases pe <;> by_cases hm : weight 23 c % 2 = 1 <;> simp [hm] <;> omega
    by_cases hp : ((decide (weight 23 c % 2 = 1) ^^ pe).toNat + weight 23 (c ^^^ e)) % 2 = 0
    · rw [if_neg (by simpa using hp)]
      refine ⟨_, ?_, hd, fun i j hi => setRow0_other hi⟩
      rw [← hpeq, hp, h0]
    · rw [if_pos hp, rdF_ok (by decide) (by decide), ok_bind, wrF_ok (by decide) (by decide), ok_bind]
      refine ⟨fun i' j' => if i' = 0 ∧ j' = 0 then xorBit (setRow0 fr 1 23 o 0 0) 1 else setRow0 fr 1 23 o i' j', ?_, ?_, ?_⟩
      · rw [← hpeq, show ((decide (weight 23 c % 2 = 1) ^^ pe).toNat + weight 23 (c ^^^ e)) % 2 = 1 by omega]
      · intro j hj
        simp only
        rw [if_neg (by omega)]; exact hd j hj
      · intro i j hi
        simp only
        rw [if_neg (fun hh => hi hh.1)]; exact setRow0_other hi
  · rw [if_neg h0, if_neg h0]
    exact ⟨_, rfl, hd, fun i j hi => setRow0_other hi⟩

/-- Non-trivial instance: message 0xABC, data bits 12 and 22 and the parity bit flipped. -/
example : IsGolay (golayWord 0xABC) ∧ (0x401000 : Nat) < 2^23 ∧ weight 23 0x401000 + true.toNat ≤ 3 ∧
    weight 12 (0x401000 >>> 11) = 2 ∧ ∃ fr : Frame, Row fr 0 1 23 (golayWord 0xABC) 0x401000 plain 0 ∧
    fr 0 0 = chr (decide (weight 23 (golayWord 0xABC) % 2 = 1) ^^ true) := by
  refine ⟨golayWord_isGolay _, by decide, by decide, by decide,
    fun i j => if j = 0 then chr (decide (weight 23 (golayWord 0xABC) % 2 = 1) ^^ true) else
      txRow (golayWord 0xABC) 0x401000 plain 0 1 23 j, ?_, rfl⟩
  intro j hj
  simp only
  rw [if_neg (by omega), txRow, show 1 + j - 1 = j by omega]

/-! ## C07 -/

theorem row_plain {fr : Frame} {i off n c e k0 : Nat} (h : Row fr i off n c e plain k0) :
    ∀ j, j < n → fr i (off + j) = bit (c ^^^ e) j := by
  intro j hj; rw [h j hj, bit_eq_chr]; simp [plain]

/-- C07: every received IMBE 7200x4400 frame within the correction capability is decoded to exactly the transmitted 88
payload bits. The C0 count is the number of flipped data bits of the first word, the total adds the flipped data bits
of the other Golay words and all flipped bits of the Hamming words, and the coset-4 count is that of word 4. -/
theorem C07_imbe7200_round_trip {d : Nat → Int} {c e : Nat → Nat} {fr : Frame} (h : Imbe7200Tx d c e fr)
    (imbe_d : Nat → Int) :
    Ok (frameEcc7200 fr imbe_d) (fun r => (∀ k, k < 88 → r.d k = d k) ∧ r.errs = weight 12 (e 0 >>> 11) ∧
      r.errs2 = weight 12 (e 0 >>> 11) + weight 12 (e 1 >>> 11) + weight 12 (e 2 >>> 11) + weight 12 (e 3 >>> 11) +
        weight 15 (e 4) + weight 15 (e 5) + weight 15 (e 6) ∧
      r.c4 = weight 15 (e 4)) := by
  obtain ⟨g0c, g0e, g0w, g0d⟩ := h.golay 0 (by decide)
  obtain ⟨fr0, hfr0, hdat0, hoth0⟩ := eccImbe7200C0_tx g0c g0e g0w (by
    intro j hj; have := row_plain h.row0 j hj; rwa [Nat.zero_add] at this)
  unfold frameEcc7200
  rw [hfr0, ok_bind]
  simp only
  have hseed : strtol2 (seedDigits fr0 22 12) 0 % 65536 = c 0 >>> 11 := by
    have := seed_bits (fr := fr0) (hi := 22) (n := 12) (w := c 0) (off := 0) (by decide) g0c.lt (by decide) (by
      intro k hk
      have := hdat0 (11 - k) (by omega)
      rw [show 11 + (11 - k) = 0 + 22 - k by omega] at this
      rw [this, bit_eq_chr])
    simpa using this
  rw [demodImbe7200_eq, ok_bind, hseed]
  have row (i k0 n : Nat) (hi : i ≠ 0) (hr : Row fr i 0 n (c i) (e i) (pnBit (c 0 >>> 11)) k0) (f : Frame)
      (hf : ∀ j, f i j = fr0 i j) :
      ∀ j, j < n → xored (pnBit (c 0 >>> 11)) i n k0 f i j = bit (c i ^^^ e i) j := by
    intro j hj
    apply xored_tx hj
    rw [hf, hoth0 i j hi]
    have := hr j hj
    rwa [Nat.zero_add] at this
  have r1 := row 1 1 23 (by decide) (h.rows13 1 (by decide) (by decide))
  have r2 := row 2 24 23 (by decide) (h.rows13 2 (by decide) (by decide))
  have r3 := row 3 47 23 (by decide) (h.rows13 3 (by decide) (by decide))
  have r4 := row 4 70 15 (by decide) (h.rows46 4 (by decide) (by decide))
  have r5 := row 5 85 15 (by decide) (h.rows46 5 (by decide) (by decide))
  have r6 := row 6 100 15 (by decide) (h.rows46 6 (by decide) (by decide))
  generalize hfr1 : descr7200 (pnBit (c 0 >>> 11)) fr0 = fr1
  have s0 : ∀ j, fr1 0 j = fr0 0 j := by
    intro j; rw [← hfr1]; unfold descr7200
    rw [xored_row_ne (by decide), xored_row_ne (by decide), xored_row_ne (by decide), xored_row_ne (by decide),
      xored_row_ne (by decide), xored_row_ne (by decide)]
  have s1 : ∀ j, j < 23 → fr1 1 j = bit (c 1 ^^^ e 1) j := by
    intro j hj; rw [← hfr1]; unfold descr7200
    rw [xored_row_ne (by decide), xored_row_ne (by decide), xored_row_ne (by decide), xored_row_ne (by decide),
      xored_row_ne (by decide)]
    exact r1 _ (fun _ => rfl) j hj
  have s2 : ∀ j, j < 23 → fr1 2 j = bit (c 2 ^^^ e 2) j := by
    intro j hj; rw [← hfr1]; unfold descr7200
    rw [xored_row_ne (by decide), xored_row_ne (by decide), xored_row_ne (by decide), xored_row_ne (by decide)]
    exact r2 _ (fun _ => by rw [xored_row_ne (by decide)]) j hj
  have s3 : ∀ j, j < 23 → fr1 3 j = bit (c 3 ^^^ e 3) j := by
    intro j hj; rw [← hfr1]; unfold descr7200
    rw [xored_row_ne (by decide), xored_row_ne (by decide), xored_row_ne (by decide)]
    exact r3 _ (fun _ => by rw [xored_row_ne (by decide), xored_row_ne (by decide)]) j hj
  have s4 : ∀ j, j < 15 → fr1 4 j = bit (c 4 ^^^ e 4) j := by
    intro j hj; rw [← hfr1]; unfold descr7200
    rw [xored_row_ne (by decide), xored_row_ne (by decide)]
    exact r4 _ (fun _ => by rw [xored_row_ne (by decide), xored_row_ne (by decide), xored_row_ne (by decide)]) j hj
  have s5 : ∀ j, j < 15 → fr1 5 j = bit (c 5 ^^^ e 5) j := by
    intro j hj; rw [← hfr1]; unfold descr7200
    rw [xored_row_ne (by decide)]
    exact r5 _ (fun _ => by
      rw [xored_row_ne (by decide), xored_row_ne (by decide), xored_row_ne (by decide), xored_row_ne (by decide)]) j hj
  have s6 : ∀ j, j < 15 → fr1 6 j = bit (c 6 ^^^ e 6) j := by
    intro j hj; rw [← hfr1]; unfold descr7200
    exact r6 _ (fun _ => by
      rw [xored_row_ne (by decide), xored_row_ne (by decide), xored_row_ne (by decide), xored_row_ne (by decide),
        xored_row_ne (by decide)]) j hj
  have s7 : ∀ j, fr1 7 j = fr 7 j := by
    intro j; rw [← hfr1]; unfold descr7200
    rw [xored_row_ne (by decide), xored_row_ne (by decide), xored_row_ne (by decide), xored_row_ne (by decide),
      xored_row_ne (by decide), xored_row_ne (by decide), hoth0 7 j (by decide)]
  clear hfr1 r1 r2 r3 r4 r5 r6 row
  have hdata : Ok (eccImbe7200Data fr1 imbe_d) (fun t => (∀ k, k < 88 → t.1 k = d k) ∧
      t.2.1 = weight 12 (e 1 >>> 11) + weight 12 (e 2 >>> 11) + weight 12 (e 3 >>> 11) +
        weight 15 (e 4) + weight 15 (e 5) + weight 15 (e 6) ∧ t.2.2 = weight 15 (e 4)) := by
    unfold eccImbe7200Data
    refine Ok.bind (emitRow_filled (d := d) (m := 0) (by decide) (by decide) (by decide)
      ⟨rfl, fun p hp => by omega⟩ ?_) ?_
    · intro k hk
      rw [s0]
      have := hdat0 (11 - k) (by omega)
      rw [show 11 + (11 - k) = 22 - k by omega] at this
      rw [this]; exact g0d k hk
    intro t0 f0
    obtain ⟨g1c, g1e, g1w, g1d⟩ := h.golay 1 (by decide)
    refine Ok.bind (golayRow_filled (d := d) (m := 12) g1c g1e g1w (by decide) (by decide) (by decide) f0
      (by intro j hj; rw [Nat.zero_add]; exact s1 j hj) g1d) ?_
    intro t1 ⟨f1, e1⟩
    obtain ⟨g2c, g2e, g2w, g2d⟩ := h.golay 2 (by decide)
    refine Ok.bind (golayRow_filled (d := d) (m := 24) g2c g2e g2w (by decide) (by decide) (by decide) f1
      (by intro j hj; rw [Nat.zero_add]; exact s2 j hj) g2d) ?_
    intro t2 ⟨f2, e2⟩
    obtain ⟨g3c, g3e, g3w, g3d⟩ := h.golay 3 (by decide)
    refine Ok.bind (golayRow_filled (d := d) (m := 36) g3c g3e g3w (by decide) (by decide) (by decide) f2
      (by intro j hj; rw [Nat.zero_add]; exact s3 j hj) g3d) ?_
    intro t3 ⟨f3, e3⟩
    obtain ⟨h4c, h4e, h4w, h4d⟩ := h.hamming 4 (by decide) (by decide)
    refine Ok.bind (hammingRow_filled (d := d) (m := 48) C03_hamming1511_nearest (fun _ hc => hc.lt) h4c h4e h4w
      (by decide) (by decide) (by decide) f3 s4 h4d) ?_
    intro t4 ⟨f4, e4, e4'⟩
    obtain ⟨h5c, h5e, h5w, h5d⟩ := h.hamming 5 (by decide) (by decide)
    refine Ok.bind (hammingRow_filled (d := d) (m := 59) C03_hamming1511_nearest (fun _ hc => hc.lt) h5c h5e h5w
      (by decide) (by decide) (by decide) f4 s5 h5d) ?_
    intro t5 ⟨f5, e5, _⟩
    obtain ⟨h6c, h6e, h6w, h6d⟩ := h.hamming 6 (by decide) (by decide)
    refine Ok.bind (hammingRow_filled (d := d) (m := 70) C03_hamming1511_nearest (fun _ hc => hc.lt) h6c h6e h6w
      (by decide) (by decide) (by decide) f5 s6 h6d) ?_
    intro t6 ⟨f6, e6, _⟩
    refine Ok.bind (emitRow_filled (d := d) (m := 81) (by decide) (by decide) (by decide) f6
      (by intro k hk; rw [s7]; exact h.row7 k hk)) ?_
    intro t7 f7
    refine Ok.ok ⟨f7.2, ?_, e4'⟩
    simp only at *
    omega
  refine Ok.bind hdata ?_
  intro t ⟨hd, he, hc4⟩
  refine Ok.ok ⟨hd, rfl, ?_, hc4⟩
  show weight 12 (e 0 >>> 11) + t.2.1 = _
  omega

/-- C07, the hypothesis covers everything: every 88-bit payload and every admissible error pattern has such a frame. -/
theorem C07_imbe7200_frame_exists {d : Nat → Int} (hd : Bits 88 d) {e : Nat → Nat}
    (h1 : ∀ i, i < 4 → e i < 2^23 ∧ weight 23 (e i) ≤ 3) (h2 : ∀ i, 4 ≤ i → i < 7 → e i < 2^15 ∧ weight 15 (e i) ≤ 1) :
    ∃ c fr, Imbe7200Tx d c e fr := by
  have hg : ∀ i, ∃ c, i < 4 → IsGolay c ∧ Carries c 22 12 (12 * i) d := by
    intro i
    by_cases hi : i < 4
    · obtain ⟨c, h⟩ := golay_carries (off := 12 * i) hd (by omega)
      exact ⟨c, fun _ => h⟩
    · exact ⟨0, fun h => absurd h hi⟩
  have hh : ∀ i, ∃ c, 4 ≤ i → i < 7 → IsHamming7200 c ∧ Carries c 14 11 (48 + 11 * (i - 4)) d := by
    intro i
    by_cases hi : 4 ≤ i ∧ i < 7
    · obtain ⟨c, h⟩ := hamming7200_carries (off := 48 + 11 * (i - 4)) hd (by omega)
      exact ⟨c, fun _ _ => h⟩
    · exact ⟨0, fun h h' => absurd ⟨h, h'⟩ hi⟩
  let cg := fun i => Classical.choose (hg i)
  let ch := fun i => Classical.choose (hh i)
  let c := fun i => if i < 4 then cg i else ch i
  have hcg : ∀ i, i < 4 → c i = cg i := fun i hi => if_pos hi
  have hch : ∀ i, 4 ≤ i → c i = ch i := fun i hi => if_neg (by omega)
  refine ⟨c, fun i => if i = 0 then txRow (c 0) (e 0) plain 0 0 23
    else if i < 4 then txRow (c i) (e i) (pnBit (c 0 >>> 11)) (1 + 23 * (i - 1)) 0 23
    else if i < 7 then txRow (c i) (e i) (pnBit (c 0 >>> 11)) (70 + 15 * (i - 4)) 0 15
    else fun j => d (81 + (6 - j)), ?_⟩
  refine ⟨?_, ?_, txRow_row rfl, ?_, ?_, ?_⟩
  · intro i hi
    have := Classical.choose_spec (hg i) hi
    rw [hcg i hi]
    exact ⟨this.1, (h1 i hi).1, (h1 i hi).2, this.2⟩
  · intro i hi hi'
    have := Classical.choose_spec (hh i) hi hi'
    rw [hch i hi]
    exact ⟨this.1, (h2 i hi hi').1, (h2 i hi hi').2, this.2⟩
  · intro i hi hi'
    exact txRow_row (by rw [if_neg (by omega), if_pos hi'])
  · intro i hi hi'
    exact txRow_row (by rw [if_neg (by omega), if_neg (by omega), if_pos hi'])
  · intro k hk
    rw [if_neg (by decide), if_neg (by decide), if_neg (by decide)]
    congr 1; omega

/-- A payload with alternating bits and a different error pattern in each word. -/
example : ∃ c fr, Imbe7200Tx (fun k => (k % 2 : Nat)) c
    (fun i => if i < 4 then 0x400801 <<< 0 else 1 <<< i) fr := by
  refine C07_imbe7200_frame_exists ?_ ?_ ?_
  · intro i _; simp only; omega
  · intro i hi; simp only [if_pos hi]; decide
  · intro i h h'
    simp only [if_neg (show ¬ i < 4 by omega)]
    have : i = 4 ∨ i = 5 ∨ i = 6 := by omega
    rcases this with rfl | rfl | rfl <;> decide

/-! ## C08 -/

/-- C08: every received IMBE 7100x4400 frame within the correction capability is decoded to exactly the transmitted 88
payload bits (in 7100x4400 order). -/
theorem C08_imbe7100_round_trip {d : Nat → Int} {c e : Nat → Nat} {fr : Frame} (h : Imbe7100Tx d c e fr)
    (imbe_d : Nat → Int) :
    Ok (frameEcc7100 fr imbe_d) (fun r => (∀ k, k < 88 → r.d k = d k) ∧ r.errs = weight 12 (e 0 >>> 11) ∧
      r.errs2 = weight 12 (e 0 >>> 11) + weight 12 (e 1 >>> 11) + weight 12 (e 2 >>> 11) + weight 12 (e 3 >>> 11) +
        weight 15 (e 4) + weight 15 (e 5) ∧
      r.c4 = weight 15 (e 4)) := by
  obtain ⟨g0c, g0lt, g0e, g0w, g0d⟩ := h.golay0
  obtain ⟨fr0, hfr0, hdat0, hoth0⟩ := eccImbe7100C0_tx g0c g0lt g0e g0w (row_plain h.row0)
  unfold frameEcc7100
  rw [hfr0, ok_bind]
  simp only
  have hseed : strtol2 (seedDigits fr0 18 7) 0 % 65536 = c 0 >>> 11 := by
    have := seed_bits (fr := fr0) (hi := 17) (n := 7) (w := c 0) (off := 1) (by decide) g0lt (by decide) (by
      intro k hk
      have := hdat0 (6 - k) (by omega)
      rw [show 12 + (6 - k) = 1 + 17 - k by omega] at this
      rw [this, bit_eq_chr]; congr 2; omega)
    simpa using this
  rw [demodImbe7100_eq, ok_bind, hseed]
  have row (i k0 n : Nat) (hi : i ≠ 0) (hr : Row fr i 0 n (c i) (e i) (pnBit (c 0 >>> 11)) k0) (f : Frame)
      (hf : ∀ j, f i j = fr0 i j) :
      ∀ j, j < n → xored (pnBit (c 0 >>> 11)) i n k0 f i j = bit (c i ^^^ e i) j := by
    intro j hj
    apply xored_tx hj
    rw [hf, hoth0 i j hi]
    have := hr j hj
    rwa [Nat.zero_add] at this
  have r2 := row 2 25 23 (by decide) (h.rows23 2 (by decide) (by decide))
  have r3 := row 3 48 23 (by decide) (h.rows23 3 (by decide) (by decide))
  have r4 := row 4 71 15 (by decide) (h.rows45 4 (by decide) (by decide))
  have r5 := row 5 86 15 (by decide) (h.rows45 5 (by decide) (by decide))
  generalize hfr1 : descr7100 (pnBit (c 0 >>> 11)) fr0 = fr1
  have s0 : ∀ j, fr1 0 j = fr0 0 j := by
    intro j; rw [← hfr1]; unfold descr7100
    rw [xored_row_ne (by decide), xored_row_ne (by decide), xored_row_ne (by decide), xored_row_ne (by decide),
      xored_row_ne (by decide)]
  have s1 : ∀ j, j < 23 → fr1 1 (1 + j) = bit (c 1 ^^^ e 1) j := by
    intro j hj; rw [← hfr1]; unfold descr7100
    rw [xored_row_ne (by decide), xored_row_ne (by decide), xored_row_ne (by decide), xored_row_ne (by decide),
      xored_row_eq (by omega), hoth0 1 _ (by decide), h.row1 j hj, show 1 + (24 - 1 - (1 + j)) = 1 + (23 - 1 - j) by omega,
      xorBit_chr, bit_eq_chr]
    congr 1
    cases (c 1 ^^^ e 1).testBit j <;> cases pnBit (c 0 >>> 11) (1 + (23 - 1 - j)) <;> rfl
  have s2 : ∀ j, j < 23 → fr1 2 j = bit (c 2 ^^^ e 2) j := by
    intro j hj; rw [← hfr1]; unfold descr7100
    rw [xored_row_ne (by decide), xored_row_ne (by decide), xored_row_ne (by decide)]
    exact r2 _ (fun _ => by rw [xored_row_ne (by decide)]) j hj
  have s3 : ∀ j, j < 23 → fr1 3 j = bit (c 3 ^^^ e 3) j := by
    intro j hj; rw [← hfr1]; unfold descr7100
    rw [xored_row_ne (by decide), xored_row_ne (by decide)]
    exact r3 _ (fun _ => by rw [xored_row_ne (by decide), xored_row_ne (by decide)]) j hj
  have s4 : ∀ j, j < 15 → fr1 4 j = bit (c 4 ^^^ e 4) j := by
    intro j hj; rw [← hfr1]; unfold descr7100
    rw [xored_row_ne (by decide)]
    exact r4 _ (fun _ => by rw [xored_row_ne (by decide), xored_row_ne (by decide), xored_row_ne (by decide)]) j hj
  have s5 : ∀ j, j < 15 → fr1 5 j = bit (c 5 ^^^ e 5) j := by
    intro j hj; rw [← hfr1]; unfold descr7100
    exact r5 _ (fun _ => by
      rw [xored_row_ne (by decide), xored_row_ne (by decide), xored_row_ne (by decide), xored_row_ne (by decide)]) j hj
  have s6 : ∀ j, fr1 6 j = fr 6 j := by
    intro j; rw [← hfr1]; unfold descr7100
    rw [xored_row_ne (by decide), xored_row_ne (by decide), xored_row_ne (by decide), xored_row_ne (by decide),
      xored_row_ne (by decide), hoth0 6 j (by decide)]
  clear hfr1 r2 r3 r4 r5 row
  have hdata : Ok (eccImbe7100Data fr1 imbe_d) (fun t => (∀ k, k < 88 → t.1 k = d k) ∧
      t.2.1 = weight 12 (e 1 >>> 11) + weight 12 (e 2 >>> 11) + weight 12 (e 3 >>> 11) +
        weight 15 (e 4) + weight 15 (e 5) ∧ t.2.2 = weight 15 (e 4)) := by
    unfold eccImbe7100Data
    refine Ok.bind (emitRow_filled (d := d) (m := 0) (by decide) (by decide) (by decide)
      ⟨rfl, fun p hp => by omega⟩ ?_) ?_
    · intro k hk
      rw [s0]
      have := hdat0 (6 - k) (by omega)
      rw [show 12 + (6 - k) = 18 - k by omega] at this
      rw [this, show 11 + (6 - k) = 17 - k by omega]; exact g0d k hk
    intro t0 f0
    obtain ⟨g1c, g1e, g1w, g1d⟩ := h.golay 1 (by decide) (by decide)
    refine Ok.bind (golayRow_filled (d := d) (m := 7) g1c g1e g1w (by decide) (by decide) (by decide) f0
      s1 g1d) ?_
    intro t1 ⟨f1, e1⟩
    obtain ⟨g2c, g2e, g2w, g2d⟩ := h.golay 2 (by decide) (by decide)
    refine Ok.bind (golayRow_filled (d := d) (m := 19) g2c g2e g2w (by decide) (by decide) (by decide) f1
      (by intro j hj; rw [Nat.zero_add]; exact s2 j hj) g2d) ?_
    intro t2 ⟨f2, e2⟩
    obtain ⟨g3c, g3e, g3w, g3d⟩ := h.golay 3 (by decide) (by decide)
    refine Ok.bind (golayRow_filled (d := d) (m := 31) g3c g3e g3w (by decide) (by decide) (by decide) f2
      (by intro j hj; rw [Nat.zero_add]; exact s3 j hj) g3d) ?_
    intro t3 ⟨f3, e3⟩
    obtain ⟨h4c, h4e, h4w, h4d⟩ := h.hamming 4 (by decide) (by decide)
    refine Ok.bind (hammingRow_filled (d := d) (m := 43) C03_hamming1511_7100_nearest (fun _ hc => hc.lt) h4c h4e h4w
      (by decide) (by decide) (by decide) f3 s4 h4d) ?_
    intro t4 ⟨f4, e4, e4'⟩
    obtain ⟨h5c, h5e, h5w, h5d⟩ := h.hamming 5 (by decide) (by decide)
    refine Ok.bind (hammingRow_filled (d := d) (m := 54) C03_hamming1511_7100_nearest (fun _ hc => hc.lt) h5c h5e h5w
      (by decide) (by decide) (by decide) f4 s5 h5d) ?_
    intro t5 ⟨f5, e5, _⟩
    refine Ok.bind (emitRow_filled (d := d) (m := 65) (by decide) (by decide) (by decide) f5
      (by intro k hk; rw [s6]; exact h.row6 k hk)) ?_
    intro t7 f7
    refine Ok.ok ⟨f7.2, ?_, e4'⟩
    simp only at *
    omega
  refine Ok.bind hdata ?_
  intro t ⟨hd, he, hc4⟩
  refine Ok.ok ⟨hd, rfl, ?_, hc4⟩
  show weight 12 (e 0 >>> 11) + t.2.1 = _
  omega

/-- C08, the hypothesis covers everything: every payload and every admissible error pattern has such a frame. -/
theorem C08_imbe7100_frame_exists {d : Nat → Int} (hd : Bits 88 d) {e : Nat → Nat}
    (h0 : e 0 < 2^18 ∧ weight 23 (e 0) ≤ 3)
    (h1 : ∀ i, 1 ≤ i → i < 4 → e i < 2^23 ∧ weight 23 (e i) ≤ 3)
    (h2 : ∀ i, 4 ≤ i → i < 6 → e i < 2^15 ∧ weight 15 (e i) ≤ 1) :
    ∃ c fr, Imbe7100Tx d c e fr := by
  obtain ⟨c0, hc0⟩ := golay_carries7 (off := 0) hd (by decide)
  have hg : ∀ i, ∃ c, 1 ≤ i → i < 4 → IsGolay c ∧ Carries c 22 12 (7 + 12 * (i - 1)) d := by
    intro i
    by_cases hi : 1 ≤ i ∧ i < 4
    · obtain ⟨c, h⟩ := golay_carries (off := 7 + 12 * (i - 1)) hd (by omega)
      exact ⟨c, fun _ _ => h⟩
    · exact ⟨0, fun h h' => absurd ⟨h, h'⟩ hi⟩
  have hh : ∀ i, ∃ c, 4 ≤ i → i < 6 → IsHamming7100 c ∧ Carries c 14 11 (43 + 11 * (i - 4)) d := by
    intro i
    by_cases hi : 4 ≤ i ∧ i < 6
    · obtain ⟨c, h⟩ := hamming7100_carries (off := 43 + 11 * (i - 4)) hd (by omega)
      exact ⟨c, fun _ _ => h⟩
    · exact ⟨0, fun h h' => absurd ⟨h, h'⟩ hi⟩
  let cg := fun i => Classical.choose (hg i)
  let ch := fun i => Classical.choose (hh i)
  let c := fun i => if i = 0 then c0 else if i < 4 then cg i else ch i
  have hcg : ∀ i, 1 ≤ i → i < 4 → c i = cg i := fun i h hi => by
    show (if i = 0 then c0 else if i < 4 then cg i else ch i) = _
    rw [if_neg (by omega), if_pos hi]
  have hch : ∀ i, 4 ≤ i → c i = ch i := fun i hi => by
    show (if i = 0 then c0 else if i < 4 then cg i else ch i) = _
    rw [if_neg (by omega), if_neg (by omega)]
  refine ⟨c, fun i => if i = 0 then txRow (c 0) (e 0) plain 0 1 18
    else if i = 1 then txRow (c 1) (e 1) (pnBit (c 0 >>> 11)) 1 1 23
    else if i < 4 then txRow (c i) (e i) (pnBit (c 0 >>> 11)) (25 + 23 * (i - 2)) 0 23
    else if i < 6 then txRow (c i) (e i) (pnBit (c 0 >>> 11)) (71 + 15 * (i - 4)) 0 15
    else fun j => d (65 + (22 - j)), ?_⟩
  refine ⟨?_, ?_, ?_, txRow_row rfl, txRow_row rfl, ?_, ?_, ?_⟩
  · exact ⟨hc0.1, hc0.2.1, h0.1, h0.2, hc0.2.2⟩
  · intro i hi hi'
    have := Classical.choose_spec (hg i) hi hi'
    rw [hcg i hi hi']
    exact ⟨this.1, (h1 i hi hi').1, (h1 i hi hi').2, this.2⟩
  · intro i hi hi'
    have := Classical.choose_spec (hh i) hi hi'
    rw [hch i hi]
    exact ⟨this.1, (h2 i hi hi').1, (h2 i hi hi').2, this.2⟩
  · intro i hi hi'
    exact txRow_row (by rw [if_neg (by omega), if_neg (by omega), if_pos hi'])
  · intro i hi hi'
    exact txRow_row (by rw [if_neg (by omega), if_neg (by omega), if_neg (by omega), if_pos hi'])
  · intro k hk
    rw [if_neg (by decide), if_neg (by decide), if_neg (by decide), if_neg (by decide)]
    congr 1; omega

example : ∃ c fr, Imbe7100Tx (fun k => (k % 2 : Nat)) c
    (fun i => if i < 4 then 0x20801 else 1 <<< i) fr := by
  refine C08_imbe7100_frame_exists ?_ ?_ ?_ ?_
  · intro i _; simp only; omega
  · decide
  · intro i _ hi; simp only [if_pos hi]; decide
  · intro i h h'
    simp only [if_neg (show ¬ i < 4 by omega)]
    have : i = 4 ∨ i = 5 := by omega
    rcases this with rfl | rfl <;> decide

/-! ## C09 -/

/-- C09: every received AMBE frame with at most three flipped bits in the extended C0 word and at most three in C1 is
decoded to exactly the transmitted 49 payload bits. The reported total is the number of flipped data bits of C0 and C1,
except that when C0 has no flipped data bit its share is the parity of its flipped check bits. -/
theorem C09_ambe_round_trip {d : Nat → Int} {c e : Nat → Nat} {pe : Bool} {fr : Frame} (h : AmbeTx d c e pe fr)
    (ambe_d : Nat → Int) :
    Ok (frameEccAmbe fr ambe_d) (fun r => (∀ k, k < 49 → r.d k = d k) ∧ r.errs = ambeC0Count (e 0) pe ∧
      r.errs2 = ambeC0Count (e 0) pe + weight 12 (e 1 >>> 11)) := by
  obtain ⟨g0c, g0e, g0w, g0d⟩ := h.golay0
  obtain ⟨g1c, g1e, g1w, g1d⟩ := h.golay1
  obtain ⟨fr0, hfr0, hdat0, hoth0⟩ := C06_ambeC0_corrects_three g0c g0e g0w h.row0 h.parity
  unfold frameEccAmbe
  rw [hfr0, ok_bind]
  simp only
  have hseed : ambeSeed fr0 = c 0 >>> 11 := ambeSeed_bits g0c.lt (by
    intro k hk
    have := hdat0 (11 - k) (by omega)
    rw [show 12 + (11 - k) = 23 - k by omega] at this
    rw [this, bit_eq_chr]; congr 2; omega)
  rw [demodAmbe_eq, ok_bind, hseed]
  generalize hfr1 : xored (pnBit (c 0 >>> 11)) 1 23 1 fr0 = fr1
  have s0 : ∀ j, fr1 0 j = fr0 0 j := by intro j; rw [← hfr1, xored_row_ne (by decide)]
  have s1 : ∀ j, j < 23 → fr1 1 j = bit (c 1 ^^^ e 1) j := by
    intro j hj
    rw [← hfr1]
    apply xored_tx hj
    rw [hoth0 1 j (by decide)]
    have := h.row1 j hj
    rwa [Nat.zero_add] at this
  have s2 : ∀ j, fr1 2 j = fr 2 j := by intro j; rw [← hfr1, xored_row_ne (by decide), hoth0 2 j (by decide)]
  have s3 : ∀ j, fr1 3 j = fr 3 j := by intro j; rw [← hfr1, xored_row_ne (by decide), hoth0 3 j (by decide)]
  clear hfr1
  have hdata : Ok (eccAmbeData fr1 ambe_d) (fun t => (∀ k, k < 49 → t.1 k = d k) ∧ t.2 = weight 12 (e 1 >>> 11)) := by
    unfold eccAmbeData
    refine Ok.bind (emitRow_filled (d := d) (m := 0) (by decide) (by decide) (by decide)
      ⟨rfl, fun p hp => by omega⟩ ?_) ?_
    · intro k hk
      rw [s0]
      have := hdat0 (11 - k) (by omega)
      rw [show 12 + (11 - k) = 23 - k by omega] at this
      rw [this, show 11 + (11 - k) = 22 - k by omega]; exact g0d k hk
    intro t0 f0
    rw [copyIn_eq (by decide) (by decide) (by decide), ok_bind]
    obtain ⟨o, ho, hod, _, _⟩ := C01_golay2312_corrects_three g1c g1e g1w
      (fun j => if j < 23 then fr1 1 (j + 0) else garbage j) garbage
      (by intro j hj; rw [if_pos hj]; exact s1 j hj)
    rw [ho, ok_bind]
    simp only
    rw [emitBuf_eq (by decide) (by rw [f0.1]; decide), ok_bind]
    have f1 : Filled d (12 + 12) (emitted (fun k => o (22 - k)) 12 t0) := emitted_filled f0 (by
      intro k hk
      have := hod (11 - k) (by omega)
      rw [show 11 + (11 - k) = 22 - k by omega] at this
      rw [this]; exact g1d k hk)
    refine Ok.bind (emitRow_filled (d := d) (m := 24) (by decide) (by decide) (by decide) f1
      (by intro k hk; rw [s2]; exact h.row2 k hk)) ?_
    intro t2 f2
    refine Ok.bind (emitRow_filled (d := d) (m := 35) (by decide) (by decide) (by decide) f2
      (by intro k hk; rw [s3]; exact h.row3 k hk)) ?_
    intro t3 f3
    exact Ok.ok ⟨f3.2, rfl⟩
  refine Ok.bind hdata ?_
  intro t ⟨hd, he⟩
  exact Ok.ok ⟨hd, rfl, by simp only [he]; rfl⟩

/-- C09, the hypothesis covers everything: every payload and every admissible error pattern has such a frame. -/
theorem C09_ambe_frame_exists {d : Nat → Int} (hd : Bits 49 d) {e : Nat → Nat} {pe : Bool}
    (h0 : e 0 < 2^23 ∧ weight 23 (e 0) + pe.toNat ≤ 3) (h1 : e 1 < 2^23 ∧ weight 23 (e 1) ≤ 3) :
    ∃ c fr, AmbeTx d c e pe fr := by
  obtain ⟨c0, hc0⟩ := golay_carries (off := 0) hd (by decide)
  obtain ⟨c1, hc1⟩ := golay_carries (off := 12) hd (by decide)
  refine ⟨fun i => if i = 0 then c0 else c1, fun i j =>
    if i = 0 then (if j = 0 then chr (decide (weight 23 c0 % 2 = 1) ^^ pe) else txRow c0 (e 0) plain 0 1 23 j)
    else if i = 1 then txRow c1 (e 1) (pnBit (c0 >>> 11)) 1 0 23 j
    else if i = 2 then d (24 + (10 - j)) else d (35 + (13 - j)), ?_⟩
  refine ⟨⟨hc0.1, h0.1, h0.2, hc0.2⟩, ⟨hc1.1, h1.1, h1.2, hc1.2⟩, rfl, ?_, ?_, ?_, ?_⟩
  · intro j hj
    simp only [if_pos]
    rw [if_neg (by omega), txRow, show 1 + j - 1 = j by omega]
  · intro j hj
    simp only [if_pos, Nat.zero_add]
    rw [if_neg (by decide)]
    rfl
  · intro k hk
    rw [if_neg (by decide), if_neg (by decide), if_pos (by decide)]
    congr 1; omega
  · intro k hk
    rw [if_neg (by decide), if_neg (by decide), if_neg (by decide)]
    congr 1; omega

example : ∃ c fr, AmbeTx (fun k => (k % 2 : Nat)) c (fun i => if i = 0 then 0x400800 else 0x400801) true fr := by
  refine C09_ambe_frame_exists ?_ ?_ ?_
  · intro i _; simp only; omega
  · decide
  · decide

/-- C09: "the total is the number of flipped data bits" is not exact. One flipped check bit of C0 is reported as one
error although no data bit was hit. -/
theorem C09_check_bit_counted {d : Nat → Int} {c : Nat → Nat} {fr : Frame}
    (h : AmbeTx d c (fun i => if i = 0 then 1 else 0) false fr) (ambe_d : Nat → Int) :
    Ok (frameEccAmbe fr ambe_d) (fun r => r.errs2 = 1) := by
  refine (C09_ambe_round_trip h ambe_d).mono ?_
  intro r ⟨_, _, h2⟩
  rw [h2]; decide

example : ∃ c fr, AmbeTx (fun _ => 1) c (fun i => if i = 0 then 1 else 0) false fr :=
  C09_ambe_frame_exists (fun _ _ => Or.inr rfl) (by decide) (by decide)

/-! ## C10 -/

/-- C10, IMBE 7200x4400: for every frame content descrambling succeeds, applying it twice gives the original frame back,
and only columns 0..22 of rows 1..3 and columns 0..14 of rows 4..6 can change. -/
theorem C10_demod7200_involution (fr : Frame) :
    ∃ fr', demodImbe7200 fr = .ok fr' ∧ demodImbe7200 fr' = .ok fr ∧
      ∀ i j, fr' i j ≠ fr i j → (1 ≤ i ∧ i < 4 ∧ j < 23) ∨ (4 ≤ i ∧ i < 7 ∧ j < 15) := by
  have hch : ∀ (pn : Nat → Bool) i j, descr7200 pn fr i j ≠ fr i j → (1 ≤ i ∧ i < 4 ∧ j < 23) ∨ (4 ≤ i ∧ i < 7 ∧ j < 15) := by
    intro pn i j hne
    unfold descr7200 xored at hne
    by_cases h1 : i = 1 ∧ j < 23
    · omega
    by_cases h2 : i = 2 ∧ j < 23
    · omega
    by_cases h3 : i = 3 ∧ j < 23
    · omega
    by_cases h4 : i = 4 ∧ j < 15
    · omega
    by_cases h5 : i = 5 ∧ j < 15
    · omega
    by_cases h6 : i = 6 ∧ j < 15
    · omega
    exfalso
    apply hne
    simp only [if_neg h1, if_neg h2, if_neg h3, if_neg h4, if_neg h5, if_neg h6]
  refine ⟨_, demodImbe7200_eq fr, ?_, hch _⟩
  generalize hpn : pnBit (strtol2 (seedDigits fr 22 12) 0 % 65536) = pn
  rw [demodImbe7200_eq, seedDigits_congr (fr' := fr), hpn]
  · congr 1
    unfold descr7200
    rw [xored_comm (i := 1) (i' := 6) (by decide), xored_comm (i := 2) (i' := 6) (by decide),
      xored_comm (i := 3) (i' := 6) (by decide), xored_comm (i := 4) (i' := 6) (by decide),
      xored_comm (i := 5) (i' := 6) (by decide), xored_xored,
      xored_comm (i := 1) (i' := 5) (by decide), xored_comm (i := 2) (i' := 5) (by decide),
      xored_comm (i := 3) (i' := 5) (by decide), xored_comm (i := 4) (i' := 5) (by decide), xored_xored,
      xored_comm (i := 1) (i' := 4) (by decide), xored_comm (i := 2) (i' := 4) (by decide),
      xored_comm (i := 3) (i' := 4) (by decide), xored_xored,
      xored_comm (i := 1) (i' := 3) (by decide), xored_comm (i := 2) (i' := 3) (by decide), xored_xored,
      xored_comm (i := 1) (i' := 2) (by decide), xored_xored, xored_xored]
  · intro j
    by_cases h : descr7200 pn fr 0 j = fr 0 j
    · exact h
    · have := hch pn 0 j h; omega

/-- C10, IMBE 7100x4400: the same; only row 1 (24 columns), rows 2..3 (23) and rows 4..5 (15) can change. -/
theorem C10_demod7100_involution (fr : Frame) :
    ∃ fr', demodImbe7100 fr = .ok fr' ∧ demodImbe7100 fr' = .ok fr ∧
      ∀ i j, fr' i j ≠ fr i j → (i = 1 ∧ j < 24) ∨ (2 ≤ i ∧ i < 4 ∧ j < 23) ∨ (4 ≤ i ∧ i < 6 ∧ j < 15) := by
  have hch : ∀ (pn : Nat → Bool) i j, descr7100 pn fr i j ≠ fr i j →
      (i = 1 ∧ j < 24) ∨ (2 ≤ i ∧ i < 4 ∧ j < 23) ∨ (4 ≤ i ∧ i < 6 ∧ j < 15) := by
    intro pn i j hne
    unfold descr7100 xored at hne
    by_cases h1 : i = 1 ∧ j < 24
    · omega
    by_cases h2 : i = 2 ∧ j < 23
    · omega
    by_cases h3 : i = 3 ∧ j < 23
    · omega
    by_cases h4 : i = 4 ∧ j < 15
    · omega
    by_cases h5 : i = 5 ∧ j < 15
    · omega
    exfalso
    apply hne
    simp only [if_neg h1, if_neg h2, if_neg h3, if_neg h4, if_neg h5]
  refine ⟨_, demodImbe7100_eq fr, ?_, hch _⟩
  generalize hpn : pnBit (strtol2 (seedDigits fr 18 7) 0 % 65536) = pn
  rw [demodImbe7100_eq, seedDigits_congr (fr' := fr), hpn]
  · congr 1
    unfold descr7100
    rw [xored_comm (i := 1) (i' := 5) (by decide), xored_comm (i := 2) (i' := 5) (by decide),
      xored_comm (i := 3) (i' := 5) (by decide), xored_comm (i := 4) (i' := 5) (by decide), xored_xored,
      xored_comm (i := 1) (i' := 4) (by decide), xored_comm (i := 2) (i' := 4) (by decide),
      xored_comm (i := 3) (i' := 4) (by decide), xored_xored,
      xored_comm (i := 1) (i' := 3) (by decide), xored_comm (i := 2) (i' := 3) (by decide), xored_xored,
      xored_comm (i := 1) (i' := 2) (by decide), xored_xored, xored_xored]
  · intro j
    by_cases h : descr7100 pn fr 0 j = fr 0 j
    · exact h
    · have := hch pn 0 j h; omega

/-- C10, AMBE: the same; only the 23 columns of row 1 can change. -/
theorem C10_demodAmbe_involution (fr : Frame) :
    ∃ fr', demodAmbe fr = .ok fr' ∧ demodAmbe fr' = .ok fr ∧ ∀ i j, fr' i j ≠ fr i j → i = 1 ∧ j < 23 := by
  refine ⟨_, demodAmbe_eq fr, ?_, ?_⟩
  · rw [demodAmbe_eq, ambeSeed_congr (fr' := fr), xored_xored]
    intro j; rw [xored_row_ne (by decide)]
  · intro i j hne
    unfold xored at hne
    by_cases h1 : i = 1 ∧ j < 23
    · exact h1
    · rw [if_neg h1] at hne; exact absurd rfl hne

/-- Descrambling is not the identity: the all-zero AMBE frame changes. -/
example : (demodAmbe fun _ _ => 0).toOption.map (fun fr => (List.range 23).map (fr 1)) =
    some [1, 1, 0, 0, 0, 1, 0, 0, 0, 1, 1, 0, 0, 1, 1, 0, 1, 0, 0, 0, 0, 1, 0] := by decide +kernel

/-! ## C11 -/

/-- C11: for every 16-bit state the C expression is evaluated without signed overflow and equals the specified
recurrence; the whole table is then filled without touching an uninitialised or out-of-range entry, and
entry `k` is the specified scrambling bit, 0 or 1. -/
theorem C11_pn_no_overflow (seed n : Nat) (hn : n ≤ 115) :
    (∀ p, p < 65536 → prStep p = .ok ((173 * p + 13849) % 65536)) ∧
    Ok (prArray seed n) (fun pr => ∀ k, 1 ≤ k → k < n → pr k = some (pnBit seed k).toNat ∧ (pnBit seed k).toNat ≤ 1) := by
  refine ⟨fun p hp => prStep_eq hp, (prArray_ok hn).mono ?_⟩
  intro pr h k h1 h2
  exact ⟨h k h1 h2, by cases pnBit seed k <;> decide⟩

/-- A seed whose first modulation bits are not constant. -/
example : pnBit 0xABC 2 = false ∧ pnBit 0xABC 3 = true := by decide

/-- C11: demodulation keeps 0/1 frames 0/1, for all three demodulators. -/
theorem C11_demod_keeps_bits (fr : Frame) :
    (BitFrame 8 23 fr → Ok (demodImbe7200 fr) (BitFrame 8 23)) ∧
    (BitFrame 7 24 fr → Ok (demodImbe7100 fr) (BitFrame 7 24)) ∧
    (BitFrame 4 24 fr → Ok (demodAmbe fr) (BitFrame 4 24)) := by
  refine ⟨fun h => ?_, fun h => ?_, fun h => ?_⟩
  · rw [demodImbe7200_eq]
    exact Ok.ok (xored_bits (xored_bits (xored_bits (xored_bits (xored_bits (xored_bits h))))))
  · rw [demodImbe7100_eq]
    exact Ok.ok (xored_bits (xored_bits (xored_bits (xored_bits (xored_bits h)))))
  · rw [demodAmbe_eq]
    exact Ok.ok (xored_bits h)

example : BitFrame 8 23 (fun i j => ((i + j) % 2 : Nat)) := by intro i j _ _; simp only; omega

/-! ## C13 -/

/-- C13, IMBE 7200x4400: for every frame of 0/1 chars the ECC chain succeeds, the C0 count is at most three, the total
lies between the C0 count and 15, the coset-4 count is at most one, and all 88 parameter bits are 0/1. -/
theorem C13_imbe7200_counts (fr : Frame) (h : BitFrame 8 23 fr) (imbe_d : Nat → Int) :
    Ok (frameEcc7200 fr imbe_d) (fun r => r.errs ≤ 3 ∧ r.errs ≤ r.errs2 ∧ r.errs2 ≤ 15 ∧ r.c4 ≤ 1 ∧ Bits 88 r.d) := by
  unfold frameEcc7200
  refine Ok.bind (eccImbe7200C0_bits h) fun t ⟨h1, he⟩ => ?_
  refine Ok.bind ((C11_demod_keeps_bits t.1).1 h1) fun f hf => ?_
  have : Ok (eccImbe7200Data f imbe_d) (fun t => Bits 88 t.1 ∧ t.2.1 ≤ 12 ∧ t.2.2 ≤ 1) := by
    unfold eccImbe7200Data
    refine Ok.bind (emitRow_bits (m := 0) hf (by decide) (by decide) (by decide) ⟨rfl, fun p hp => by omega⟩) fun t0 f0 => ?_
    refine Ok.bind (golayRow_bits (m := 12) hf (by decide) (by decide) (by decide) f0) fun t1 ⟨f1, e1⟩ => ?_
    refine Ok.bind (golayRow_bits (m := 24) hf (by decide) (by decide) (by decide) f1) fun t2 ⟨f2, e2⟩ => ?_
    refine Ok.bind (golayRow_bits (m := 36) hf (by decide) (by decide) (by decide) f2) fun t3 ⟨f3, e3⟩ => ?_
    refine Ok.bind (hammingRow_bits (m := 48) C03_hamming1511_nearest hf (by decide) (by decide) (by decide) f3)
      fun t4 ⟨f4, e4, e4'⟩ => ?_
    refine Ok.bind (hammingRow_bits (m := 59) C03_hamming1511_nearest hf (by decide) (by decide) (by decide) f4)
      fun t5 ⟨f5, e5, _⟩ => ?_
    refine Ok.bind (hammingRow_bits (m := 70) C03_hamming1511_nearest hf (by decide) (by decide) (by decide) f5)
      fun t6 ⟨f6, e6, _⟩ => ?_
    refine Ok.bind (emitRow_bits (m := 81) hf (by decide) (by decide) (by decide) f6) fun t7 f7 => ?_
    refine Ok.ok ⟨f7.2, ?_, e4'⟩
    simp only at *
    omega
  refine Ok.bind this fun t' ⟨hb, he2, hc⟩ => Ok.ok ⟨he, Nat.le_add_right _ _, ?_, hc, hb⟩
  show t.2 + t'.2.1 ≤ 15
  omega

/-- C13, IMBE 7100x4400: the same with a total of at most 14. -/
theorem C13_imbe7100_counts (fr : Frame) (h : BitFrame 7 24 fr) (imbe_d : Nat → Int) :
    Ok (frameEcc7100 fr imbe_d) (fun r => r.errs ≤ 3 ∧ r.errs ≤ r.errs2 ∧ r.errs2 ≤ 14 ∧ r.c4 ≤ 1 ∧ Bits 88 r.d) := by
  unfold frameEcc7100
  refine Ok.bind (eccImbe7100C0_bits h) fun t ⟨h1, he⟩ => ?_
  refine Ok.bind ((C11_demod_keeps_bits t.1).2.1 h1) fun f hf => ?_
  have : Ok (eccImbe7100Data f imbe_d) (fun t => Bits 88 t.1 ∧ t.2.1 ≤ 11 ∧ t.2.2 ≤ 1) := by
    unfold eccImbe7100Data
    refine Ok.bind (emitRow_bits (m := 0) hf (by decide) (by decide) (by decide) ⟨rfl, fun p hp => by omega⟩) fun t0 f0 => ?_
    refine Ok.bind (golayRow_bits (m := 7) hf (by decide) (by decide) (by decide) f0) fun t1 ⟨f1, e1⟩ => ?_
    refine Ok.bind (golayRow_bits (m := 19) hf (by decide) (by decide) (by decide) f1) fun t2 ⟨f2, e2⟩ => ?_
    refine Ok.bind (golayRow_bits (m := 31) hf (by decide) (by decide) (by decide) f2) fun t3 ⟨f3, e3⟩ => ?_
    refine Ok.bind (hammingRow_bits (m := 43) C03_hamming1511_7100_nearest hf (by decide) (by decide) (by decide) f3)
      fun t4 ⟨f4, e4, e4'⟩ => ?_
    refine Ok.bind (hammingRow_bits (m := 54) C03_hamming1511_7100_nearest hf (by decide) (by decide) (by decide) f4)
      fun t5 ⟨f5, e5, _⟩ => ?_
    refine Ok.bind (emitRow_bits (m := 65) hf (by decide) (by decide) (by decide) f5) fun t7 f7 => ?_
    refine Ok.ok ⟨f7.2, ?_, e4'⟩
    simp only at *
    omega
  refine Ok.bind this fun t' ⟨hb, he2, hc⟩ => Ok.ok ⟨he, Nat.le_add_right _ _, ?_, hc, hb⟩
  show t.2 + t'.2.1 ≤ 14
  omega

/-- C13, AMBE: the C0 count is at most three and the total lies between it and 6. -/
theorem C13_ambe_counts (fr : Frame) (h : BitFrame 4 24 fr) (ambe_d : Nat → Int) :
    Ok (frameEccAmbe fr ambe_d) (fun r => r.errs ≤ 3 ∧ r.errs ≤ r.errs2 ∧ r.errs2 ≤ 6 ∧ Bits 49 r.d) := by
  unfold frameEccAmbe
  refine Ok.bind (eccAmbeC0_bits h) fun t ⟨h1, he⟩ => ?_
  refine Ok.bind ((C11_demod_keeps_bits t.1).2.2 h1) fun f hf => ?_
  have : Ok (eccAmbeData f ambe_d) (fun t => Bits 49 t.1 ∧ t.2 ≤ 3) := by
    unfold eccAmbeData
    refine Ok.bind (emitRow_bits (m := 0) hf (by decide) (by decide) (by decide) ⟨rfl, fun p hp => by omega⟩) fun t0 f0 => ?_
    rw [copyIn_eq (by decide) (by decide) (by decide), ok_bind]
    obtain ⟨o, errs, ho, he, hob⟩ := golay_bits (fun j => if j < 23 then f 1 (j + 0) else garbage j) garbage
      (by intro j hj; rw [if_pos hj]; exact hf 1 j (by decide) (by omega))
    rw [ho, ok_bind]
    simp only
    rw [emitBuf_eq (by decide) (by rw [f0.1]; decide), ok_bind]
    have f1 : FilledBits (12 + 12) (emitted (fun k => o (22 - k)) 12 t0) :=
      emitted_bits f0 (fun k hk => hob _ (by omega))
    refine Ok.bind (emitRow_bits (m := 24) hf (by decide) (by decide) (by decide) f1) fun t2 f2 => ?_
    refine Ok.bind (emitRow_bits (m := 35) hf (by decide) (by decide) (by decide) f2) fun t3 f3 => ?_
    exact Ok.ok ⟨f3.2, he⟩
  refine Ok.bind this fun t' ⟨hb, he2⟩ => Ok.ok ⟨he, Nat.le_add_right _ _, ?_, hb⟩
  show t.2 + t'.2 ≤ 6
  omega

/-- The bounds are attained: three flipped data bits in each protected word of an AMBE frame. -/
example : ∃ (d : Nat → Int) (c : Nat → Nat) (fr : Frame), AmbeTx d c (fun _ => 0x700000) false fr ∧
    Ok (frameEccAmbe fr d) (fun r => r.errs = 3 ∧ r.errs2 = 6) := by
  obtain ⟨c, fr, h⟩ := C09_ambe_frame_exists (d := fun _ => 1) (e := fun _ => 0x700000) (pe := false)
    (fun _ _ => Or.inr rfl) (by decide) (by decide)
  refine ⟨_, c, fr, h, (C09_ambe_round_trip h _).mono fun r ⟨_, h1, h2⟩ => ⟨?_, ?_⟩⟩
  · rw [h1]; decide
  · rw [h2]; decide

end Verif.Props
