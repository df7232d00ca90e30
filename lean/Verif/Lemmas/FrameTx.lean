import Verif.Lemmas.FrameCodes

/-! C0 correction on received frames and existence of transmitted frames. -/

namespace Verif
open Verif.Spec Verif.Model Verif.Props

/-- Frame whose row 0 was replaced in columns `off .. off+n-1`. -/
def setRow0 (fr : Frame) (off n : Nat) (buf : Nat → Int) : Frame :=
  fun i' j' => if i' = 0 ∧ off ≤ j' ∧ j' < off + n then buf (j' - off) else fr i' j'

theorem setRow0_other {fr : Frame} {off n : Nat} {buf : Nat → Int} {i j : Nat} (h : i ≠ 0) :
    setRow0 fr off n buf i j = fr i j := by unfold setRow0; rw [if_neg (fun hh => h hh.1)]

theorem setRow0_row {fr : Frame} {off n : Nat} {buf : Nat → Int} {j : Nat} (h : j < n) :
    setRow0 fr off n buf 0 (off + j) = buf j := by
  unfold setRow0; rw [if_pos ⟨rfl, by omega, by omega⟩]; congr 1; omega

theorem setRow0_out {fr : Frame} {off n : Nat} {buf : Nat → Int} {j : Nat} (h : j < off ∨ off + n ≤ j) :
    setRow0 fr off n buf 0 j = fr 0 j := by
  unfold setRow0; rw [if_neg (fun hh => by omega)]

theorem eccImbe7200C0_eq (fr : Frame) : ∃ o errs,
    golay2312 (fun j => if j < 23 then fr 0 (j + 0) else garbage j) garbage = .ok (o, errs) ∧
    eccImbe7200C0 fr = .ok (setRow0 fr 0 23 o, errs) := by
  obtain ⟨o, errs, h, _, _⟩ := golay2312_eq (fun j => if j < 23 then fr 0 (j + 0) else garbage j) garbage
  refine ⟨o, errs, h, ?_⟩
  unfold eccImbe7200C0
  rw [copyIn_eq (by decide) (by decide) (by decide), ok_bind, h, ok_bind]
  simp only
  rw [copyBack_eq (by decide) (by decide) (by decide), ok_bind]
  rfl

theorem eccImbe7200C0_tx {fr : Frame} {c e : Nat} (hc : IsGolay c) (he : e < 2^23) (hw : weight 23 e ≤ 3)
    (hrow : ∀ j, j < 23 → fr 0 j = bit (c ^^^ e) j) :
    ∃ fr', eccImbe7200C0 fr = .ok (fr', weight 12 (e >>> 11)) ∧ (∀ j, j < 12 → fr' 0 (11 + j) = bit c (11 + j)) ∧
      ∀ i j, i ≠ 0 → fr' i j = fr i j := by
  obtain ⟨o, errs, h, heq⟩ := eccImbe7200C0_eq fr
  obtain ⟨o', h', hdata, _, _⟩ := C01_golay2312_corrects_three hc he hw (fun j => if j < 23 then fr 0 (j + 0) else garbage j)
    garbage (by intro j hj; rw [if_pos hj]; exact hrow j hj)
  rw [h] at h'
  injection h' with h'; injection h' with h1 h2
  subst h1; subst h2
  refine ⟨_, heq, ?_, fun i j hi => setRow0_other hi⟩
  intro j hj
  have := setRow0_row (fr := fr) (off := 0) (buf := o) (show 11 + j < 23 by omega)
  rw [Nat.zero_add] at this
  rw [this, hdata j hj]

theorem loop_zeros {buf : Nat → Int} :
    loop 5 (fun k inp => wr 23 inp (18 + k) (0 : Int)) buf = .ok (fun j => if 18 ≤ j ∧ j < 23 then 0 else buf j) := by
  apply Ok.eq
  refine (loop_inv (fun k b => b = fun j => if 18 ≤ j ∧ j < 18 + k then 0 else buf j) ?_ ?_).mono fun _ h => h
  · funext j; rw [if_neg (by omega)]
  · intro k hk s hs
    rw [wr_ok (by omega)]
    refine Ok.ok ?_
    subst hs
    funext j
    simp only [upd]
    by_cases h : j = 18 + k
    · subst h; rw [if_pos rfl, if_pos (by omega)]
    · rw [if_neg h]
      by_cases h2 : 18 ≤ j ∧ j < 18 + k
      · rw [if_pos h2, if_pos (by omega)]
      · rw [if_neg h2, if_neg (by omega)]

/-- Golay input of the 7100x4400 C0 decoder. -/
def in7100 (fr : Frame) : Nat → Int :=
  fun j => if 18 ≤ j ∧ j < 23 then 0 else if j < 18 then fr 0 (j + 1) else garbage j

theorem eccImbe7100C0_eq (fr : Frame) : ∃ o errs, golay2312 (in7100 fr) garbage = .ok (o, errs) ∧
    eccImbe7100C0 fr = .ok (setRow0 fr 1 18 o, errs) := by
  obtain ⟨o, errs, h, _, _⟩ := golay2312_eq (in7100 fr) garbage
  refine ⟨o, errs, h, ?_⟩
  unfold eccImbe7100C0
  rw [copyIn_eq (by decide) (by decide) (by decide), ok_bind, loop_zeros, ok_bind]
  show (golay2312 (in7100 fr) garbage >>= _) = _
  rw [h, ok_bind]
  simp only
  rw [copyBack_eq (by decide) (by decide) (by decide), ok_bind]
  rfl

theorem eccImbe7100C0_tx {fr : Frame} {c e : Nat} (hc : IsGolay c) (hc18 : c < 2^18) (he : e < 2^18)
    (hw : weight 23 e ≤ 3) (hrow : ∀ j, j < 18 → fr 0 (1 + j) = bit (c ^^^ e) j) :
    ∃ fr', eccImbe7100C0 fr = .ok (fr', weight 12 (e >>> 11)) ∧ (∀ j, j < 7 → fr' 0 (12 + j) = bit c (11 + j)) ∧
      ∀ i j, i ≠ 0 → fr' i j = fr i j := by
  obtain ⟨o, errs, h, heq⟩ := eccImbe7100C0_eq fr
  obtain ⟨o', h', hdata, _, _⟩ := C01_golay2312_corrects_three hc (e := e) (by omega) hw (in7100 fr)
    garbage (by
      intro j hj
      unfold in7100
      by_cases h18 : j < 18
      · rw [if_neg (by omega), if_pos h18, Nat.add_comm]; exact hrow j h18
      · rw [if_pos (by omega)]
        unfold bit
        rw [testBit_lt_of_lt (Nat.xor_lt_two_pow hc18 he) (by omega)]; rfl)
  rw [h] at h'
  injection h' with h'; injection h' with h1 h2
  subst h1; subst h2
  refine ⟨_, heq, ?_, fun i j hi => setRow0_other hi⟩
  intro j hj
  have := setRow0_row (fr := fr) (off := 1) (n := 18) (buf := o) (show 11 + j < 18 by omega)
  rw [show 1 + (11 + j) = 12 + j by omega] at this
  rw [this, hdata j (by omega)]

/-! ### existence of frames -/

/-- The word whose bits, most significant first, are payload bits `off .. off+n-1`. -/
def wordOf (n off : Nat) (d : Nat → Int) : Nat :=
  (List.range n).foldl (fun a k => 2 * a + (decide (d (off + k) = 1)).toNat) 0

theorem wordOf_lt (n off : Nat) (d : Nat → Int) : wordOf n off d < 2^n := foldl_bits_lt n fun k => decide (d (off + k) = 1)

theorem wordOf_testBit {n off : Nat} {d : Nat → Int} {i : Nat} (hi : i < n) :
    (wordOf n off d).testBit i = decide (d (off + (n - 1 - i)) = 1) :=
  foldl_bits_testBit n (fun k => decide (d (off + k) = 1)) i hi

/-- A word whose top bits are `wordOf` carries the payload. -/
theorem carries_of_shift {c hi n off N : Nat} {d : Nat → Int} (h : c >>> (hi + 1 - n) = wordOf n off d) (hn : n ≤ hi + 1)
    (hb : Bits N d) (hN : off + n ≤ N) : Carries c hi n off d := by
  intro k hk
  have h1 : (c >>> (hi + 1 - n)).testBit (n - 1 - k) = c.testBit (hi - k) := by
    rw [Nat.testBit_shiftRight]; congr 1; omega
  unfold bit
  rw [← h1, h, wordOf_testBit (by omega), show off + (n - 1 - (n - 1 - k)) = off + k by omega]
  rcases hb (off + k) (by omega) with h | h <;> rw [h] <;> rfl

theorem golay_carries {N off : Nat} {d : Nat → Int} (hb : Bits N d) (hN : off + 12 ≤ N) :
    ∃ c, IsGolay c ∧ Carries c 22 12 off d :=
  ⟨golayWord (wordOf 12 off d), golayWord_isGolay _, carries_of_shift (golayWord_data (wordOf_lt _ _ _)) (by decide) hb hN⟩

theorem golay_carries7 {N off : Nat} {d : Nat → Int} (hb : Bits N d) (hN : off + 7 ≤ N) :
    ∃ c, IsGolay c ∧ c < 2^18 ∧ Carries c 17 7 off d := by
  have h7 := wordOf_lt 7 off d
  have hd := golayWord_data (m := wordOf 7 off d) (by omega)
  refine ⟨golayWord (wordOf 7 off d), golayWord_isGolay _, ?_, carries_of_shift hd (by decide) hb hN⟩
  rw [Nat.shiftRight_eq_div_pow] at hd
  omega

theorem hamming_carries {IsCode : Nat → Prop} {syn : Nat → Nat}
    (hiff : ∀ c, IsCode c ↔ c < 2^15 ∧ syn c = 0) (hlin : Linear syn)
    (hlt : ∀ c, syn c < 16) (hlow : ∀ s, s < 16 → ∃ p, p < 16 ∧ syn p = s)
    {N off : Nat} {d : Nat → Int} (hb : Bits N d) (hN : off + 11 ≤ N) : ∃ c, IsCode c ∧ Carries c 14 11 off d := by
  obtain ⟨p, hp, hs⟩ := hlow (syn (wordOf 11 off d <<< 4)) (hlt _)
  have hw := wordOf_lt 11 off d
  have hws : wordOf 11 off d <<< 4 < 2^15 := by rw [Nat.shiftLeft_eq]; omega
  refine ⟨(wordOf 11 off d <<< 4) ^^^ p, ?_, carries_of_shift ?_ (by decide) hb hN⟩
  · rw [hiff]
    refine ⟨Nat.xor_lt_two_pow hws (by omega), ?_⟩
    rw [hlin, hs, Nat.xor_self]
  · show ((wordOf 11 off d <<< 4) ^^^ p) >>> 4 = _
    have := linear_shiftRight 4 (wordOf 11 off d <<< 4) p
    simp only at this
    rw [this, Nat.shiftLeft_shiftRight, show p >>> 4 = 0 by rw [Nat.shiftRight_eq_div_pow]; omega, Nat.xor_zero]

theorem forall_lt_16 {P : Nat → Prop} (h : ∀ i : Fin 16, P i) : ∀ s, s < 16 → P s := fun s hs => h ⟨s, hs⟩

theorem hamming7200_carries {N off : Nat} {d : Nat → Int} (hb : Bits N d) (hN : off + 11 ≤ N) :
    ∃ c, IsHamming7200 c ∧ Carries c 14 11 off d :=
  hamming_carries isHamming7200_iff (hammingSyndrome_linear _ _ _ _) (hammingSyndrome_lt _ _ _ _)
    (by
      intro s hs
      have : ∀ s : Fin 16, ∃ p : Fin 16, hammingSyndrome Gen.hammingGenerator p = s := by decide +kernel
      obtain ⟨p, hp⟩ := this ⟨s, hs⟩
      exact ⟨p, p.2, hp⟩) hb hN

theorem hamming7100_carries {N off : Nat} {d : Nat → Int} (hb : Bits N d) (hN : off + 11 ≤ N) :
    ∃ c, IsHamming7100 c ∧ Carries c 14 11 off d :=
  hamming_carries isHamming7100_iff (hammingSyndrome_linear _ _ _ _) (hammingSyndrome_lt _ _ _ _)
    (by
      intro s hs
      have : ∀ s : Fin 16, ∃ p : Fin 16, hammingSyndrome Gen.imbe7100x4400hammingGenerator p = s := by decide +kernel
      obtain ⟨p, hp⟩ := this ⟨s, hs⟩
      exact ⟨p, p.2, hp⟩) hb hN

/-- Rows from words: scrambled word `i` placed at column `off`. -/
def txRow (c e : Nat) (pn : Nat → Bool) (k0 off n : Nat) : Nat → Int :=
  fun j => chr (((c ^^^ e).testBit (j - off)) ^^ (pn (k0 + (n - 1 - (j - off)))))

theorem txRow_row {fr : Frame} {i off n c e k0 : Nat} {pn : Nat → Bool} (h : fr i = txRow c e pn k0 off n) :
    Row fr i off n c e pn k0 := by
  intro j _
  rw [h, txRow, show off + j - off = j by omega]

/-! ### C0 of AMBE -/

theorem loop_ones (fr : Frame) : loop 24 (fun j ones => do
      let v ← rdF 4 24 fr 0 j
      .ok (ones + bitOf v)) 0 = .ok (ploop 24 (fun j ones => ones + bitOf (fr 0 j)) 0) := by
  apply loop_eq_ploop
  intro i hi s
  rw [rdF_ok (by decide) hi]; rfl

theorem ones_eq {fr : Frame} {w : Nat} {b : Bool} (h0 : fr 0 0 = chr b) (hrow : ∀ j, j < 23 → fr 0 (1 + j) = bit w j) :
    ploop 24 (fun j ones => ones + bitOf (fr 0 j)) 0 = b.toNat + weight 23 w := by
  have key : ∀ n, n ≤ 23 → ploop (n + 1) (fun j ones => ones + bitOf (fr 0 j)) 0 = b.toNat + weight n w := by
    intro n
    induction n with
    | zero => intro _; rw [ploop_succ, ploop_zero, h0, weight_zero_left]; cases b <;> decide
    | succ n ih =>
      intro hn
      rw [ploop_succ, ih (by omega), weight_succ, Nat.add_comm n 1, hrow n (by omega)]
      unfold bit bitOf
      cases w.testBit n <;> simp <;> omega
  exact key 23 (Nat.le_refl _)

/-! ### 0/1 frames -/

theorem xored_bits {R C : Nat} {pn : Nat → Bool} {i n k0 : Nat} {fr : Frame} (h : BitFrame R C fr) :
    BitFrame R C (xored pn i n k0 fr) := by
  intro i' j hi hj
  unfold xored
  split
  · rcases h i' j hi hj with h | h <;> rw [h] <;> cases pn (k0 + (n - 1 - j)) <;> decide
  · exact h i' j hi hj

theorem golay_bits (inp out : Nat → Int) (h : ∀ i, i < 23 → inp i = 0 ∨ inp i = 1) :
    ∃ o errs, golay2312 inp out = .ok (o, errs) ∧ errs ≤ 3 ∧ ∀ i, i < 23 → o i = 0 ∨ o i = 1 := by
  have hb : ∀ i, i < 23 → inp i = bit (packBits 23 inp) i := by
    intro i hi
    unfold bit
    rw [packBits_testBit (by decide)]
    rcases h i hi with h | h <;> rw [h] <;> simp [hi, bitOf]
  obtain ⟨c, o, errs, hc, hd, _, ho, hdata, _, he⟩ := C02_golay2312_nearest (packBits 23 inp) (packBits_lt (by decide) _) inp out hb
  have hcw : c ^^^ (packBits 23 inp ^^^ c) = packBits 23 inp := by
    rw [Nat.xor_comm _ c, ← Nat.xor_assoc, Nat.xor_self, Nat.zero_xor]
  obtain ⟨o', ho', _, hpass, _⟩ := C01_golay2312_corrects_three hc (e := packBits 23 inp ^^^ c)
    (Nat.xor_lt_two_pow (packBits_lt (by decide) _) hc.lt) hd inp out (by rw [hcw]; exact hb)
  rw [ho] at ho'
  injection ho' with ho'; injection ho' with h1 _
  subst h1
  refine ⟨o, errs, ho, he, ?_⟩
  intro i hi
  by_cases h11 : i < 11
  · rw [hpass i h11]; exact h i hi
  · have := hdata (i - 11) (by omega)
    rw [show 11 + (i - 11) = i by omega] at this
    rw [this]; unfold bit; split <;> simp

/-- The first `n` outputs are 0/1 and the cursor is at `n`. -/
def FilledBits (n : Nat) (s : (Nat → Int) × Nat) : Prop := s.2 = n ∧ ∀ p, p < n → s.1 p = 0 ∨ s.1 p = 1

theorem emitted_bits {m n : Nat} {s : (Nat → Int) × Nat} {src : Nat → Int} (h : FilledBits m s)
    (hsrc : ∀ k, k < n → src k = 0 ∨ src k = 1) : FilledBits (m + n) (emitted src n s) := by
  obtain ⟨h1, h2⟩ := h
  refine ⟨by simp only [emitted, h1], ?_⟩
  intro p hp
  simp only [emitted]
  by_cases hpm : p < m
  · rw [if_neg (by omega)]; exact h2 p hpm
  · rw [if_pos (by omega)]; exact hsrc _ (by omega)

theorem emitRow_bits {R C len : Nat} {fr : Frame} {i hi n m : Nat} {s : (Nat → Int) × Nat} (hf : BitFrame R C fr)
    (hR : i < R) (hC : hi < C) (hlen : m + n ≤ len) (h : FilledBits m s) :
    Ok (emitRow R C len fr i hi n s) (FilledBits (m + n)) := by
  rw [emitRow_eq hR hC (by rw [h.1]; exact hlen)]
  exact Ok.ok (emitted_bits h fun k _ => hf _ _ hR (by omega))

theorem golayRow_bits {R C len : Nat} {fr : Frame} {i off m : Nat} {s : ((Nat → Int) × Nat) × Nat} (hf : BitFrame R C fr)
    (hR : i < R) (hC : 23 + off ≤ C) (hlen : m + 12 ≤ len) (h : FilledBits m s.1) :
    Ok (golayRow R C len fr i off s) (fun t => FilledBits (m + 12) t.1 ∧ t.2 ≤ s.2 + 3) := by
  unfold golayRow
  rw [copyIn_eq hR (by omega) (by decide), ok_bind]
  obtain ⟨o, errs, ho, he, hob⟩ := golay_bits (fun j => if j < 23 then fr i (j + off) else garbage j) garbage
    (by intro j hj; rw [if_pos hj]; exact hf _ _ hR (by omega))
  rw [ho, ok_bind]
  simp only
  rw [emitBuf_eq (by decide) (by rw [h.1]; exact hlen), ok_bind]
  exact Ok.ok ⟨emitted_bits h (fun k hk => hob _ (by omega)), by simp only; omega⟩

theorem hammingRow_bits {R C len : Nat} {fr : Frame} {i m : Nat} {s : ((Nat → Int) × Nat) × Nat}
    {dec : (Nat → Int) → (Nat → Int) → Exec ((Nat → Int) × Nat)} {IsCode : Nat → Prop}
    (hdec : ∀ (w : Nat), w < 2^15 → ∀ (inp out : Nat → Int), (∀ i, i < 15 → inp i = bit w i) →
      ∃ c o, IsCode c ∧ dist 15 w c ≤ 1 ∧ (∀ c', IsCode c' → dist 15 w c' ≤ 1 → c' = c) ∧
        dec inp out = .ok (o, dist 15 w c) ∧ (∀ i, i < 15 → o i = bit c i) ∧ (∀ i, 15 ≤ i → o i = out i))
    (hf : BitFrame R C fr) (hR : i < R) (hC : 15 ≤ C) (hlen : m + 11 ≤ len) (h : FilledBits m s.1) :
    Ok (hammingRow R C len dec fr i s)
      (fun t => FilledBits (m + 11) t.1.1 ∧ t.1.2 ≤ s.2 + 1 ∧ t.2 ≤ 1) := by
  unfold hammingRow
  rw [copyIn_eq hR (by omega) (by decide), ok_bind]
  have hin : ∀ j, j < 15 → (fun j => if j < 15 then fr i (j + 0) else garbage j) j =
      bit (packBits 15 (fun j => if j < 15 then fr i (j + 0) else garbage j)) j := by
    intro j hj
    unfold bit
    rw [packBits_testBit (by decide)]
    simp only [if_pos hj]
    rcases hf i j hR (by omega) with h | h <;> simp [h, hj, bitOf]
  obtain ⟨c', o, hc', hd, hu, ho, hdata, _⟩ := hdec _ (packBits_lt (by decide) _)
    (fun j => if j < 15 then fr i (j + 0) else garbage j) garbage hin
  rw [ho, ok_bind]
  simp only
  rw [emitBuf_eq (by decide) (by rw [h.1]; exact hlen), ok_bind]
  refine Ok.ok ⟨emitted_bits h ?_, by simp only; omega, hd⟩
  intro k hk
  rw [hdata (14 - k) (by omega)]; unfold bit; split <;> simp

theorem setRow0_bits {R C : Nat} {fr : Frame} {off n : Nat} {o : Nat → Int} (h : BitFrame R C fr)
    (ho : ∀ i, i < n → o i = 0 ∨ o i = 1) : BitFrame R C (setRow0 fr off n o) := by
  intro i j hi hj
  unfold setRow0
  split
  · exact ho _ (by omega)
  · exact h i j hi hj

theorem eccImbe7200C0_bits {fr : Frame} (h : BitFrame 8 23 fr) :
    Ok (eccImbe7200C0 fr) (fun t => BitFrame 8 23 t.1 ∧ t.2 ≤ 3) := by
  obtain ⟨o, errs, h1, heq⟩ := eccImbe7200C0_eq fr
  obtain ⟨o', errs', h1', he, hb⟩ := golay_bits (fun j => if j < 23 then fr 0 (j + 0) else garbage j) garbage
    (by intro j hj; rw [if_pos hj]; exact h 0 j (by decide) hj)
  rw [h1] at h1'
  injection h1' with h1'; injection h1' with e1 e2
  subst e1; subst e2
  rw [heq]
  exact Ok.ok ⟨setRow0_bits h hb, he⟩

theorem eccImbe7100C0_bits {fr : Frame} (h : BitFrame 7 24 fr) :
    Ok (eccImbe7100C0 fr) (fun t => BitFrame 7 24 t.1 ∧ t.2 ≤ 3) := by
  obtain ⟨o, errs, h1, heq⟩ := eccImbe7100C0_eq fr
  obtain ⟨o', errs', h1', he, hb⟩ := golay_bits (in7100 fr) garbage (by
    intro j hj
    unfold in7100
    split
    · exact Or.inl rfl
    · rw [if_pos (by omega)]; exact h 0 _ (by decide) (by omega))
  rw [h1] at h1'
  injection h1' with h1'; injection h1' with e1 e2
  subst e1; subst e2
  rw [heq]
  exact Ok.ok ⟨setRow0_bits h fun i hi => hb i (by omega), he⟩

theorem eccAmbeC0_bits {fr : Frame} (h : BitFrame 4 24 fr) :
    Ok (eccAmbeC0 fr) (fun t => BitFrame 4 24 t.1 ∧ t.2 ≤ 3) := by
  obtain ⟨o, errs, ho, he, hb⟩ := golay_bits (fun j => if j < 23 then fr 0 (j + 1) else garbage j) garbage
    (by intro j hj; rw [if_pos hj]; exact h 0 _ (by decide) (by omega))
  unfold eccAmbeC0
  rw [copyIn_eq (by decide) (by decide) (by decide), ok_bind, ho, ok_bind]
  simp only
  rw [copyBack_eq (by decide) (by decide) (by decide), ok_bind]
  have hset : (fun i' j' => if i' = 0 ∧ 1 ≤ j' ∧ j' < 1 + 23 then o (j' - 1) else fr i' j') = setRow0 fr 1 23 o := rfl
  rw [hset]
  have hbits := setRow0_bits (off := 1) h hb
  refine Ok.ite (fun _ => ?_) fun _ => Ok.ok ⟨hbits, he⟩
  rw [loop_ones, ok_bind]
  refine Ok.ite (fun _ => ?_) fun _ => Ok.ok ⟨hbits, he⟩
  rw [rdF_ok (by decide) (by decide), ok_bind, wrF_ok (by decide) (by decide), ok_bind]
  refine Ok.ok ⟨?_, by simp only; omega⟩
  intro i j hi hj
  simp only
  split
  · rcases hbits 0 0 (by decide) (by decide) with h | h <;> rw [h] <;> decide
  · exact hbits i j hi hj

end Verif
