import Verif.Lemmas.Frames
import Verif.Props.Ecc

/-! Row-by-row decoding of received frames, for the frame-level properties. -/

namespace Verif
open Verif.Spec Verif.Model Verif.Props

/-- The first `n` entries of the output equal the payload and the cursor is at `n`. -/
def Filled (d : Nat → Int) (n : Nat) (s : (Nat → Int) × Nat) : Prop := s.2 = n ∧ ∀ p, p < n → s.1 p = d p

theorem emitted_filled {d : Nat → Int} {m n : Nat} {s : (Nat → Int) × Nat} {src : Nat → Int} (h : Filled d m s)
    (hsrc : ∀ k, k < n → src k = d (m + k)) : Filled d (m + n) (emitted src n s) := by
  obtain ⟨h1, h2⟩ := h
  refine ⟨by simp only [emitted, h1], ?_⟩
  intro p hp
  simp only [emitted]
  by_cases hpm : p < m
  · rw [if_neg (by omega)]; exact h2 p hpm
  · rw [if_pos (by omega), h1, hsrc _ (by omega)]
    congr 1; omega

theorem emitRow_filled {R C len : Nat} {fr : Frame} {i hi n m : Nat} {s : (Nat → Int) × Nat} {d : Nat → Int}
    (hR : i < R) (hC : hi < C) (hlen : m + n ≤ len) (h : Filled d m s)
    (hsrc : ∀ k, k < n → fr i (hi - k) = d (m + k)) :
    Ok (emitRow R C len fr i hi n s) (Filled d (m + n)) := by
  rw [emitRow_eq hR hC (by rw [h.1]; exact hlen)]
  exact Ok.ok (emitted_filled h hsrc)

theorem golayRow_filled {R C len : Nat} {fr : Frame} {i off m : Nat} {s : ((Nat → Int) × Nat) × Nat} {d : Nat → Int}
    {c e : Nat} (hc : IsGolay c) (he : e < 2^23) (hw : weight 23 e ≤ 3)
    (hR : i < R) (hC : 23 + off ≤ C) (hlen : m + 12 ≤ len) (h : Filled d m s.1)
    (hrow : ∀ j, j < 23 → fr i (off + j) = bit (c ^^^ e) j) (hcar : Carries c 22 12 m d) :
    Ok (golayRow R C len fr i off s) (fun t => Filled d (m + 12) t.1 ∧ t.2 = s.2 + weight 12 (e >>> 11)) := by
  unfold golayRow
  rw [copyIn_eq hR (by omega) (by decide), ok_bind]
  obtain ⟨o, ho, hdata, _, _⟩ := C01_golay2312_corrects_three hc he hw (fun j => if j < 23 then fr i (j + off) else garbage j)
    garbage (by intro j hj; rw [if_pos hj, Nat.add_comm]; exact hrow j hj)
  rw [ho, ok_bind]
  simp only
  rw [emitBuf_eq (by decide) (by rw [h.1]; exact hlen), ok_bind]
  refine Ok.ok ⟨emitted_filled h ?_, rfl⟩
  intro k hk
  have := hdata (11 - k) (by omega)
  rw [show 11 + (11 - k) = 22 - k by omega] at this
  rw [this]; exact hcar k hk

theorem hammingRow_filled {R C len : Nat} {fr : Frame} {i m : Nat} {s : ((Nat → Int) × Nat) × Nat} {d : Nat → Int}
    {dec : (Nat → Int) → (Nat → Int) → Exec ((Nat → Int) × Nat)} {IsCode : Nat → Prop}
    (hdec : ∀ (w : Nat), w < 2^15 → ∀ (inp out : Nat → Int), (∀ i, i < 15 → inp i = bit w i) →
      ∃ c o, IsCode c ∧ dist 15 w c ≤ 1 ∧ (∀ c', IsCode c' → dist 15 w c' ≤ 1 → c' = c) ∧
        dec inp out = .ok (o, dist 15 w c) ∧ (∀ i, i < 15 → o i = bit c i) ∧ (∀ i, 15 ≤ i → o i = out i))
    (hlt : ∀ c, IsCode c → c < 2^15)
    {c e : Nat} (hc : IsCode c) (he : e < 2^15) (hw : weight 15 e ≤ 1)
    (hR : i < R) (hC : 15 ≤ C) (hlen : m + 11 ≤ len) (h : Filled d m s.1)
    (hrow : ∀ j, j < 15 → fr i j = bit (c ^^^ e) j) (hcar : Carries c 14 11 m d) :
    Ok (hammingRow R C len dec fr i s)
      (fun t => Filled d (m + 11) t.1.1 ∧ t.1.2 = s.2 + weight 15 e ∧ t.2 = weight 15 e) := by
  unfold hammingRow
  rw [copyIn_eq hR (by omega) (by decide), ok_bind]
  obtain ⟨c', o, hc', _, hu, ho, hdata, _⟩ := hdec (c ^^^ e) (Nat.xor_lt_two_pow (hlt c hc) he)
    (fun j => if j < 15 then fr i (j + 0) else garbage j) garbage
    (by intro j hj; rw [if_pos hj, Nat.add_zero]; exact hrow j hj)
  have hce : c ^^^ e ^^^ c = e := by rw [Nat.xor_comm c e, xor_xor_cancel_right]
  have hcc : c = c' := hu c hc (by unfold dist; rw [hce]; exact hw)
  subst hcc
  have hd : dist 15 (c ^^^ e) c = weight 15 e := by unfold dist; rw [hce]
  rw [ho, ok_bind]
  simp only
  rw [emitBuf_eq (by decide) (by rw [h.1]; exact hlen), ok_bind]
  refine Ok.ok ⟨emitted_filled h ?_, by rw [hd], hd⟩
  intro k hk
  rw [hdata (14 - k) (by omega)]; exact hcar k hk

theorem Spec.IsHamming7200.lt {c : Nat} (h : IsHamming7200 c) : c < 2^15 := h.1
theorem Spec.IsHamming7100.lt {c : Nat} (h : IsHamming7100 c) : c < 2^15 := by
  rw [isHamming7100_iff] at h; exact h.1

/-! ### demodulation -/

/-- Descrambled frame of IMBE 7200x4400. -/
def descr7200 (pn : Nat → Bool) (fr : Frame) : Frame :=
  xored pn 6 15 100 (xored pn 5 15 85 (xored pn 4 15 70 (xored pn 3 23 47 (xored pn 2 23 24 (xored pn 1 23 1 fr)))))

theorem demodImbe7200_eq (fr : Frame) :
    demodImbe7200 fr = .ok (descr7200 (pnBit (strtol2 (seedDigits fr 22 12) 0 % 65536)) fr) := by
  unfold demodImbe7200
  simp only
  obtain ⟨pr, hpr, hb⟩ := prArray_ok (seed := strtol2 (seedDigits fr 22 12) 0 % 65536) (n := 115) (Nat.le_refl _)
  rw [hpr, ok_bind]
  rw [xorRow_eq hb (Nat.le_refl _) (by decide) (by decide) (by simp) (by simp), ok_bind]
  rw [xorRow_eq hb (Nat.le_refl _) (by decide) (by decide) (by simp) (by simp), ok_bind]
  rw [xorRow_eq hb (Nat.le_refl _) (by decide) (by decide) (by simp) (by simp), ok_bind]
  rw [xorRow_eq hb (Nat.le_refl _) (by decide) (by decide) (by simp) (by simp), ok_bind]
  rw [xorRow_eq hb (Nat.le_refl _) (by decide) (by decide) (by simp) (by simp), ok_bind]
  rw [xorRow_eq hb (Nat.le_refl _) (by decide) (by decide) (by simp) (by simp), ok_bind]
  rfl

/-- Descrambled frame of IMBE 7100x4400. -/
def descr7100 (pn : Nat → Bool) (fr : Frame) : Frame :=
  xored pn 5 15 86 (xored pn 4 15 71 (xored pn 3 23 48 (xored pn 2 23 25 (xored pn 1 24 1 fr))))

theorem demodImbe7100_eq (fr : Frame) :
    demodImbe7100 fr = .ok (descr7100 (pnBit (strtol2 (seedDigits fr 18 7) 0 % 65536)) fr) := by
  unfold demodImbe7100
  simp only
  obtain ⟨pr, hpr, hb⟩ := prArray_ok (seed := strtol2 (seedDigits fr 18 7) 0 % 65536) (n := 101) (by decide)
  rw [hpr, ok_bind]
  rw [xorRow_eq hb (by decide) (by decide) (by decide) (by simp) (by simp), ok_bind]
  rw [xorRow_eq hb (by decide) (by decide) (by decide) (by simp) (by simp), ok_bind]
  rw [xorRow_eq hb (by decide) (by decide) (by decide) (by simp) (by simp), ok_bind]
  rw [xorRow_eq hb (by decide) (by decide) (by decide) (by simp) (by simp), ok_bind]
  rw [xorRow_eq hb (by decide) (by decide) (by decide) (by simp) (by simp), ok_bind]
  rfl

/-- Seed of the AMBE scrambler. -/
def ambeSeed (fr : Frame) : Nat :=
  ploop 12 (fun k foo => ((foo <<< 1) % 65536) ||| (fr 0 (23 - k) % 65536).toNat) 0

theorem demodAmbe_eq (fr : Frame) : demodAmbe fr = .ok (xored (pnBit (ambeSeed fr)) 1 23 1 fr) := by
  unfold demodAmbe
  obtain ⟨pr, hpr, hb⟩ := prArray_ok (seed := ambeSeed fr) (n := 24) (by decide)
  show (prArray (ambeSeed fr) 24 >>= _) = _
  rw [hpr, ok_bind]
  rw [xorRow_eq hb (by decide) (by decide) (by decide) (by simp) (by simp), ok_bind]

theorem xored_row_ne {pn : Nat → Bool} {i n k0 : Nat} {fr : Frame} {i' j : Nat} (h : i' ≠ i) :
    xored pn i n k0 fr i' j = fr i' j := by
  unfold xored; rw [if_neg (fun hh => h hh.1)]

theorem xored_row_eq {pn : Nat → Bool} {i n k0 : Nat} {fr : Frame} {j : Nat} (h : j < n) :
    xored pn i n k0 fr i j = xorBit (fr i j) (pn (k0 + (n - 1 - j))).toNat := by
  unfold xored; rw [if_pos ⟨rfl, h⟩]

theorem xored_col_ge {pn : Nat → Bool} {i n k0 : Nat} {fr : Frame} {i' j : Nat} (h : n ≤ j) :
    xored pn i n k0 fr i' j = fr i' j := by
  unfold xored; rw [if_neg (fun hh => by omega)]

/-- Descrambling a scrambled row gives the plain bits. -/
theorem xored_tx {pn : Nat → Bool} {i n k0 : Nat} {fr : Frame} {w j : Nat} (hj : j < n)
    (h : fr i j = chr (w.testBit j ^^ pn (k0 + (n - 1 - j)))) : xored pn i n k0 fr i j = bit w j := by
  rw [xored_row_eq hj, h, xorBit_chr, bit_eq_chr]
  congr 1
  cases w.testBit j <;> cases pn (k0 + (n - 1 - j)) <;> rfl

theorem xored_xored (pn : Nat → Bool) (i n k0 : Nat) (fr : Frame) : xored pn i n k0 (xored pn i n k0 fr) = fr := by
  funext i' j
  by_cases h : i' = i ∧ j < n
  · obtain ⟨rfl, hj⟩ := h
    rw [xored_row_eq hj, xored_row_eq hj, xorBit_xorBit]
  · unfold xored; rw [if_neg h, if_neg h]

theorem xored_comm {pn : Nat → Bool} {i n k0 i' n' k0' : Nat} {fr : Frame} (h : i ≠ i') :
    xored pn i n k0 (xored pn i' n' k0' fr) = xored pn i' n' k0' (xored pn i n k0 fr) := by
  funext a j
  by_cases ha : a = i
  · subst ha
    rw [xored_row_ne h]
    unfold xored
    by_cases hj : j < n
    · rw [if_pos ⟨rfl, hj⟩, if_neg (fun hh => h hh.1), if_pos ⟨rfl, hj⟩]
    · rw [if_neg (fun hh => hj hh.2), if_neg (fun hh => h hh.1), if_neg (fun hh => hj hh.2)]
  · rw [xored_row_ne ha]
    unfold xored
    by_cases hj : a = i' ∧ j < n'
    · rw [if_pos hj, if_pos hj, if_neg (fun hh => ha hh.1)]
    · rw [if_neg hj, if_neg hj, if_neg (fun hh => ha hh.1)]

theorem seed_bits {fr : Frame} {hi n w off : Nat} (h : n ≤ hi + 1) (hw : w < 2^(hi + 1)) (hn : n ≤ 16)
    (hb : ∀ k, k < n → fr 0 (off + hi - k) = chr (w.testBit (hi - k))) :
    strtol2 (seedDigits fr (off + hi) n) 0 % 65536 = w >>> (hi + 1 - n) := by
  have h1 : seedDigits fr (off + hi) n = (List.range n).map fun k => chr (w.testBit (hi - k)) + 48 := by
    unfold seedDigits
    apply List.map_congr_left
    intro k hk
    rw [hb k (List.mem_range.mp hk)]
  rw [h1, strtol2_bits, foldl_bits_word h hw]
  apply Nat.mod_eq_of_lt
  have : w >>> (hi + 1 - n) < 2^n := shiftRight_lt (by rw [show n + (hi + 1 - n) = hi + 1 by omega]; exact hw)
  have : 2^n ≤ 2^16 := Nat.pow_le_pow_right (by decide) hn
  omega

theorem seedDigits_congr {fr fr' : Frame} (h : ∀ j, fr 0 j = fr' 0 j) (hi n : Nat) :
    seedDigits fr hi n = seedDigits fr' hi n := by
  unfold seedDigits
  apply List.map_congr_left
  intro k _
  rw [h]

theorem ambeSeed_congr {fr fr' : Frame} (h : ∀ j, fr 0 j = fr' 0 j) : ambeSeed fr = ambeSeed fr' := by
  unfold ambeSeed
  congr 1
  funext k foo
  rw [h]

theorem ambeSeed_bits {fr : Frame} {w : Nat} (hw : w < 2^23) (hb : ∀ k, k < 12 → fr 0 (23 - k) = chr (w.testBit (22 - k))) :
    ambeSeed fr = w >>> 11 := by
  have key : ∀ n, n ≤ 12 → ploop n (fun k foo => ((foo <<< 1) % 65536) ||| (fr 0 (23 - k) % 65536).toNat) 0 =
      (List.range n).foldl (fun a k => 2 * a + (w.testBit (22 - k)).toNat) 0 := by
    intro n
    induction n with
    | zero => intro _; rfl
    | succ n ih =>
      intro hn
      rw [ploop_succ, ih (by omega), List.range_succ, List.foldl_append]
      simp only [List.foldl_cons, List.foldl_nil]
      rw [hb n (by omega)]
      have hlt := foldl_bits_lt n fun k => w.testBit (22 - k)
      have hle : 2^n ≤ 2^11 := Nat.pow_le_pow_right (by decide) (by omega)
      rw [Nat.shiftLeft_eq, Nat.mod_eq_of_lt (by omega)]
      cases w.testBit (22 - n)
      · simp [chr]; omega
      · have : (chr true % 65536).toNat = 1 := by decide
        rw [this]
        have := Nat.two_pow_add_eq_or_of_lt (i := 1) (b := 1) (by decide)
          ((List.range n).foldl (fun a k => 2 * a + (w.testBit (22 - k)).toNat) 0)
        simp only [Nat.pow_one] at this
        rw [Nat.pow_one, Nat.mul_comm _ 2, ← this]
        rfl
  unfold ambeSeed
  rw [key 12 (Nat.le_refl _), foldl_bits_word (by decide) hw]

end Verif
