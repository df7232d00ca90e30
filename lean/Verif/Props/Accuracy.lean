import Verif.Lemmas.FftNear
import Verif.Props.Fft

/-!
# C68: rounding errors of the transforms
-/

namespace Verif.Props
open Verif Verif.Spec Verif.Model Verif.Num Verif.Gen Arith

variable {m : Libm}

theorem near_exact {U : Arr 256 (IEEE m)} {u : Fin 256 → ℚ} (hU : ∀ i, Val (U i) (u i)) {B : ℝ} (h : ∀ i, |(u i : ℝ)| ≤ B) (j : Fin 256) :
    Near 0 B (U j) ((fun i => (u i : ℝ) : Arr 256 ℝ) j) := ⟨u j, hU j, by simp, h j⟩

/-- The forward transform that the code computes in binary32, with a library whose `cosf` and `sinf` are within `2^-22`, is
within `B / 200` of the discrete Fourier transform of its input, `B` being a bound on the input: bins 1 to 127. -/
theorem C68_forward (hcos : CosAcc m) (hsin : SinAcc m) (E : Env (IEEE m)) (hE : Runs E) (U : Arr 256 (IEEE m)) (u : Fin 256 → ℚ)
    (hU : ∀ i, Val (U i) (u i)) (B : ℝ) (hB : 1 / 2 ^ 100 ≤ B) (hB' : B ≤ 2 ^ 100) (h : ∀ i, |(u i : ℝ)| ≤ B)
    (k : ℕ) (h0 : 1 ≤ k) (hk : k < 128) :
    (∃ r : ℚ, Val (E.fwd U ⟨2 * k, by omega⟩) r ∧ |(r : ℝ) - ∑ n : Fin 256, u n * Real.cos (2 * Real.pi * (k * n.val) / 256)| ≤ B / 200) ∧
    ∃ r : ℚ, Val (E.fwd U ⟨2 * k + 1, by omega⟩) r ∧ |(r : ℝ) + ∑ n : Fin 256, u n * Real.sin (2 * Real.pi * (k * n.val) / 256)| ≤ B / 200 := by
  obtain ⟨R, hR, _⟩ := (C61_env (F := ℝ) true true).1
  have key := runs_near hcos hsin hE hR hB hB' (near_exact hU h)
  obtain ⟨f1, f2⟩ := C62_real R hR (fun i => (u i : ℝ)) k h0 hk
  rw [Finset.sum_range] at f1 f2
  have e : ∀ n : Fin 256, seqOf (fun i : Fin 256 => (u i : ℝ)) n.val = u n := fun n => by rw [seqOf, dif_pos n.isLt]
  simp only [e] at f1 f2
  obtain ⟨r, v, a, _⟩ := (key ⟨2 * k, by omega⟩).1
  obtain ⟨r', v', a', _⟩ := (key ⟨2 * k + 1, by omega⟩).1
  rw [f1] at a
  rw [f2, sub_neg_eq_add] at a'
  exact ⟨⟨r, v, a⟩, r', v', a'⟩

/-- Bins 0 and 128, which the code stores in elements 0 and 1. -/
theorem C68_forward_ends (hcos : CosAcc m) (hsin : SinAcc m) (E : Env (IEEE m)) (hE : Runs E) (U : Arr 256 (IEEE m)) (u : Fin 256 → ℚ)
    (hU : ∀ i, Val (U i) (u i)) (B : ℝ) (hB : 1 / 2 ^ 100 ≤ B) (hB' : B ≤ 2 ^ 100) (h : ∀ i, |(u i : ℝ)| ≤ B) :
    (∃ r : ℚ, Val (E.fwd U 0) r ∧ |(r : ℝ) - ∑ n : Fin 256, (u n : ℝ)| ≤ B / 200) ∧
    ∃ r : ℚ, Val (E.fwd U 1) r ∧ |(r : ℝ) - ∑ n : Fin 256, u n * Real.cos (Real.pi * n.val)| ≤ B / 200 := by
  obtain ⟨R, hR, _⟩ := (C61_env (F := ℝ) true true).1
  have key := runs_near hcos hsin hE hR hB hB' (near_exact hU h)
  have e : ∀ n : Fin 256, seqOf (fun i : Fin 256 => (u i : ℝ)) n.val = u n := fun n => by rw [seqOf, dif_pos n.isLt]
  obtain ⟨o0, o1, _⟩ := C62_forward R hR (fun i => (u i : ℝ))
  obtain ⟨r, v, a, _⟩ := (key 0).1
  obtain ⟨r', v', a', _⟩ := (key 1).1
  refine ⟨⟨r, v, ?_⟩, r', v', ?_⟩
  · rw [o0, dft, Complex.re_sum, Finset.sum_range] at a
    refine le_of_eq_of_le ?_ a
    congr 2
    refine Finset.sum_congr rfl fun n _ => ?_
    rw [Complex.re_ofReal_mul, om_re, e]
    simp
  · rw [o1, dft, Complex.re_sum, Finset.sum_range] at a'
    refine le_of_eq_of_le ?_ a'
    congr 2
    refine Finset.sum_congr rfl fun n _ => ?_
    rw [Complex.re_ofReal_mul, om_re, e]
    congr 2
    push_cast
    ring

/-- The backward transform in binary32 is within `B / 100` of the unnormalised inverse. -/
theorem C68_backward (hcos : CosAcc m) (hsin : SinAcc m) (E : Env (IEEE m)) (hE : Runs E) (X : Arr 256 (IEEE m)) (x : Fin 256 → ℚ)
    (hX : ∀ i, Val (X i) (x i)) (B : ℝ) (hB : 1 / 2 ^ 100 ≤ B) (hB' : B ≤ 2 ^ 100) (h : ∀ i, |(x i : ℝ)| ≤ B) (n : Fin 256) :
    ∃ r : ℚ, Val (E.bwd X n) r ∧
      ‖((r : ℝ) : ℂ) - ∑ k ∈ Finset.range 256, binAt (fun i => (x i : ℝ)) k * Complex.exp (2 * Real.pi * k * n.val / 256 * Complex.I)‖ ≤ B / 100 := by
  obtain ⟨R, hR, _⟩ := (C61_env (F := ℝ) true true).1
  obtain ⟨r, v, a, _⟩ := (runs_near hcos hsin hE hR hB hB' (near_exact hX h) n).2
  refine ⟨r, v, ?_⟩
  rw [← C63_backward R hR (fun i => (x i : ℝ)) n, ← Complex.ofReal_sub, Complex.norm_real, Real.norm_eq_abs]
  exact a

theorem binAt_norm (a : Arr 256 ℝ) {B : ℝ} (h : ∀ i, |a i| ≤ B) {k : ℕ} (hk : k < 256) : ‖binAt a k‖ ≤ 2 * B := by
  have hB : 0 ≤ B := (abs_nonneg _).trans (h 0)
  have s : ∀ i : ℕ, |seqOf a i| ≤ B := fun i => by
    rw [seqOf]
    split
    · exact h _
    · simpa using hB
  rw [binAt]
  split
  · rw [Complex.norm_real, Real.norm_eq_abs]
    have := h 0
    linarith
  split
  · rw [Complex.norm_real, Real.norm_eq_abs]
    have := h 1
    linarith
  split
  · refine (Complex.norm_le_abs_re_add_abs_im _).trans ?_
    have h1 := s (2 * k)
    have h2 := s (2 * k + 1)
    dsimp only
    linarith
  · refine (Complex.norm_le_abs_re_add_abs_im _).trans ?_
    have h1 := s (2 * (256 - k))
    have h2 := s (2 * (256 - k) + 1)
    dsimp only
    rw [abs_neg]
    linarith

theorem binAt_sub (a b : Arr 256 ℝ) (k : ℕ) : binAt a k - binAt b k = binAt (fun i => a i - b i) k := by
  have s : ∀ i : ℕ, seqOf (fun i => a i - b i : Arr 256 ℝ) i = seqOf a i - seqOf b i := fun i => by
    simp only [seqOf]
    split <;> simp
  simp only [binAt, s]
  split
  · simp
  split
  · simp
  split
  · apply Complex.ext <;> simp
  · apply Complex.ext <;> simp
    ring

/-- The exact backward transform enlarges a perturbation of its input by at most 512. -/
theorem bwd_perturb (R : Env ℝ) (hR : Runs R) (a b : Arr 256 ℝ) {d : ℝ} (h : ∀ i, |a i - b i| ≤ d) (n : Fin 256) :
    |R.bwd a n - R.bwd b n| ≤ 512 * d := by
  rw [← Real.norm_eq_abs, ← Complex.norm_real, Complex.ofReal_sub, C63_backward R hR a n, C63_backward R hR b n, ← Finset.sum_sub_distrib]
  refine (norm_sum_le_of_le (f := fun k => binAt a k * Complex.exp (2 * Real.pi * k * n.val / 256 * Complex.I) -
    binAt b k * Complex.exp (2 * Real.pi * k * n.val / 256 * Complex.I)) (Finset.range 256) (n := fun _ => 2 * d) fun k hk => ?_).trans ?_
  · rw [← sub_mul, norm_mul, binAt_sub]
    have e : ‖Complex.exp (2 * Real.pi * k * n.val / 256 * Complex.I)‖ = 1 := by
      have := Complex.norm_exp_ofReal_mul_I (2 * Real.pi * k * n.val / 256)
      push_cast at this
      exact this
    rw [e, mul_one]
    exact binAt_norm _ h (Finset.mem_range.1 hk)
  · rw [Finset.sum_const, Finset.card_range, nsmul_eq_mul]
    push_cast
    linarith

/-- No coefficient of the exact forward transform exceeds 256 times the largest sample. -/
theorem fwd_abs (R : Env ℝ) (hR : Runs R) (a : Arr 256 ℝ) {B : ℝ} (h : ∀ i, |a i| ≤ B) (j : Fin 256) : |R.fwd a j| ≤ 256 * B := by
  have hB : 0 ≤ B := (abs_nonneg _).trans (h 0)
  have key : ∀ k, k < 256 → ‖binAt (R.fwd a) k‖ ≤ 256 * B := fun k hk => by
    rw [C62_bins R hR a k hk]
    refine (norm_sum_le_of_le (Finset.range 256) (n := fun _ => B) fun i hi => ?_).trans ?_
    · rw [norm_mul, Complex.norm_real, Real.norm_eq_abs]
      have e : ‖Complex.exp (-(2 * Real.pi * k * i / 256) * Complex.I)‖ = 1 := by
        have := Complex.norm_exp_ofReal_mul_I (-(2 * Real.pi * k * i / 256))
        push_cast at this
        exact this
      rw [e, mul_one, seqOf, dif_pos (Finset.mem_range.1 hi)]
      exact h _
    · rw [Finset.sum_const, Finset.card_range, nsmul_eq_mul]
      push_cast
      exact le_refl _
  obtain ⟨j, hj⟩ := j
  rcases Nat.lt_or_ge j 2 with h2 | h2
  · rcases (show j = 0 ∨ j = 1 by omega) with rfl | rfl
    · have := key 0 (by decide)
      rw [binAt, if_pos rfl, Complex.norm_real, Real.norm_eq_abs] at this
      exact this
    · have := key 128 (by decide)
      rw [binAt, if_neg (by decide), if_pos rfl, Complex.norm_real, Real.norm_eq_abs] at this
      exact this
  · have k1 := key (j / 2) (by omega)
    rw [binAt, if_neg (by omega), if_neg (by omega), if_pos (by omega)] at k1
    rcases Nat.mod_two_eq_zero_or_one j with e | e
    · have := (Complex.abs_re_le_norm _).trans k1
      dsimp only at this
      rw [seqOf, dif_pos (by omega)] at this
      have e2 : (⟨2 * (j / 2), by omega⟩ : Fin 256) = ⟨j, hj⟩ := Fin.ext (by dsimp only; omega)
      rwa [e2] at this
    · have := (Complex.abs_im_le_norm _).trans k1
      dsimp only at this
      rw [seqOf, dif_pos (by omega)] at this
      have e2 : (⟨2 * (j / 2) + 1, by omega⟩ : Fin 256) = ⟨j, hj⟩ := Fin.ext (by dsimp only; omega)
      rwa [e2] at this

/-- The round trip in binary32, as the unvoiced synthesis makes it with unit gains: backward after forward is `256·u` up to
`6·B`, 2.4 % of the largest sample. -/
theorem C68_roundtrip (hcos : CosAcc m) (hsin : SinAcc m) (E : Env (IEEE m)) (hE : Runs E) (U : Arr 256 (IEEE m)) (u : Fin 256 → ℚ)
    (hU : ∀ i, Val (U i) (u i)) (B : ℝ) (hB : 1 / 2 ^ 100 ≤ B) (hB' : B ≤ 2 ^ 90) (h : ∀ i, |(u i : ℝ)| ≤ B) (n : Fin 256) :
    ∃ r : ℚ, Val (E.bwd (E.fwd U) n) r ∧ |(r : ℝ) - 256 * u n| ≤ 6 * B := by
  obtain ⟨R, hR, _⟩ := (C61_env (F := ℝ) true true).1
  have hB0 : 0 < B := lt_of_lt_of_le (by positivity) hB
  have key := fun j => (runs_near hcos hsin hE hR hB (hB'.trans (by norm_num)) (near_exact hU h) j).1
  choose x hx ex _ using key
  have bx : ∀ j, |(x j : ℝ)| ≤ 257 * B := fun j => by
    have h1 := fwd_abs R hR _ h j
    have h2 := ex j
    rw [abs_le] at h1 h2 ⊢
    constructor <;> linarith
  obtain ⟨r, v, a, _⟩ := (runs_near hcos hsin hE hR (B := 257 * B) (by linarith) (by
    have : (257 : ℝ) * 2 ^ 90 ≤ 2 ^ 100 := by norm_num
    linarith) (near_exact hx bx) n).2
  refine ⟨r, v, ?_⟩
  have p := bwd_perturb R hR (fun j => (x j : ℝ)) (R.fwd fun j => (u j : ℝ)) ex n
  rw [(C63_roundtrip R hR _).1] at p
  dsimp only at p
  rw [abs_le] at a p ⊢
  constructor <;> linarith

/-- A library meeting both hypotheses exists. -/
theorem C68_hypothesis_satisfiable : ∃ m : Libm, CosAcc m ∧ SinAcc m := by
  classical
  have key : ∀ x e : ℝ, 0 < e → ∃ r : ℚ, |(r : ℝ) - x| ≤ e := by
    intro x e he
    obtain ⟨r, h1, h2⟩ := exists_rat_btwn (show x < x + e by linarith)
    exact ⟨r, by rw [abs_le]; constructor <;> linarith⟩
  let co : FP → FP := fun x => match x with
    | .fin _ y => .fin false (key (Real.cos y) (1 / 4194304) (by norm_num)).choose
    | x => x
  let si : FP → FP := fun x => match x with
    | .fin _ y => .fin false (key (Real.sin y) (1 / 4194304) (by norm_num)).choose
    | x => x
  refine ⟨⟨co, si, id, id, id⟩, ?_, ?_⟩
  · rintro x y ⟨s, rfl⟩ _
    exact ⟨_, ⟨false, rfl⟩, (key (Real.cos y) (1 / 4194304) (by norm_num)).choose_spec⟩
  · rintro x y ⟨s, rfl⟩ _
    exact ⟨_, ⟨false, rfl⟩, (key (Real.sin y) (1 / 4194304) (by norm_num)).choose_spec⟩

/-- A unit impulse meets the hypotheses with `B = 1`: bin 0 is within 1/200 of 1. -/
example (hcos : CosAcc m) (hsin : SinAcc m) (E : Env (IEEE m)) (hE : Runs E) :
    ∃ r : ℚ, Val (E.fwd (fun i => FP.fin false (if i = 0 then 1 else 0)) 0) r ∧ |(r : ℝ) - 1| ≤ 1 / 200 := by
  obtain ⟨⟨r, v, e⟩, _⟩ := C68_forward_ends hcos hsin E hE (fun i => FP.fin false (if i = 0 then 1 else 0))
    (fun i => if i = 0 then 1 else 0) (fun i => ⟨false, rfl⟩) 1 (by norm_num) (by norm_num) (fun i => by
      by_cases h : i = 0
      · rw [if_pos h]; norm_num
      · rw [if_neg h]; norm_num)
  refine ⟨r, v, ?_⟩
  have : ∑ n : Fin 256, (((if n = 0 then 1 else 0 : ℚ)) : ℝ) = 1 := by
    rw [Finset.sum_eq_single (0 : Fin 256)]
    · norm_num
    · intro b _ hb
      rw [if_neg hb]; norm_num
    · intro h; exact absurd (Finset.mem_univ _) h
  rw [this] at e
  exact e

end Verif.Props
