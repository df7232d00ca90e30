import Verif.Spec.Fft
import Mathlib.Analysis.SpecialFunctions.Trigonometric.Basic
import Mathlib.Analysis.SpecialFunctions.Complex.Circle
import Mathlib.Tactic.FieldSimp
import Mathlib.Tactic.LinearCombination

/-!
# Facts about the discrete Fourier transform
-/

namespace Verif.Spec
open Complex Finset

theorem om_re (N k : ℕ) : (om N k).re = Real.cos (2 * Real.pi * k / N) := by
  rw [om, exp_ofReal_mul_I_re, Real.cos_neg]

theorem om_im (N k : ℕ) : (om N k).im = -Real.sin (2 * Real.pi * k / N) := by
  rw [om, exp_ofReal_mul_I_im, Real.sin_neg]

theorem om_zero (N : ℕ) : om N 0 = 1 := by simp [om]

theorem om_add (N a b : ℕ) : om N (a + b) = om N a * om N b := by
  rw [om, om, om, ← exp_add]
  congr 1
  push_cast
  ring

theorem om_self {N : ℕ} (h : N ≠ 0) : om N N = 1 := by
  have hN : (N : ℝ) ≠ 0 := by exact_mod_cast h
  have : -(2 * Real.pi * (N : ℝ) / (N : ℝ)) = -(2 * Real.pi) := by field_simp
  rw [om, this]
  have h2 : (((-(2 * Real.pi) : ℝ)) : ℂ) * I = -(2 * (Real.pi : ℂ) * I) := by push_cast; ring
  rw [h2, exp_neg, exp_two_pi_mul_I, inv_one]

theorem om_mul_self {N : ℕ} (h : N ≠ 0) (a : ℕ) : om N (a * N) = 1 := by
  induction a with
  | zero => rw [Nat.zero_mul, om_zero]
  | succ a ih => rw [Nat.succ_mul, om_add, ih, om_self h, one_mul]

theorem om_scale {M N : ℕ} (h : M ≠ 0) (k : ℕ) : om (M * N) (M * k) = om N k := by
  rw [om, om]
  congr 3
  have hM : (M : ℝ) ≠ 0 := by exact_mod_cast h
  push_cast
  rw [show 2 * Real.pi * ((M : ℝ) * k) = (M : ℝ) * (2 * Real.pi * k) by ring, mul_div_mul_left _ _ hM]

theorem om_conj_mul (N k : ℕ) : (starRingEnd ℂ) (om N k) * om N k = 1 := by
  have h := Real.sin_sq_add_cos_sq (2 * Real.pi * k / N)
  apply Complex.ext
  · rw [mul_re, conj_re, conj_im, om_re, om_im, one_re]
    linear_combination h
  · rw [mul_im, conj_re, conj_im, om_re, om_im, one_im]
    ring

/-- If `a + b = c` then the power `a` is the power `c` times the conjugate of the power `b`. -/
theorem om_sub {N a b c : ℕ} (h : a + b = c) : om N a = om N c * (starRingEnd ℂ) (om N b) := by
  rw [← h, om_add, mul_assoc, mul_comm (om N b), om_conj_mul, mul_one]

theorem om_quarter {L : ℕ} (h : L ≠ 0) : om (4 * L) L = -I := by
  have hL : (L : ℝ) ≠ 0 := by exact_mod_cast h
  have e : 2 * Real.pi * (L : ℝ) / ((4 * L : ℕ) : ℝ) = Real.pi / 2 := by push_cast; field_simp; norm_num
  apply Complex.ext
  · rw [om_re, e, Real.cos_pi_div_two]; simp
  · rw [om_im, e, Real.sin_pi_div_two]; simp

theorem om_eighth {L : ℕ} (h : L ≠ 0) : om (4 * (2 * L)) L = ⟨Real.sqrt 2 / 2, -(Real.sqrt 2 / 2)⟩ := by
  have hL : (L : ℝ) ≠ 0 := by exact_mod_cast h
  have e : 2 * Real.pi * (L : ℝ) / ((4 * (2 * L) : ℕ) : ℝ) = Real.pi / 4 := by push_cast; field_simp
  apply Complex.ext
  · rw [om_re, e, Real.cos_pi_div_four]
  · rw [om_im, e, Real.sin_pi_div_four]

/-- The transform is periodic. -/
theorem dft_add {N : ℕ} (h : N ≠ 0) (x : ℕ → ℝ) (k : ℕ) : dft N x (N + k) = dft N x k := by
  unfold dft
  refine sum_congr rfl fun n _ => ?_
  rw [Nat.add_mul, om_add, Nat.mul_comm N n, om_mul_self h, one_mul]

/-- The transform of a real sequence is conjugate symmetric. -/
theorem dft_conj {N a b : ℕ} (h : N ≠ 0) (x : ℕ → ℝ) (hab : a + b = N) : dft N x a = (starRingEnd ℂ) (dft N x b) := by
  unfold dft
  rw [map_sum]
  refine sum_congr rfl fun n _ => ?_
  rw [map_mul, conj_ofReal, om_sub (c := n * N) (b := b * n) (a := a * n) (by rw [← hab]; ring), om_mul_self h, one_mul]

theorem dft_zero_im (N : ℕ) (x : ℕ → ℝ) : (dft N x 0).im = 0 := by
  unfold dft
  rw [im_sum]
  refine sum_eq_zero fun n _ => ?_
  rw [Nat.zero_mul, om_zero, mul_one, ofReal_im]

theorem dft_half_im {L : ℕ} (h : L ≠ 0) (x : ℕ → ℝ) : (dft (2 * L) x L).im = 0 := by
  have := congrArg Complex.im (dft_conj (N := 2 * L) (a := L) (b := L) (by omega) x (by omega))
  rw [conj_im] at this
  linarith

theorem sum_range_four (f : ℕ → ℂ) (L : ℕ) :
    ∑ n ∈ range (4 * L), f n = ∑ n ∈ range L, (f (4 * n) + f (4 * n + 1) + f (4 * n + 2) + f (4 * n + 3)) := by
  induction L with
  | zero => simp
  | succ L ih =>
    rw [show 4 * (L + 1) = 4 * L + 1 + 1 + 1 + 1 by ring, sum_range_succ, sum_range_succ, sum_range_succ, sum_range_succ, ih, sum_range_succ]
    ring

/-- Decimation in time by four. -/
theorem dft_four {L : ℕ} (x : ℕ → ℝ) (k : ℕ) :
    dft (4 * L) x k = dft L (fun n => x (4 * n)) k + om (4 * L) k * dft L (fun n => x (4 * n + 1)) k +
      om (4 * L) (2 * k) * dft L (fun n => x (4 * n + 2)) k + om (4 * L) (3 * k) * dft L (fun n => x (4 * n + 3)) k := by
  unfold dft
  rw [sum_range_four, mul_sum, mul_sum, mul_sum, ← sum_add_distrib, ← sum_add_distrib, ← sum_add_distrib]
  refine sum_congr rfl fun n _ => ?_
  have h0 : om (4 * L) (k * (4 * n)) = om L (k * n) := by
    rw [show k * (4 * n) = 4 * (k * n) by ring, om_scale (by decide)]
  have hj : ∀ j, om (4 * L) (k * (4 * n + j)) = om (4 * L) (j * k) * om L (k * n) := by
    intro j
    rw [Nat.mul_add, om_add, h0, mul_comm, Nat.mul_comm k j]
  rw [h0, hj, hj, hj, Nat.one_mul]
  ring

end Verif.Spec
