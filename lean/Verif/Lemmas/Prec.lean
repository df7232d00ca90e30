import Verif.Lemmas.EnhRoot
import Verif.Lemmas.AmpNear

/-!
# Relative errors of positive numbers
-/

namespace Verif.Model
open Verif Verif.Gen Verif.Spec Verif.Num Arith
variable {m : Libm}

/-- `x` is `X` up to the fraction `δ`. -/
def Prec (x : IEEE m) (X δ : ℝ) : Prop := ∃ q : ℚ, Val x q ∧ |(q : ℝ) - X| ≤ δ * X

theorem Prec.mono {x : IEEE m} {X δ ε : ℝ} (h : Prec x X δ) (hX : 0 ≤ X) (e : δ ≤ ε) : Prec x X ε := by
  obtain ⟨q, h1, h2⟩ := h
  exact ⟨q, h1, h2.trans (mul_le_mul_of_nonneg_right e hX)⟩

/-- Rounding. -/
theorem prec_rnd {z : ℚ} {X ε : ℝ} (h1 : 1 / 2 ^ 100 ≤ X) (h2 : X ≤ 2 ^ 120) (e1 : ε ≤ 1 / 1000) (h : |(z : ℝ) - X| ≤ ε * X) :
    |z| ≤ Val.big ∧ |((rnd F32 z : ℚ) : ℝ) - X| ≤ (ε + 6 / 10 ^ 8) * X := by
  have X0 : 0 < X := lt_of_lt_of_le (by norm_num) h1
  have e2 : ε * X ≤ 1 / 1000 * X := mul_le_mul_of_nonneg_right e1 X0.le
  have a := abs_le.1 h
  have az : |(z : ℝ)| ≤ 1001 / 1000 * X := by
    rw [abs_le]
    constructor <;> linarith
  constructor
  · have : ((|z| : ℚ) : ℝ) ≤ ((2 ^ 127 : ℚ) : ℝ) := by
      push_cast
      refine az.trans ?_
      norm_num at h2 ⊢
      linarith
    exact le_trans (by exact_mod_cast this) big_ge
  · have r := rnd32_err z
    have r' : ((|rnd F32 z - z| : ℚ) : ℝ) ≤ ((pow2 (-24) * |z| + pow2 (-150) : ℚ) : ℝ) := by exact_mod_cast r
    rw [p24, show pow2 (-150) = 1 / 2 ^ 150 from by rw [pow2_eq]; norm_num] at r'
    push_cast at r'
    have t : (1 : ℝ) / 2 ^ 150 ≤ 1 / 2 ^ 50 * X := by
      have := mul_le_mul_of_nonneg_left h1 (show (0 : ℝ) ≤ 1 / 2 ^ 50 by positivity)
      refine le_trans ?_ this
      norm_num
    have b := abs_le.1 r'
    rw [abs_le]
    norm_num at t b ⊢
    constructor <;> linarith

theorem Prec.mul {x y : IEEE m} {X Y δ ε : ℝ} (hx : Prec x X δ) (hy : Prec y Y ε) (hX : 0 ≤ X) (hY : 0 ≤ Y) (h1 : 1 / 2 ^ 100 ≤ X * Y) (h2 : X * Y ≤ 2 ^ 120)
    (d0 : 0 ≤ δ) (e0 : 0 ≤ ε) (d1 : δ ≤ 1 / 10000) (e1 : ε ≤ 1 / 10000) : Prec (x *ᶠ y : IEEE m) (X * Y) (δ + ε + 1 / 10 ^ 7) := by
  obtain ⟨a, ha, a1⟩ := hx
  obtain ⟨b, hb, b1⟩ := hy
  have de : δ * ε ≤ 1 / 10 ^ 8 := (mul_le_mul d1 e1 e0 (by norm_num)).trans (by norm_num)
  have k : |((a * b : ℚ) : ℝ) - X * Y| ≤ (δ + ε + 1 / 10 ^ 8) * (X * Y) := by
    push_cast
    have e : (a : ℝ) * b - X * Y = (a - X) * (b - Y) + (a - X) * Y + X * (b - Y) := by ring
    rw [e]
    have t1 : |((a : ℝ) - X) * (b - Y)| ≤ δ * X * (ε * Y) := by
      rw [abs_mul]; exact mul_le_mul a1 b1 (abs_nonneg _) (mul_nonneg d0 hX)
    have t2 : |((a : ℝ) - X) * Y| ≤ δ * X * Y := by
      rw [abs_mul, abs_of_nonneg hY]; exact mul_le_mul_of_nonneg_right a1 hY
    have t3 : |X * ((b : ℝ) - Y)| ≤ X * (ε * Y) := by
      rw [abs_mul, abs_of_nonneg hX]; exact mul_le_mul_of_nonneg_left b1 hX
    have t4 : δ * X * (ε * Y) ≤ 1 / 10 ^ 8 * (X * Y) := by
      calc δ * X * (ε * Y) = δ * ε * (X * Y) := by ring
        _ ≤ _ := mul_le_mul_of_nonneg_right de (mul_nonneg hX hY)
    refine (abs_add_three _ _ _).trans ?_
    have : (δ + ε + 1 / 10 ^ 8) * (X * Y) = δ * X * Y + X * (ε * Y) + 1 / 10 ^ 8 * (X * Y) := by ring
    linarith
  obtain ⟨z1, z2⟩ := prec_rnd h1 h2 (by norm_num at d1 e1 ⊢; linarith) k
  refine ⟨_, ha.mul hb z1, z2.trans (mul_le_mul_of_nonneg_right ?_ (mul_nonneg hX hY))⟩
  norm_num
  linarith

theorem Prec.div {x y : IEEE m} {X Y δ ε : ℝ} (hx : Prec x X δ) (hy : Prec y Y ε) (hX : 0 ≤ X) (hY : 0 < Y) (h1 : 1 / 2 ^ 100 ≤ X / Y) (h2 : X / Y ≤ 2 ^ 120)
    (d0 : 0 ≤ δ) (e0 : 0 ≤ ε) (d1 : δ ≤ 1 / 10000) (e1 : ε ≤ 1 / 10000) : Prec (x /ᶠ y : IEEE m) (X / Y) (δ + ε + 1 / 10 ^ 7) := by
  obtain ⟨a, ha, a1⟩ := hx
  obtain ⟨b, hb, b1⟩ := hy
  have de : δ * ε ≤ 1 / 10 ^ 8 := (mul_le_mul d1 e1 e0 (by norm_num)).trans (by norm_num)
  have ee : ε * ε ≤ 1 / 10 ^ 8 := (mul_le_mul e1 e1 e0 (by norm_num)).trans (by norm_num)
  have b2 := abs_le.1 b1
  have eY : ε * Y ≤ 1 / 10000 * Y := mul_le_mul_of_nonneg_right e1 hY.le
  have bp : (0 : ℝ) < b := by linarith
  have k : |((a / b : ℚ) : ℝ) - X / Y| ≤ (δ + ε + 3 / 10 ^ 8) * (X / Y) := by
    push_cast
    have e : (a : ℝ) / b - X / Y = ((a - X) * Y - X * (b - Y)) / (b * Y) := by
      field_simp
      ring
    rw [e, abs_div, abs_of_pos (mul_pos bp hY), div_le_iff₀ (mul_pos bp hY)]
    have t2 : |((a : ℝ) - X) * Y| ≤ δ * X * Y := by
      rw [abs_mul, abs_of_nonneg hY.le]; exact mul_le_mul_of_nonneg_right a1 hY.le
    have t3 : |X * ((b : ℝ) - Y)| ≤ X * (ε * Y) := by
      rw [abs_mul, abs_of_nonneg hX]; exact mul_le_mul_of_nonneg_left b1 hX
    refine (abs_sub _ _).trans ((add_le_add t2 t3).trans ?_)
    have e2 : (δ + ε + 3 / 10 ^ 8) * (X / Y) * (b * Y) = (δ + ε + 3 / 10 ^ 8) * X * b := by field_simp
    rw [e2]
    have low : (1 - ε) * Y ≤ b := by linarith
    have : (δ + ε + 3 / 10 ^ 8) * X * ((1 - ε) * Y) ≤ (δ + ε + 3 / 10 ^ 8) * X * b := mul_le_mul_of_nonneg_left low (by positivity)
    refine le_trans ?_ this
    have q : δ + ε ≤ (δ + ε + 3 / 10 ^ 8) * (1 - ε) := by
      norm_num at *
      nlinarith
    calc δ * X * Y + X * (ε * Y) = (δ + ε) * (X * Y) := by ring
      _ ≤ (δ + ε + 3 / 10 ^ 8) * (1 - ε) * (X * Y) := mul_le_mul_of_nonneg_right q (mul_nonneg hX hY.le)
      _ = _ := by ring
  obtain ⟨z1, z2⟩ := prec_rnd h1 h2 (by norm_num at d1 e1 ⊢; linarith) k
  refine ⟨_, ha.div hb (by intro h; rw [h] at bp; simp at bp) z1, z2.trans (mul_le_mul_of_nonneg_right ?_ (div_nonneg hX hY.le))⟩
  norm_num
  linarith

theorem Prec.sqrt {x : IEEE m} {X δ : ℝ} (hx : Prec x X δ) (h1 : 1 / 2 ^ 100 ≤ X) (d0 : 0 ≤ δ) (d1 : δ ≤ 1 / 10000) :
    Prec (Arith.sqrt x : IEEE m) (Real.sqrt X) (δ / 2 + 1 / 10 ^ 7) := by
  obtain ⟨a, ha, a1⟩ := hx
  have X0 : 0 < X := lt_of_lt_of_le (by norm_num) h1
  have a2 := abs_le.1 a1
  have dX : δ * X ≤ 1 / 10000 * X := mul_le_mul_of_nonneg_right d1 X0.le
  have a3 : pow2 (-252) ≤ a := by
    have : ((pow2 (-252) : ℚ) : ℝ) ≤ (a : ℝ) := by
      rw [pow2_eq]
      norm_num at h1 ⊢
      linarith
    exact_mod_cast this
  obtain ⟨r, hr, r0, r1⟩ := val_sqrtE ha a3
  refine ⟨r, hr, ?_⟩
  have dd : δ * δ ≤ 1 / 10 ^ 8 := (mul_le_mul d1 d1 d0 (by norm_num)).trans (by norm_num)
  have up : Real.sqrt a ≤ (1 + δ / 2) * Real.sqrt X := sqrt_up (by positivity) (by nlinarith [sq_nonneg δ])
  have dn : (1 - δ / 2 - 1 / 10 ^ 8) * Real.sqrt X ≤ Real.sqrt a := by
    refine sqrt_dn (by norm_num at *; linarith) ?_
    have : (1 - δ / 2 - 1 / 10 ^ 8) ^ 2 ≤ 1 - δ := by
      norm_num at *
      nlinarith
    have := mul_le_mul_of_nonneg_right this X0.le
    linarith
  have s0 : 0 ≤ Real.sqrt X := Real.sqrt_nonneg _
  have sd : δ / 2 * Real.sqrt X ≤ 1 / 20000 * Real.sqrt X := mul_le_mul_of_nonneg_right (by linarith) s0
  have r2 := abs_le.1 r1
  rw [abs_le]
  norm_num at r2 up dn ⊢
  constructor <;> linarith

theorem prec_of_rng {x : FP} {a b : ℚ} {X δ : ℝ} (h : rngB x a b = true) (h1 : X - δ * X ≤ a) (h2 : (b : ℝ) ≤ X + δ * X) : Prec (m := m) x X δ := by
  obtain ⟨q, hv, q1, q2⟩ := rng_of h
  have q1' : (a : ℝ) ≤ q := by exact_mod_cast q1
  have q2' : (q : ℝ) ≤ b := by exact_mod_cast q2
  refine ⟨q, hv, ?_⟩
  rw [abs_le]
  constructor <;> linarith

end Verif.Model
