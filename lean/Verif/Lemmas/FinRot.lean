import Verif.Lemmas.FinOps
import Verif.Spec.Finite
import Mathlib.Analysis.Complex.Trigonometric
import Mathlib.Analysis.SpecialFunctions.Complex.Circle

/-!
# Rotation recurrences in single precision
-/

namespace Verif.Num
open Verif Arith
variable {m : Libm}

theorem Val.addE {x y : IEEE m} {a b : ℚ} (hx : Val x a) (hy : Val y b) (h : |a + b| ≤ Val.big) :
    ∃ r, Val (x +ᶠ y : IEEE m) r ∧ |r - (a + b)| ≤ pow2 (-24) * |a + b| + pow2 (-150) :=
  ⟨_, hx.add hy h, rnd32_err _⟩
theorem Val.subE {x y : IEEE m} {a b : ℚ} (hx : Val x a) (hy : Val y b) (h : |a - b| ≤ Val.big) :
    ∃ r, Val (x -ᶠ y : IEEE m) r ∧ |r - (a - b)| ≤ pow2 (-24) * |a - b| + pow2 (-150) :=
  ⟨_, hx.sub hy h, rnd32_err _⟩
theorem Val.mulE {x y : IEEE m} {a b : ℚ} (hx : Val x a) (hy : Val y b) (h : |a * b| ≤ Val.big) :
    ∃ r, Val (x *ᶠ y : IEEE m) r ∧ |r - a * b| ≤ pow2 (-24) * |a * b| + pow2 (-150) :=
  ⟨_, hx.mul hy h, rnd32_err _⟩

theorem big_ge : (2 : ℚ) ^ 127 ≤ Val.big := by rw [Val.big_eq]; norm_num

theorem p24 : pow2 (-24) = 1 / 16777216 := by rw [pow2_eq]; norm_num
theorem p150 : pow2 (-150) ≤ 1 / 2 ^ 100 := by rw [pow2_eq]; norm_num

theorem rot_step {c s cd sd : IEEE m} {a b p q : ℚ} (hc : Val c a) (hs : Val s b) (hcd : Val cd p) (hsd : Val sd q)
    (ha : |a| ≤ 3 / 2) (hb : |b| ≤ 3 / 2) (hp : |p| ≤ 3 / 2) (hq : |q| ≤ 3 / 2) :
    ∃ a' b', Val ((c *ᶠ cd) -ᶠ (s *ᶠ sd) : IEEE m) a' ∧ Val ((s *ᶠ cd) +ᶠ (c *ᶠ sd) : IEEE m) b' ∧
      |a' - (a * p - b * q)| ≤ 1 / 1048576 ∧ |b' - (b * p + a * q)| ≤ 1 / 1048576 := by
  have hB : (100 : ℚ) ≤ Val.big := le_trans (by norm_num) big_ge
  have pr : ∀ {x y : ℚ}, |x| ≤ 3 / 2 → |y| ≤ 3 / 2 → |x * y| ≤ 9 / 4 := by
    intro x y hx hy
    rw [abs_mul]
    calc |x| * |y| ≤ 3 / 2 * (3 / 2) := mul_le_mul hx hy (abs_nonneg _) (by norm_num)
      _ = 9 / 4 := by norm_num
  have h1 := pr ha hp
  have h2 := pr hb hq
  have h3 := pr hb hp
  have h4 := pr ha hq
  have k := p150
  have e24 := p24
  have tiny : (1 : ℚ) / 2 ^ 100 ≤ 1 / 2 ^ 40 := by norm_num
  obtain ⟨u1, v1, w1⟩ := hc.mulE hcd (h1.trans (le_trans (by norm_num) hB))
  obtain ⟨u2, v2, w2⟩ := hs.mulE hsd (h2.trans (le_trans (by norm_num) hB))
  obtain ⟨u3, v3, w3⟩ := hs.mulE hcd (h3.trans (le_trans (by norm_num) hB))
  obtain ⟨u4, v4, w4⟩ := hc.mulE hsd (h4.trans (le_trans (by norm_num) hB))
  rw [e24] at w1 w2 w3 w4
  have g : ∀ {u z : ℚ}, |u - z| ≤ 1 / 16777216 * |z| + pow2 (-150) → |z| ≤ 9 / 4 → |u - z| ≤ 3 / 16777216 ∧ |u| ≤ 3 := by
    intro u z hu hz
    have : |u - z| ≤ 3 / 16777216 := by
      have : (1 : ℚ) / 2 ^ 40 ≤ 1 / 4 / 16777216 := by norm_num
      linarith
    refine ⟨this, ?_⟩
    have := abs_sub_abs_le_abs_sub u z
    linarith
  obtain ⟨g1, f1⟩ := g w1 h1
  obtain ⟨g2, f2⟩ := g w2 h2
  obtain ⟨g3, f3⟩ := g w3 h3
  obtain ⟨g4, f4⟩ := g w4 h4
  have s1 : |u1 - u2| ≤ 6 := (abs_sub u1 u2).trans (by linarith)
  have s2 : |u3 + u4| ≤ 6 := (abs_add_le u3 u4).trans (by linarith)
  obtain ⟨x, vx, wx⟩ := v1.subE v2 (s1.trans (le_trans (by norm_num) hB))
  obtain ⟨y, vy, wy⟩ := v3.addE v4 (s2.trans (le_trans (by norm_num) hB))
  rw [e24] at wx wy
  refine ⟨x, y, vx, vy, ?_, ?_⟩
  · have wx' : |x - (u1 - u2)| ≤ 7 / 16777216 := by
      have : (1 : ℚ) / 2 ^ 40 ≤ 1 / 16777216 := by norm_num
      linarith
    have := abs_le.1 wx'
    have := abs_le.1 g1
    have := abs_le.1 g2
    rw [abs_le]
    constructor <;> linarith
  · have wy' : |y - (u3 + u4)| ≤ 7 / 16777216 := by
      have : (1 : ℚ) / 2 ^ 40 ≤ 1 / 16777216 := by norm_num
      linarith
    have := abs_le.1 wy'
    have := abs_le.1 g3
    have := abs_le.1 g4
    rw [abs_le]
    constructor <;> linarith

open Complex in
/-- The pair `(c, s)` is near `z0 * exp(i n θ)`. -/
def Rot (θ : ℝ) (z0 : ℂ) (n : Nat) (c s : FP) : Prop :=
  ∃ a b : ℚ, Val c a ∧ Val s b ∧ ‖(⟨(a : ℝ), (b : ℝ)⟩ : ℂ) - z0 * exp ((n : ℂ) * θ * I)‖ ≤ n * (1 / 131072)

theorem norm_pair (x y : ℝ) : ‖(⟨x, y⟩ : ℂ)‖ ≤ |x| + |y| := by
  have := Complex.norm_le_abs_re_add_abs_im ⟨x, y⟩
  exact this

theorem Rot.bound {θ : ℝ} {z0 : ℂ} (hz : ‖z0‖ ≤ 5 / 4) {n : Nat} (hn : n ≤ 160) {a b : ℚ}
    (h : ‖(⟨(a : ℝ), (b : ℝ)⟩ : ℂ) - z0 * Complex.exp ((n : ℂ) * θ * Complex.I)‖ ≤ n * (1 / 131072)) :
    ‖(⟨(a : ℝ), (b : ℝ)⟩ : ℂ)‖ ≤ 3 / 2 ∧ |a| ≤ 3 / 2 ∧ |b| ≤ 3 / 2 := by
  have e : ‖Complex.exp ((n : ℂ) * θ * Complex.I)‖ = 1 := by
    have := Complex.norm_exp_ofReal_mul_I ((n : ℝ) * θ)
    push_cast at this
    exact this
  have h1 : ‖(⟨(a : ℝ), (b : ℝ)⟩ : ℂ)‖ ≤ 3 / 2 := by
    have := norm_sub_norm_le (⟨(a : ℝ), (b : ℝ)⟩ : ℂ) (z0 * Complex.exp ((n : ℂ) * θ * Complex.I))
    rw [norm_mul, e, mul_one] at this
    have hn' : (n : ℝ) ≤ 160 := by exact_mod_cast hn
    linarith
  refine ⟨h1, ?_, ?_⟩
  · have := (Complex.abs_re_le_norm (⟨(a : ℝ), (b : ℝ)⟩ : ℂ)).trans h1
    have e : |(a : ℝ)| ≤ ((3 / 2 : ℚ) : ℝ) := by push_cast; exact this
    exact_mod_cast e
  · have := (Complex.abs_im_le_norm (⟨(a : ℝ), (b : ℝ)⟩ : ℂ)).trans h1
    have e : |(b : ℝ)| ≤ ((3 / 2 : ℚ) : ℝ) := by push_cast; exact this
    exact_mod_cast e

theorem unit_abs {x y : ℚ} {t : ℝ} (h : |(x : ℝ) - t| ≤ 1 / 1048576) (ht : |t| ≤ 1) (_ : y = 0) : |x| ≤ 3 / 2 := by
  have h1 := abs_sub_abs_le_abs_sub (x : ℝ) t
  have e : |(x : ℝ)| ≤ ((3 / 2 : ℚ) : ℝ) := by push_cast; linarith
  exact_mod_cast e

theorem Rot.step {θ : ℝ} {z0 : ℂ} (hz : ‖z0‖ ≤ 5 / 4) {n : Nat} (hn : n ≤ 160) {c s cd sd : IEEE m} (h : Rot θ z0 n c s) {p q : ℚ}
    (hcd : Val cd p) (hsd : Val sd q) (hp : |(p : ℝ) - Real.cos θ| ≤ 1 / 1048576) (hq : |(q : ℝ) - Real.sin θ| ≤ 1 / 1048576) :
    Rot θ z0 (n + 1) ((c *ᶠ cd) -ᶠ (s *ᶠ sd) : IEEE m) ((s *ᶠ cd) +ᶠ (c *ᶠ sd) : IEEE m) := by
  obtain ⟨a, b, hc, hs, hab⟩ := h
  obtain ⟨hN, ha, hb⟩ := Rot.bound hz hn hab
  have hp' : |p| ≤ 3 / 2 := unit_abs hp (Real.abs_cos_le_one θ) (rfl : (0 : ℚ) = 0)
  have hq' : |q| ≤ 3 / 2 := unit_abs hq (Real.abs_sin_le_one θ) (rfl : (0 : ℚ) = 0)
  obtain ⟨a', b', h1, h2, e1, e2⟩ := rot_step hc hs hcd hsd ha hb hp' hq'
  refine ⟨a', b', h1, h2, ?_⟩
  have e1' : |(a' : ℝ) - (a * p - b * q)| ≤ 1 / 1048576 := by
    have : ((|a' - (a * p - b * q)| : ℚ) : ℝ) ≤ ((1 / 1048576 : ℚ) : ℝ) := by exact_mod_cast e1
    push_cast at this
    exact this
  have e2' : |(b' : ℝ) - (b * p + a * q)| ≤ 1 / 1048576 := by
    have : ((|b' - (b * p + a * q)| : ℚ) : ℝ) ≤ ((1 / 1048576 : ℚ) : ℝ) := by exact_mod_cast e2
    push_cast at this
    exact this
  set Z : ℂ := ⟨(a : ℝ), (b : ℝ)⟩ with hZ
  set W : ℂ := ⟨(p : ℝ), (q : ℝ)⟩ with hW
  set V : ℂ := ⟨(a' : ℝ), (b' : ℝ)⟩ with hV
  set e := Complex.exp ((θ : ℂ) * Complex.I) with he
  have ee : Complex.exp (((n + 1 : Nat) : ℂ) * θ * Complex.I) = Complex.exp ((n : ℂ) * θ * Complex.I) * e := by
    rw [he, ← Complex.exp_add]
    congr 1
    push_cast
    ring
  have d1 : ‖V - Z * W‖ ≤ 1 / 524288 := by
    have : V - Z * W = ⟨(a' : ℝ) - (a * p - b * q), (b' : ℝ) - (b * p + a * q)⟩ := by
      apply Complex.ext
      · simp [hV, hZ, hW]
      · simp [hV, hZ, hW]; ring
    rw [this]
    refine (norm_pair _ _).trans ?_
    linarith
  have d2 : ‖W - e‖ ≤ 1 / 524288 := by
    have : W - e = ⟨(p : ℝ) - Real.cos θ, (q : ℝ) - Real.sin θ⟩ := by
      apply Complex.ext
      · simp [hW, he, Complex.exp_ofReal_mul_I_re]
      · simp [hW, he, Complex.exp_ofReal_mul_I_im]
    rw [this]
    refine (norm_pair _ _).trans ?_
    linarith
  have n1 : ‖e‖ = 1 := Complex.norm_exp_ofReal_mul_I θ
  rw [ee]
  have split : V - z0 * (Complex.exp ((n : ℂ) * θ * Complex.I) * e) = (V - Z * W) + Z * (W - e) +
      (Z - z0 * Complex.exp ((n : ℂ) * θ * Complex.I)) * e := by ring
  rw [split]
  refine (norm_add_le _ _).trans ?_
  have t1 := norm_add_le (V - Z * W) (Z * (W - e))
  rw [norm_mul] at t1
  have t2 : ‖Z‖ * ‖W - e‖ ≤ 3 / 2 * (1 / 524288) := mul_le_mul hN d2 (norm_nonneg _) (by norm_num)
  rw [norm_mul, n1, mul_one]
  push_cast
  linarith

end Verif.Num
