import Verif.Num.Arith
import Mathlib.Analysis.SpecialFunctions.Trigonometric.Basic
import Mathlib.Analysis.SpecialFunctions.Log.Base
import Mathlib.Analysis.SpecialFunctions.Pow.Real

/-!
# Exact arithmetic

The arithmetic operations of the model over the real numbers: no rounding, no overflow, ideal library functions. The
decimal expansions of `M_PI` and of the roots in `pffft.c` stand for the irrational numbers. Division by zero gives zero and the logarithm of zero is zero, as everywhere
in Mathlib; statements that could depend on this carry hypotheses that exclude it.
-/

namespace Verif
open Arith

/-- A decimal literal; the 21 digits of `M_PI` (src/core/mbe_unvoiced_fft.c:24 and `<math.h>`) stand for π, the 16 digits
of `minus_hsqt2` and `minus_sqrt2` (src/external/pffft/pffft.c:751 and src/external/pffft/pffft.c:839) for -√2/2 and -√2, the 20 and 21
digits of `M_SQRT1_2` and `M_SQRT2` (`<math.h>`, used in src/external/pffft/pffft.c:1695 and 1793) for √2/2 and √2. -/
noncomputable def realLit (n : Int) (d : Nat) : ℝ :=
  if n = 314159265358979323846 ∧ d = 100000000000000000000 then Real.pi
  else if n = -7071067811865475 ∧ d = 10000000000000000 then -(Real.sqrt 2 / 2)
  else if n = -1414213562373095 ∧ d = 1000000000000000 then -Real.sqrt 2
  else if n = 70710678118654752440 ∧ d = 100000000000000000000 then Real.sqrt 2 / 2
  else if n = 141421356237309504880 ∧ d = 100000000000000000000 then Real.sqrt 2
  else (n : ℝ) / (d : ℝ)

open Classical in
/-- Exact arithmetic. -/
noncomputable instance instArithReal : Arith ℝ where
  add a b := a + b
  sub a b := a - b
  mul a b := a * b
  div a b := a / b
  sqrt := Real.sqrt
  dadd a b := a + b
  dsub a b := a - b
  dmul a b := a * b
  ddiv a b := a / b
  toF a := a
  lit := realLit
  dlit := realLit
  ofInt n := (n : ℝ)
  dofInt n := (n : ℝ)
  lt a b := decide (a < b)
  le a b := decide (a ≤ b)
  eq a b := decide (a = b)
  neg a := -a
  abs a := |a|
  floor a := (⌊a⌋ : ℝ)
  ceil a := (⌈a⌉ : ℝ)
  fmod a b := a - b * (if 0 ≤ a / b then (⌊a / b⌋ : ℝ) else (⌈a / b⌉ : ℝ))
  trunc a := some (if 0 ≤ a then ⌊a⌋ else ⌈a⌉)
  cos := Real.cos
  sin := Real.sin
  exp2 a := (2 : ℝ) ^ a
  log2 := Real.logb 2
  exp := Real.exp

namespace RealArith

theorem add_r (a b : ℝ) : (a +ᶠ b) = a + b := rfl
theorem sub_r (a b : ℝ) : (a -ᶠ b) = a - b := rfl
theorem mul_r (a b : ℝ) : (a *ᶠ b) = a * b := rfl
theorem div_r (a b : ℝ) : (a /ᶠ b) = a / b := rfl
theorem dadd_r (a b : ℝ) : (a +ᵈ b) = a + b := rfl
theorem dsub_r (a b : ℝ) : (a -ᵈ b) = a - b := rfl
theorem dmul_r (a b : ℝ) : (a *ᵈ b) = a * b := rfl
theorem ddiv_r (a b : ℝ) : (a /ᵈ b) = a / b := rfl
theorem sqrt_r (a : ℝ) : Arith.sqrt a = Real.sqrt a := rfl
theorem toF_r (a : ℝ) : Arith.toF a = a := rfl
theorem neg_r (a : ℝ) : Arith.neg a = -a := rfl
theorem abs_r (a : ℝ) : Arith.abs a = |a| := rfl
theorem floor_r (a : ℝ) : Arith.floor a = (⌊a⌋ : ℝ) := rfl
theorem ceil_r (a : ℝ) : Arith.ceil a = (⌈a⌉ : ℝ) := rfl
theorem cos_r (a : ℝ) : Arith.cos a = Real.cos a := rfl
theorem sin_r (a : ℝ) : Arith.sin a = Real.sin a := rfl
theorem log2_r (a : ℝ) : Arith.log2 a = Real.logb 2 a := rfl
theorem exp2_r (a : ℝ) : Arith.exp2 a = (2 : ℝ) ^ a := rfl
theorem ofInt_r (n : Int) : (Arith.ofInt n : ℝ) = (n : ℝ) := rfl
theorem dofInt_r (n : Int) : (Arith.dofInt n : ℝ) = (n : ℝ) := rfl
theorem fi_r (n : Int) : (fi n : ℝ) = (n : ℝ) := rfl
theorem lt_r (a b : ℝ) : Arith.lt a b = true ↔ a < b := by
  show decide (a < b) = true ↔ _
  exact decide_eq_true_iff
theorem le_r (a b : ℝ) : Arith.le a b = true ↔ a ≤ b := by
  show decide (a ≤ b) = true ↔ _
  exact decide_eq_true_iff
theorem eq_r (a b : ℝ) : Arith.eq a b = true ↔ a = b := by
  show decide (a = b) = true ↔ _
  exact decide_eq_true_iff

theorem realLit_r (n : Int) (d : Nat) (h : n ≠ 314159265358979323846 ∧ n ≠ -7071067811865475 ∧ n ≠ -1414213562373095 ∧
    n ≠ 70710678118654752440 ∧ n ≠ 141421356237309504880) :
    realLit n d = (n : ℝ) / (d : ℝ) := by
  rw [realLit, if_neg fun h' => h.1 h'.1, if_neg fun h' => h.2.1 h'.1, if_neg fun h' => h.2.2.1 h'.1,
    if_neg fun h' => h.2.2.2.1 h'.1, if_neg fun h' => h.2.2.2.2 h'.1]
theorem lit_r (n : Int) (d : Nat) (h : n ≠ 314159265358979323846 ∧ n ≠ -7071067811865475 ∧ n ≠ -1414213562373095 ∧
    n ≠ 70710678118654752440 ∧ n ≠ 141421356237309504880) :
    (Arith.lit n d : ℝ) = (n : ℝ) / (d : ℝ) := realLit_r n d h
theorem dlit_r (n : Int) (d : Nat) (h : n ≠ 314159265358979323846 ∧ n ≠ -7071067811865475 ∧ n ≠ -1414213562373095 ∧
    n ≠ 70710678118654752440 ∧ n ≠ 141421356237309504880) :
    (Arith.dlit n d : ℝ) = (n : ℝ) / (d : ℝ) := realLit_r n d h
theorem hsqt2_r : (Arith.dlit (-7071067811865475) 10000000000000000 : ℝ) = -(Real.sqrt 2 / 2) := by
  show realLit _ _ = _
  rw [realLit, if_neg (by decide), if_pos (by decide)]
theorem sqrt2_r : (Arith.dlit (-1414213562373095) 1000000000000000 : ℝ) = -Real.sqrt 2 := by
  show realLit _ _ = _
  rw [realLit, if_neg (by decide), if_neg (by decide), if_pos (by decide)]
theorem sqrt1_2_r : (Arith.dlit 70710678118654752440 100000000000000000000 : ℝ) = Real.sqrt 2 / 2 := by
  show realLit _ _ = _
  rw [realLit, if_neg (by decide), if_neg (by decide), if_neg (by decide), if_pos (by decide)]
theorem msqrt2_r : (Arith.dlit 141421356237309504880 100000000000000000000 : ℝ) = Real.sqrt 2 := by
  show realLit _ _ = _
  rw [realLit, if_neg (by decide), if_neg (by decide), if_neg (by decide), if_neg (by decide), if_pos (by decide)]
theorem mpi_r : (mpi : ℝ) = Real.pi := by
  show realLit 314159265358979323846 100000000000000000000 = Real.pi
  exact if_pos ⟨rfl, rfl⟩
theorem fpi_r : (fpi : ℝ) = Real.pi := mpi_r

theorem trunc_nonneg {a : ℝ} (h : 0 ≤ a) : Arith.trunc a = some ⌊a⌋ := by
  show some (if 0 ≤ a then ⌊a⌋ else ⌈a⌉) = _
  rw [if_pos h]

end RealArith

end Verif
