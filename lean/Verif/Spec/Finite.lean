import Verif.Spec.Simd
import Verif.Lemmas.FPOps
import Mathlib.Analysis.Complex.Trigonometric

/-!
# Vocabulary for the finiteness of the samples
-/

namespace Verif.Num

/-- `cosf` and `sinf` are accurate to `2^-20` for arguments up to `2^26`, and exact at zero (C23 Annex F.10.1.5, F.10.1.6). -/
structure TrigAcc (m : Libm) : Prop where
  cos : ∀ (x : FP) (q : ℚ), Val x q → |q| ≤ pow2 26 → ∃ r : ℚ, Val (m.cos x) r ∧ |(r : ℝ) - Real.cos q| ≤ 1 / 1048576
  sin : ∀ (x : FP) (q : ℚ), Val x q → |q| ≤ pow2 26 → ∃ r : ℚ, Val (m.sin x) r ∧ |(r : ℝ) - Real.sin q| ≤ 1 / 1048576
  cos0 : ∀ x : FP, Val x 0 → Val (m.cos x) 1
  sin0 : ∀ x : FP, Val x 0 → Val (m.sin x) 0

/-- Accuracy assumed of `cosf` on the angles of the twiddle factors: about two units in the last place of 1. -/
def CosAcc (m : Libm) : Prop :=
  ∀ (x : FP) (q : ℚ), Val x q → |q| ≤ 8 → ∃ r : ℚ, Val (m.cos x) r ∧ |(r : ℝ) - Real.cos q| ≤ 1 / 4194304

end Verif.Num

namespace Verif.Spec
open Verif Verif.Model Verif.Num

variable {m : Libm}

/-- All samples are numbers. -/
def AllFin (out : Arr 160 FP) : Prop := ∀ i, ∃ q, Val (out i) q

/-- Amplitudes of a frame: numbers in `[0, A]`, all zero or one of them at least `c`. -/
def Amps (A c : ℚ) (p : Parms (IEEE m)) : Prop := ∃ a : Nat → ℚ,
  (∀ l : Fin 57, 1 ≤ l.val → (l.val : Int) ≤ p.L → Val (p.Ml l) (a l.val) ∧ 0 ≤ a l.val ∧ a l.val ≤ A) ∧
  ((∀ l : Nat, 1 ≤ l → (l : Int) ≤ p.L → a l = 0) ∨ ∃ k : Nat, 1 ≤ k ∧ (k : Int) ≤ p.L ∧ c ≤ a k)

/-- Amplitudes of at most `2^27`, all zero or the largest at least `2^-10`. -/
abbrev AmpsOk (p : Parms (IEEE m)) : Prop := Amps (2 ^ 27) (1 / 1024) p

/-- The error count that the caller of a data entry point reports is at most `n`. -/
def Api.ErrsLe (n : Int) : Api (IEEE m) → Prop
  | .imbeData _ _ errs2 _ => errs2 ≤ n
  | .ambe2450Data _ _ errs2 _ => errs2 ≤ n
  | .ambe2400Data _ _ errs2 _ => errs2 ≤ n
  | _ => True

end Verif.Spec
