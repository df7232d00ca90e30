import Verif.Arr
import Mathlib.Analysis.SpecialFunctions.Pow.Real
import Mathlib.Analysis.SpecialFunctions.Trigonometric.Basic
import Mathlib.Algebra.BigOperators.Intervals

/-!
# Spectral amplitude enhancement over the real numbers

The formulas of the enhancement, with amplitudes `M 1 .. M L`.
-/

namespace Verif.Spec
open Verif

/-- The amplitudes as a function of the harmonic number. -/
noncomputable def amps (Ml : Arr 57 ℝ) (l : Nat) : ℝ := Ml.getD l 0

/-- Energy of the spectrum. -/
noncomputable def energy (M : Nat → ℝ) (L : Nat) : ℝ := ∑ l ∈ Finset.Icc 1 L, M l ^ 2

/-- First-order correlation of the spectrum. -/
noncomputable def corr (w0 : ℝ) (M : Nat → ℝ) (L : Nat) : ℝ := ∑ l ∈ Finset.Icc 1 L, M l ^ 2 * Real.cos (l * w0)

/-- The weight of harmonic `l`: `√M · ⁴√(0.96 π (R0² + R1² − 2 R0 R1 cos(l w0)) / (w0 R0 (R0² − R1²)))`. -/
noncomputable def enhW (w0 : ℝ) (M : Nat → ℝ) (L l : Nat) : ℝ :=
  M l ^ (1 / 2 : ℝ) * ((96 / 100 * Real.pi * (energy M L ^ 2 + corr w0 M L ^ 2 - 2 * energy M L * corr w0 M L * Real.cos (l * w0))) /
    (w0 * energy M L * (energy M L ^ 2 - corr w0 M L ^ 2))) ^ (1 / 4 : ℝ)

/-- The factor applied to harmonic `l`: none for the lowest eighth, otherwise the weight clamped to `[0.5, 1.2]`. -/
noncomputable def enhFactor (w0 : ℝ) (M : Nat → ℝ) (L l : Nat) : ℝ :=
  if 8 * l ≤ L then 1 else max (1 / 2) (min (6 / 5) (enhW w0 M L l))

/-- The common gain that restores the energy. -/
noncomputable def enhGain (w0 : ℝ) (M : Nat → ℝ) (L : Nat) : ℝ :=
  Real.sqrt (energy M L / energy (fun l => enhFactor w0 M L l * M l) L)

end Verif.Spec
