import Mathlib.Analysis.SpecialFunctions.Trigonometric.Basic
import Verif.Model.Fft
import Verif.Model.Synth

/-!
# Specification vocabulary for the transforms

The discrete Fourier transform of a real sequence, the layout in which the library exchanges spectra, and what it means for
an environment to contain the transforms that the code computes.
-/

namespace Verif.Spec
open Verif Verif.Model Complex Finset

/-- `exp(-2πi·k/N)` -/
noncomputable def om (N k : ℕ) : ℂ := exp (((-(2 * Real.pi * (k : ℝ) / (N : ℝ)) : ℝ) : ℂ) * I)

/-- The discrete Fourier transform of `x 0, …, x (N-1)`. -/
noncomputable def dft (N : ℕ) (x : ℕ → ℝ) (k : ℕ) : ℂ := ∑ n ∈ range N, (x n : ℂ) * om N (k * n)

/-- The ordered layout of the spectrum of 256 real numbers (src/core/mbe_unvoiced_fft.c:502-505): the real parts of bins 0
and 128, then real and imaginary part of bins 1 to 127. -/
def Ordered (a : Arr 256 ℝ) (X : ℕ → ℂ) : Prop :=
  a 0 = (X 0).re ∧ a 1 = (X 128).re ∧
    ∀ k : Fin 128, k ≠ 0 → a ⟨2 * k.val, by omega⟩ = (X k.val).re ∧ a ⟨2 * k.val + 1, by omega⟩ = (X k.val).im

/-- The elements of an array as a sequence, 0 beyond the end. -/
noncomputable def seqOf (a : Arr 256 ℝ) (n : ℕ) : ℝ := if h : n < 256 then a ⟨n, h⟩ else 0

/-- All 256 bins of a spectrum in the ordered layout: the bins above 128 are the conjugates of those below. -/
noncomputable def binAt (a : Arr 256 ℝ) (k : ℕ) : ℂ :=
  if k = 0 then ((a 0 : ℝ) : ℂ)
  else if k = 128 then ((a 1 : ℝ) : ℂ)
  else if k < 128 then ⟨seqOf a (2 * k), seqOf a (2 * k + 1)⟩
  else ⟨seqOf a (2 * (256 - k)), -seqOf a (2 * (256 - k) + 1)⟩

/-- A block of 256 initialised floats. -/
def filled {F : Type} (a : Arr 256 F) : Loc 256 F := fun i => some (a i)

/-- The transforms of the environment are those of the code: the setup succeeds, and with it both transforms end normally
for every input, leave the input as it is and write exactly these values, whatever the other two blocks hold. -/
def Runs {F : Type} [Arith F] (E : Env F) : Prop :=
  ∃ S, newSetup256 = .ok (some S) ∧ ∀ (a : Arr 256 F) (μ : Mem F), μ .input = filled a →
    (∃ ν, transformFwd S μ = .ok ν ∧ ν .output = filled (E.fwd a) ∧ ν .input = filled a) ∧
    (∃ ν, transformBwd S μ = .ok ν ∧ ν .output = filled (E.bwd a) ∧ ν .input = filled a)

end Verif.Spec
