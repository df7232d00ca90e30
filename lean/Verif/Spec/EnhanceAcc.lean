import Verif.Spec.Enhance
import Verif.Spec.VoicedAcc

/-!
# Vocabulary for the accuracy of the spectral enhancement in binary32
-/

namespace Verif.Spec
open Verif Verif.Model Verif.Num Arith

variable {m : Libm}

/-- A fundamental `w` with `L` harmonics, none of which is within about three degrees of zero or of half the sampling frequency. -/
structure PitchWithin (w : ℚ) (L : Int) : Prop where
  range : 1 / 32 ≤ w ∧ w ≤ 1
  bands : 1 ≤ L ∧ L ≤ 56
  apart : ∀ l : Nat, 1 ≤ l → (l : Int) ≤ L → |Real.cos (l * (w : ℝ))| ≤ 1 - 1 / 900

/-- A frame for the enhancement: the fundamental as above, the amplitudes in `[0, A]`, all zero or one of them at least `2^-10`. -/
structure EnhanceOk (A : ℚ) (p : Parms (IEEE m)) : Prop where
  pitch : ∃ w : ℚ, Val p.w0 w ∧ PitchWithin w p.L
  amps : Amps A (1 / 1024) p

/-- The factors of the harmonics if every weight is zero: 1 for the lowest eighth, otherwise 1/2. -/
noncomputable def halved (L l : Nat) : ℝ := if 8 * l ≤ L then 1 else 1 / 2

end Verif.Spec
