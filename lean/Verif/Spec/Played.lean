import Verif.Spec.EnhanceAcc
import Verif.Spec.SmoothAcc

/-!
# The amplitudes that are played

From the decoded amplitudes `M 1 .. M L` of a frame to those that its synthesis uses, over the real numbers.
-/

namespace Verif.Spec
open Verif Verif.Model

/-- The enhanced amplitudes. -/
noncomputable def enhanced (w0 : ℝ) (M : Nat → ℝ) (L l : Nat) : ℝ := enhGain w0 M L * (enhFactor w0 M L l * M l)

/-- Amplitudes whose sum is limited to `T`. -/
noncomputable def limitTo (T : ℝ) (M : Nat → ℝ) (L l : Nat) : ℝ := M l * (T / max T (ampTotal M L))

/-- Enhanced, then limited. -/
noncomputable def played (w0 T : ℝ) (M : Nat → ℝ) (L l : Nat) : ℝ := limitTo T (enhanced w0 M L) L l

/-- The spectrum whose base 2 logarithms the frame holds. -/
noncomputable def ampsOf (p : Parms ℝ) (l : Nat) : ℝ := (2 : ℝ) ^ amps p.log2Ml l

/-- Log amplitudes at which the enhancement is accurate. -/
def Quiet (p : Parms ℝ) : Prop :=
  (∀ l : Fin 57, 1 ≤ l.val → (l.val : Int) ≤ p.L → -15.9 ≤ p.log2Ml l ∧ p.log2Ml l ≤ 17.9) ∧
  ∃ l : Fin 57, 1 ≤ l.val ∧ (l.val : Int) ≤ p.L ∧ -9.9 ≤ p.log2Ml l

end Verif.Spec
