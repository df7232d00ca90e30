import Verif.Spec.Played
import Verif.Spec.AmbeTrack

/-!
# AMBE frames at which the enhancement is accurate
-/

namespace Verif.Spec
open Verif Verif.Model

/-- The log amplitudes of the bands lie between -15.9 and 17.8, and one of the amplitudes is at least 1/900. -/
def QuietA (p : Parms ℝ) : Prop :=
  (∀ l : Fin 57, 1 ≤ l.val → (l.val : Int) ≤ p.L → -15.9 ≤ p.log2Ml l ∧ p.log2Ml l ≤ 17.8) ∧
  ∃ l : Fin 57, 1 ≤ l.val ∧ (l.val : Int) ≤ p.L ∧ 1 / 900 ≤ p.Ml l

end Verif.Spec
