import Verif.Model.Parms
import Verif.Spec.Params
import Mathlib.Analysis.SpecialFunctions.Log.Base
import Mathlib.Algebra.BigOperators.Intervals

/-!
# Log amplitudes over the real numbers
-/

namespace Verif.Spec
open Verif Verif.Model

/-- Mean of the log amplitudes of harmonics `1 .. L`. -/
noncomputable def meanLog (p : Parms ℝ) : ℝ := (∑ l ∈ Finset.Icc 1 p.L.toNat, p.log2Ml.getD l 0) / p.L

/-- The gain step selected by five payload bits of an AMBE 2450 frame. -/
noncomputable def gainStep2450 (d : Nat → Int) : ℝ := (Gen.AmbeDg.getD (fieldVal d [8, 9, 10, 11, 36]) 0 : Int) / (1000000 : ℝ)

/-- The gain step selected by six payload bits of an AMBE 2400 frame. -/
noncomputable def gainStep2400 (d : Nat → Int) : ℝ := (Gen.AmbePlusDg.getD (fieldVal d [6, 7, 8, 9, 42, 43]) 0 : Int) / (1000000 : ℝ)

/-- The largest difference between log amplitudes of harmonics `1 .. L` is at most `S`. -/
def SpreadLe (S : ℝ) (p : Parms ℝ) : Prop :=
  ∀ i j : Fin 57, 1 ≤ i.val → (i.val : Int) ≤ p.L → 1 ≤ j.val → (j.val : Int) ≤ p.L → p.log2Ml i - p.log2Ml j ≤ S

end Verif.Spec
