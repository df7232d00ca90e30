import Verif.Spec.Process
import Verif.Num.Real

/-!
# The exact log amplitudes of a history of IMBE frames

The reference for the binary32 decoder: the same sequence of frames, decoded in exact arithmetic. The repeat decisions,
which depend on the error rate, are those of the abstract counters of `Verif/Spec/Process.lean`.
-/

namespace Verif.Spec
open Verif Verif.Model Arith

/-- The parameters of a frame decoded in exact arithmetic after a frame with parameters `p`. -/
noncomputable def exactFrame (d : Nat → Int) (p : Parms ℝ) : Parms ℝ :=
  match decodeImbe4400 true d p p Tls.start with
  | .ok r => r.cur
  | .error _ => p

/-- One frame: a repeat keeps the parameters, the fifth repeat in a row takes the default model (39 bands, all log
amplitudes 0), any other frame is decoded. -/
noncomputable def trackNext {F : Type} [Arith F] (x : ImbeAbs F × Parms ℝ) (op : ImbeOp F) : ImbeAbs F × Parms ℝ :=
  (x.1.next op,
    if x.1.isRepeat op then (if x.1.streak % 5 = 4 then { x.2 with L := 39, log2Ml := Arr.const 57 0 } else x.2)
    else exactFrame op.d x.2)

/-- The exact parameters after the frames `ops`, starting with 39 bands whose log amplitudes are 0. -/
noncomputable def track {F : Type} [Arith F] (p : Parms ℝ) (ops : List (ImbeOp F)) : Parms ℝ :=
  (ops.foldl trackNext (ImbeAbs.init, { p with L := 39, log2Ml := Arr.const 57 0 })).2

/-- The log amplitudes of the bands lie between -15.9 and 26.9, and one of them is at least -9.9. -/
def Moderate (p : Parms ℝ) : Prop :=
  (∀ l : Fin 57, 1 ≤ l.val → (l.val : Int) ≤ p.L → -15.9 ≤ p.log2Ml l ∧ p.log2Ml l ≤ 26.9) ∧
  ∃ l : Fin 57, 1 ≤ l.val ∧ (l.val : Int) ≤ p.L ∧ -9.9 ≤ p.log2Ml l

end Verif.Spec
