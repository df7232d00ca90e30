import Verif.Model.Synth

/-!
# Specification vocabulary for adaptive smoothing
-/

namespace Verif.Spec
open Verif Verif.Model Arith

variable {F : Type} [Arith F]

/-- `M[1] + ... + M[L]`, summed in this order starting from zero. -/
def ampSum (Ml : Arr 57 F) (L : Int) : F :=
  (List.range L.toNat).foldl (fun s i => s +ᶠ Ml.getD (i + 1) (lit 0 1)) (lit 0 1)

/-- `M[1]² + ... + M[L]²`, summed in this order starting from zero. -/
def sqSum (Ml : Arr 57 F) (L : Int) : F :=
  (List.range L.toNat).foldl (fun s i => s +ᶠ (Ml.getD (i + 1) (lit 0 1) *ᶠ Ml.getD (i + 1) (lit 0 1))) (lit 0 1)

/-- Error rate at most 0.005 and at most `n` errors. -/
def CleanFrame (p : Parms F) (n : Int) : Prop := le p.errorRate (lit 5 1000) = true ∧ p.errorCountTotal ≤ n

/-- The amplitude threshold of a frame: 20480 for error rates up to 0.005 with at most 6 errors, otherwise the previous
threshold (20480 if that was not positive) plus 6000 minus 300 per error. -/
def NextThreshold (cur prev : Parms F) (tm : Int) : Prop :=
  (CleanFrame cur 6 ∧ tm = 20480) ∨
  (¬ CleanFrame cur 6 ∧ tm = 6000 - 300 * cur.errorCountTotal +
    (if prev.amplitudeThreshold ≤ 0 then 20480 else prev.amplitudeThreshold))

end Verif.Spec
