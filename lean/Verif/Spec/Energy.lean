import Verif.Spec.Enhance
import Verif.Spec.Smooth

/-!
# Local energy and the voicing limit
-/

namespace Verif.Spec
open Verif Verif.Model Arith

/-- The local energy after a frame of energy `r`, for any arithmetic: 95 % of the previous one (75000 in place of values
below 10000) plus 5 % of `r`, and at least 10000. -/
def energyNext {F : Type} [Arith F] (prev r : F) : F :=
  let e := (lit 95 100 *ᶠ (if lt prev (lit 10000 1) then lit 75000 1 else prev)) +ᶠ (lit 5 100 *ᶠ r)
  if lt e (lit 10000 1) then lit 10000 1 else e

/-- The amplitude above which a band is declared voiced, in a frame with error rate `rate`, `errs` errors, `c4` of them in
coset 4, and local energy `e`. -/
noncomputable def voicingLimit (rate e : ℝ) (errs c4 : Int) : ℝ :=
  if rate ≤ 5 / 1000 ∧ errs ≤ 4 then 340282346638528859811704183484516925440
  else if rate ≤ 125 / 10000 ∧ c4 = 0 then 45.255 * e ^ (3 / 8 : ℝ) / Real.exp (277.26 * rate)
  else 1.414 * e ^ (3 / 8 : ℝ)

end Verif.Spec
