import Verif.Spec.Fft
import Verif.Model.FftVec

/-!
# Specification vocabulary for the transforms of the vector build
-/

namespace Verif.Spec
open Verif Verif.Model

/-- The transforms of the environment are those of the code as compiled with vectors of four floats: as `Runs` for the
scalar build. -/
def RunsV {F : Type} [Arith F] (E : Env F) : Prop :=
  ∃ S, newSetupV = .ok (some S) ∧ ∀ (a : Arr 256 F) (μ : Mem F), μ .input = filled a →
    (∃ ν, transformFwdV S μ = .ok ν ∧ ν .output = filled (E.fwd a) ∧ ν .input = filled a) ∧
    (∃ ν, transformBwdV S μ = .ok ν ∧ ν .output = filled (E.bwd a) ∧ ν .input = filled a)

end Verif.Spec
