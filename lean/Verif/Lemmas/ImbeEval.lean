import Verif.Model.Imbe
import Verif.Num.FP

/-!
# Evaluation of the IMBE fundamental, `L` and `K` for all 208 fundamentals
-/

namespace Verif.Model
open Verif Verif.Num Arith

/-- A libm used only to state evaluations in which no libm function occurs. -/
def libm0 : Libm := ⟨id, id, id, id, id⟩

/-- `toI32` on IEEE data does not depend on libm. -/
def fpToI32 (x : FP) : Exec Int :=
  match FP.truncR x with
  | some n => if -2147483648 ≤ n ∧ n < 2147483648 then .ok n else .error .floatToInt
  | none => .error .floatToInt

theorem toI32_ieee {m : Libm} (x : IEEE m) : toI32 x = fpToI32 x := rfl

/-- Table entries on IEEE data do not depend on libm. -/
def ftabFP (n : Int) (d : Nat) : FP := FP.conv F32 (FP.round F64 false (mkRat n d))

theorem ftab_ieee {m : Libm} (n : Int) (d : Nat) : (ftab n d : IEEE m) = ftabFP n d := rfl

/-- `L` as the code computes it, as a plain function of the fundamental index; compared with the code below. -/
def imbeLTab (b0 : Nat) : Nat := 9254 * ((b0 + 40) / 4) / 10000

theorem imbeL_eval0 : ∀ b0 < 256, imbeLOfW0 (imbeW0 b0 : IEEE libm0) = .ok (imbeLTab b0 : Int) := by
  decide +kernel

variable {m : Libm}

theorem imbeW0_ieee (b0 : Nat) : (imbeW0 b0 : IEEE m) = (imbeW0 b0 : IEEE libm0) := rfl

theorem imbeLOfW0_ieee (x : FP) : imbeLOfW0 (F := IEEE m) x = imbeLOfW0 (F := IEEE libm0) x := rfl

theorem imbeL_eval {b0 : Nat} (h : b0 < 256) : imbeLOfW0 (imbeW0 b0 : IEEE m) = .ok (imbeLTab b0 : Int) :=
  ((congrArg (imbeLOfW0 (F := IEEE m)) (imbeW0_ieee b0)).trans (imbeLOfW0_ieee (m := m) _)).trans (imbeL_eval0 b0 h)

theorem imbeLTab_range : ∀ b0 < 208, 9 ≤ imbeLTab b0 ∧ imbeLTab b0 ≤ 56 := by decide +kernel

theorem imbeK_eval0 : ∀ L : Nat, L < 57 → 9 ≤ L → imbeKOfL (IEEE libm0) (L : Int) = .ok ((min 12 ((L + 2) / 3) : Nat) : Int) := by
  decide +kernel

theorem imbeKOfL_ieee (L : Int) : imbeKOfL (IEEE m) L = imbeKOfL (IEEE libm0) L := rfl

theorem imbeK_eval {L : Nat} (h : L < 57) (h' : 9 ≤ L) :
    imbeKOfL (IEEE m) (L : Int) = .ok ((min 12 ((L + 2) / 3) : Nat) : Int) :=
  (imbeKOfL_ieee (m := m) _).trans (imbeK_eval0 L h h')

end Verif.Model
