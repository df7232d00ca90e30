import Verif.Spec.Process

/-!
# The error rate of the AMBE decoders
-/

namespace Verif.Spec
open Verif Verif.Model Arith

variable {F : Type} [Arith F]

/-- The error rate filter: `0.95 * previous + 0.001064 * errors`. -/
def ambeRate (prev : F) (errs2 : Int) : F := (lit 95 100 *ᶠ prev) +ᶠ (lit 1064 1000000 *ᶠ ofInt errs2)

/-- The number of errors reported to the call. -/
def AmbeOp.errs2 : AmbeOp F → Int
  | .v2450 _ _ e _ => e
  | .v2400 _ _ e _ => e

/-- Pending repeats and error rate. -/
structure AmbeAbs (F : Type) where
  pending : Nat
  rate : F

/-- The abstract state before the first frame. -/
def AmbeAbs.init : AmbeAbs F := ⟨0, lit 0 1⟩

/-- One frame: the filter runs for speech and erasures, stands still for tones and for the first three repeats, and starts
again from zero with the fourth repeat and with noise. -/
def AmbeAbs.next (a : AmbeAbs F) (op : AmbeOp F) : AmbeAbs F :=
  ⟨ambeNext a.pending op.kind, match op.kind with
    | .voice => ambeRate a.rate op.errs2
    | .erasure => ambeRate a.rate op.errs2
    | .tone => a.rate
    | .repeat_ => if a.pending = 3 then lit 0 1 else a.rate
    | .noise => lit 0 1⟩

/-- A frame without errors and with a valid fundamental. -/
def ImbeOp.Clean (op : ImbeOp F) : Prop := op.errs2 = 0 ∧ imbeFund op.d ≤ 207

end Verif.Spec
