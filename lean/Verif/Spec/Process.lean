import Verif.Spec.Params
import Verif.Model.Process

/-!
# Specification vocabulary for the process functions

Histories of calls, the repeat rules of the codecs and the abstract counters that the state must follow.
-/

namespace Verif.Spec
open Verif Verif.Model Arith

variable {F : Type} [Arith F]

/-- Run a list of calls, each starting from the state the one before left. -/
def runOps {Op : Type} (step : Op → St F → Exec (Out F)) : List Op → St F → Exec (St F)
  | [], s => .ok s
  | op :: ops, s => do
    let o ← step op s
    runOps step ops o.st

/-! ## IMBE -/

/-- A call of an IMBE entry point once error correction has been done: the error counts of coset 0 and coset 4 if the
caller was a frame entry point, the total error count, and the payload. -/
structure ImbeOp (F : Type) where
  call : Call F
  counts : Option (Int × Int)
  errs2 : Int
  d : Nat → Int

/-- Effect of the call. -/
def ImbeOp.run (E : Env F) (op : ImbeOp F) (s : St F) : Exec (Out F) :=
  match op.counts with
  | some (c0, c4) => processImbe4400 E op.call (some c0) op.errs2 op.d { s with cur := { s.cur with errorCount4 := c4 } }
  | none => processImbe4400 E op.call none op.errs2 op.d s

/-- The error rate filter: `0.95 * previous + 0.000365 * errors`. -/
def imbeRate (prev : F) (errs2 : Int) : F := (lit 95 100 *ᶠ prev) +ᶠ (lit 365 1000000 *ᶠ ofInt errs2)

/-- The repeat rule: invalid fundamental, or too many errors. With the coset 0 count `c0`, "too many" means `c0 ≥ 2` and a
total of at least `10 + 40 * rate`; without it, a total above 5. -/
def imbeIsRepeat (fund : Nat) (c0 : Option Int) (errs2 : Int) (rate : F) : Bool :=
  decide (207 < fund) || match c0 with
    | some c => decide (2 ≤ c) && le (lit 10 1 +ᶠ (lit 40 1 *ᶠ rate)) (ofInt errs2)
    | none => decide (5 < errs2)

/-- Number of repeats since the last frame that was not one, and error rate. -/
structure ImbeAbs (F : Type) where
  streak : Nat
  rate : F

/-- The abstract state before the first frame. -/
def ImbeAbs.init : ImbeAbs F := ⟨0, lit 0 1⟩

/-- Is the frame `op` a repeat? -/
def ImbeAbs.isRepeat (a : ImbeAbs F) (op : ImbeOp F) : Bool :=
  imbeIsRepeat (imbeFund op.d) (op.counts.map (·.1)) op.errs2 (imbeRate a.rate op.errs2)

/-- One frame: the rate filter stands still during a repeat, except when the default model is substituted (every fifth
repeat in a row). -/
def ImbeAbs.next (a : ImbeAbs F) (op : ImbeOp F) : ImbeAbs F :=
  if a.isRepeat op then ⟨a.streak + 1, if a.streak % 5 = 4 then imbeRate a.rate op.errs2 else a.rate⟩
  else ⟨0, imbeRate a.rate op.errs2⟩

/-- The frame just processed is muted: it is the fourth repeat in a row (modulo the five-frame cycle), or the error rate
exceeds the IMBE threshold 0.0875. -/
def ImbeAbs.Muted (a : ImbeAbs F) : Prop := a.streak % 5 = 4 ∨ lt (lit 875 10000) a.rate = true

instance (a : ImbeAbs F) : Decidable a.Muted := by unfold ImbeAbs.Muted; infer_instance

/-! ## AMBE -/

/-- A call of an AMBE entry point after error correction. `c0 = none` for the 2450 data entry points. -/
inductive AmbeOp (F : Type)
  | v2450 (call : Call F) (c0 : Option Int) (errs2 : Int) (d : Nat → Int)
  | v2400 (call : Call F) (errs errs2 : Int) (d : Nat → Int)

/-- Effect of the call. -/
def AmbeOp.run (E : Env F) : AmbeOp F → St F → Exec (Out F)
  | .v2450 C c0 errs2 d, s => processAmbe2450 E C c0 errs2 d s
  | .v2400 C errs errs2 d, s => processAmbe2400 E C errs errs2 d s

/-- The payload of the call. -/
def AmbeOp.payload : AmbeOp F → Nat → Int
  | .v2450 _ _ _ d => d
  | .v2400 _ _ _ d => d

/-- Kinds of AMBE frames. -/
inductive Kind
  | voice
  | repeat_
  | tone
  | erasure
  | noise
  deriving DecidableEq

/-- AMBE 2450 repeat rule: with the coset 0 count `c`, `c ≥ 4`, or `c ≥ 2` and at least 6 errors in total; without it, more
than 3 errors. -/
def ambeTooManyErrors (c0 : Option Int) (errs2 : Int) : Bool :=
  match c0 with
  | some c => decide (4 ≤ c) || (decide (2 ≤ c) && decide (6 ≤ errs2))
  | none => decide (3 < errs2)

/-- Classification of a frame. In AMBE 2400 every tone or silence frame produces comfort noise (see C34). -/
def AmbeOp.kind : AmbeOp F → Kind
  | .v2450 _ c0 errs2 d =>
    if ToneSig d ∧ errs2 < 6 then .tone
    else if 120 ≤ ambeFund2450 d ∧ ambeFund2450 d ≠ 124 ∧ ambeFund2450 d ≠ 125 then .erasure
    else if ambeTooManyErrors c0 errs2 then .repeat_
    else .voice
  | .v2400 _ _ errs2 d =>
    if 126 ≤ ambeFund2400 d then .noise else if errs2 > 3 then .repeat_ else .voice

/-- Repeats since the last voice, erasure or noise frame; tones do not count and do not interrupt. The fourth one mutes
and starts again from zero. -/
def ambeNext (n : Nat) (k : Kind) : Nat :=
  match k with
  | .voice => 0
  | .repeat_ => if n = 3 then 0 else n + 1
  | .tone => n
  | .erasure => 0
  | .noise => 0

end Verif.Spec
