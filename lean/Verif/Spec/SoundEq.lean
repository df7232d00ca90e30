import Verif.Spec.Rate
import Verif.Spec.Frames

/-!
# Receptions of the same transmission

Vocabulary for the claim that a few bit errors, once corrected, are inaudible.
-/

namespace Verif.Spec
open Verif Verif.Model Arith

variable {F : Type} [Arith F]

/-- Equal but for the error figures. -/
def SoundEq (p q : Parms F) : Prop :=
  q = { p with errorRate := q.errorRate, errorCountTotal := q.errorCountTotal, errorCount4 := q.errorCount4 }

/-- Decoder states that are equal but for the error figures. -/
def SoundEqSt (s s' : St F) : Prop :=
  SoundEq s.cur s'.cur ∧ SoundEq s.prev s'.prev ∧ SoundEq s.enh s'.enh ∧ s'.tls = s.tls

/-- Run a list of calls and collect the samples of each. -/
def heard {Op : Type} (step : Op → St F → Exec (Out F)) : List Op → St F → Exec (List (Arr 160 F) × St F)
  | [], s => .ok ([], s)
  | op :: ops, s => do
    let o ← step op s
    let r ← heard step ops o.st
    .ok (o.pcm :: r.1, r.2)

/-- The same frame, received with possibly different errors. -/
def ImbeOp.SameTx (a b : ImbeOp F) : Prop := a.call = b.call ∧ a.d = b.d

/-- IMBE frames with few errors: at most four in each, and an error rate of at most 0.005. -/
def FaintImbe (a : ImbeAbs F) : List (ImbeOp F) → Prop
  | [] => True
  | op :: ops => 0 ≤ op.errs2 ∧ op.errs2 ≤ 4 ∧ le (lit 0 1) (imbeRate a.rate op.errs2) = true ∧
      le (imbeRate a.rate op.errs2) (lit 5 1000) = true ∧ FaintImbe (a.next op) ops

/-- The same frame, received with possibly different errors. -/
def AmbeOp.SameTx : AmbeOp F → AmbeOp F → Prop
  | .v2450 C _ _ d, .v2450 C' _ _ d' => C = C' ∧ d = d'
  | .v2400 C _ _ d, .v2400 C' _ _ d' => C = C' ∧ d = d'
  | _, _ => False

/-- The errors of the frame do not make it a repeat: at most three, in the first word and in all. -/
def AmbeOp.Few : AmbeOp F → Prop
  | .v2450 _ c0 e _ => e ≤ 3 ∧ ∀ c, c0 = some c → c ≤ 3
  | .v2400 _ _ e _ => e ≤ 3

/-- AMBE frames with few errors: at most three in each, and an error rate of at most 0.005. -/
def FaintAmbe (a : AmbeAbs F) : List (AmbeOp F) → Prop
  | [] => True
  | op :: ops => op.Few ∧ le (lit 0 1) (ambeRate a.rate op.errs2) = true ∧
      le (ambeRate a.rate op.errs2) (lit 5 1000) = true ∧ FaintAmbe (a.next op) ops

/-! ## Frames -/

/-- A received IMBE 7200x4400 frame: payload `d` sent as the words `c`, error patterns `e`, received bits `fr`; `old` is what
the payload buffer of the receiver held before. -/
structure Rx7200 (F : Type) where
  call : Call F
  d : Nat → Int
  c : Nat → Nat
  e : Nat → Nat
  fr : Frame
  old : Nat → Int

/-- The errors are within the capability of the code. -/
def Rx7200.Valid (r : Rx7200 F) : Prop := Bits 88 r.d ∧ Imbe7200Tx r.d r.c r.e r.fr

/-- Reception of the frame. -/
def Rx7200.run (E : Env F) (r : Rx7200 F) (s : St F) : Exec (Out F) := do
  .ok (← processImbe7200Framef E r.call r.fr r.old s).out

/-- The errors that are reported for the frame: in coset 0, in coset 4, and in all. -/
def Rx7200.op (r : Rx7200 F) : ImbeOp F :=
  ⟨r.call, some ((weight 12 (r.e 0 >>> 11) : Nat), (weight 15 (r.e 4) : Nat)),
    (weight 12 (r.e 0 >>> 11) + weight 12 (r.e 1 >>> 11) + weight 12 (r.e 2 >>> 11) + weight 12 (r.e 3 >>> 11) +
      weight 15 (r.e 4) + weight 15 (r.e 5) + weight 15 (r.e 6) : Nat), r.d⟩

/-- No bit was flipped. -/
def Rx7200.Clean (r : Rx7200 F) : Prop := ∀ i, i < 7 → r.e i = 0

/-- A received AMBE 3600 frame; `pe` says whether the parity bit of the first word was flipped. -/
structure RxAmbe (F : Type) where
  dstar : Bool
  call : Call F
  d : Nat → Int
  c : Nat → Nat
  e : Nat → Nat
  pe : Bool
  fr : Frame
  old : Nat → Int

/-- The errors are within the capability of the code. -/
def RxAmbe.Valid (r : RxAmbe F) : Prop := Bits 49 r.d ∧ AmbeTx r.d r.c r.e r.pe r.fr

/-- Reception of the frame, as 3600x2400 (D-STAR) or 3600x2450. -/
def RxAmbe.run (E : Env F) (r : RxAmbe F) (s : St F) : Exec (Out F) := do
  if r.dstar then .ok (← processAmbe2400Framef E r.call r.fr r.old s).out
  else .ok (← processAmbe2450Framef E r.call r.fr r.old s).out

/-- The errors that are reported for the frame. -/
def RxAmbe.op (r : RxAmbe F) : AmbeOp F :=
  let c0 : Int := (ambeC0Count (r.e 0) r.pe : Nat)
  let all : Int := (ambeC0Count (r.e 0) r.pe + weight 12 (r.e 1 >>> 11) : Nat)
  if r.dstar then .v2400 r.call c0 all r.d else .v2450 r.call (some c0) all r.d

/-- No bit was flipped. -/
def RxAmbe.Clean (r : RxAmbe F) : Prop := r.e 0 = 0 ∧ r.e 1 = 0 ∧ r.pe = false

end Verif.Spec
