import Verif.Spec.Process
import Verif.Spec.Frames

/-!
# Histories of a decoder

Everything a caller can do with one decoder on one thread: calls of the process functions of any codec, the two
initialisers and seeding of the generators.
-/

namespace Verif.Spec
open Verif Verif.Model Arith

variable {F : Type} [Arith F]

/-- One action of the caller. -/
inductive Op (F : Type)
  | imbe (op : ImbeOp F)
  | ambe (op : AmbeOp F)
  | initMbe
  | initAmbe
  | seed (n : Nat)

/-- Effect on the decoder state. -/
def Op.run (E : Env F) : Op F → St F → Exec (St F)
  | .imbe op, s => do .ok (← op.run E s).st
  | .ambe op, s => do .ok (← op.run E s).st
  | .initMbe, s => initMbeState s
  | .initAmbe, s => initAmbeState s
  | .seed n, s => .ok { s with tls := setThreadRngSeed n s.tls }

/-- Run a list of actions. -/
def runHist (E : Env F) : List (Op F) → St F → Exec (St F)
  | [], s => .ok s
  | op :: ops, s => do runHist E ops (← op.run E s)

/-- The payload consists of bits. -/
def Op.Payload : Op F → Prop
  | .imbe op => Bits 88 op.d
  | .ambe op => Bits 49 op.payload
  | _ => True

/-- The error count passed to the call lies in `0..n` and the status buffer has room for the count and three more bytes. -/
def Op.Counts (n : Int) : Op F → Prop
  | .imbe op => 0 ≤ op.errs2 ∧ op.errs2 ≤ n ∧ op.errs2.toNat + 3 ≤ op.call.cap
  | .ambe (.v2450 C _ e _) => 0 ≤ e ∧ e ≤ n ∧ e.toNat + 3 ≤ C.cap
  | .ambe (.v2400 C _ e _) => 0 ≤ e ∧ e ≤ n ∧ e.toNat + 3 ≤ C.cap
  | _ => True

/-- A decoder after one of the two initialisers, on a thread that has just started: the parameter sets had arbitrary
contents before. -/
def Fresh (s : St F) : Prop :=
  ∃ s0 : St F, s0.tls = Tls.start ∧ (initMbeState s0 = .ok s ∨ initAmbeState s0 = .ok s)

/-! ## The public entry points -/

/-- A call of one of the public functions that a decoding program uses, with the arguments the caller supplies. The old
contents of the payload array are an argument of the frame entry points. -/
inductive Api (F : Type)
  | imbe7200Frame (C : Call F) (fr : Frame) (d : Nat → Int)
  | imbe7100Frame (C : Call F) (fr : Frame) (d : Nat → Int)
  | ambe2450Frame (C : Call F) (fr : Frame) (d : Nat → Int)
  | ambe2400Frame (C : Call F) (fr : Frame) (d : Nat → Int)
  | imbeData (C : Call F) (errs errs2 : Int) (d : Nat → Int)
  | ambe2450Data (C : Call F) (errs errs2 : Int) (d : Nat → Int)
  | ambe2400Data (C : Call F) (errs errs2 : Int) (d : Nat → Int)
  | initMbe
  | initAmbe
  | seed (n : Nat)

/-- Effect on the decoder state. -/
def Api.run (E : Env F) : Api F → St F → Exec (St F)
  | .imbe7200Frame C fr d, s => do .ok (← processImbe7200Framef E C fr d s).out.st
  | .imbe7100Frame C fr d, s => do .ok (← processImbe7100Framef E C fr d s).out.st
  | .ambe2450Frame C fr d, s => do .ok (← processAmbe2450Framef E C fr d s).out.st
  | .ambe2400Frame C fr d, s => do .ok (← processAmbe2400Framef E C fr d s).out.st
  | .imbeData C errs errs2 d, s => do .ok (← processImbe4400Dataf E C errs errs2 d s).st
  | .ambe2450Data C errs errs2 d, s => do .ok (← processAmbe2450Dataf E C errs errs2 d s).st
  | .ambe2400Data C errs errs2 d, s => do .ok (← processAmbe2400 E C errs errs2 d s).st
  | .initMbe, s => initMbeState s
  | .initAmbe, s => initAmbeState s
  | .seed n, s => .ok { s with tls := setThreadRngSeed n s.tls }

/-- Run a list of calls. -/
def runApi (E : Env F) : List (Api F) → St F → Exec (St F)
  | [], s => .ok s
  | a :: as, s => do runApi E as (← a.run E s)

/-- Arguments as documented: frames and payloads hold 0 and 1, error counts of the data entry points are not negative
(and at most seven million), and the status buffer has room for the `=` characters and three more bytes. -/
def Api.Valid : Api F → Prop
  | .imbe7200Frame C fr _ => BitFrame 8 23 fr ∧ 18 ≤ C.cap
  | .imbe7100Frame C fr _ => BitFrame 7 24 fr ∧ 17 ≤ C.cap
  | .ambe2450Frame C fr _ => BitFrame 4 24 fr ∧ 9 ≤ C.cap
  | .ambe2400Frame C fr _ => BitFrame 4 24 fr ∧ 9 ≤ C.cap
  | .imbeData C _ errs2 d => Bits 88 d ∧ 0 ≤ errs2 ∧ errs2 ≤ 7000000 ∧ errs2.toNat + 3 ≤ C.cap
  | .ambe2450Data C _ errs2 d => Bits 49 d ∧ 0 ≤ errs2 ∧ errs2 ≤ 7000000 ∧ errs2.toNat + 3 ≤ C.cap
  | .ambe2400Data C _ errs2 d => Bits 49 d ∧ 0 ≤ errs2 ∧ errs2 ≤ 7000000 ∧ errs2.toNat + 3 ≤ C.cap
  | _ => True

end Verif.Spec
