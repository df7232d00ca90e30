import Verif.Spec.History
import Verif.Model.Simd

/-!
# Programs on a build with vector code
-/

namespace Verif.Spec
open Verif Verif.Model Arith

variable {F : Type} [Arith F]

/-- Effect on the decoder state, on a build with vector code. -/
def Op.runSimd (isa : Isa) (E : Env F) : Op F → St F → Exec (St F)
  | .imbe ⟨C, none, e, d⟩, s => do .ok (← processImbe4400Simd isa E C none e d s).st
  | .imbe ⟨C, some c, e, d⟩, s => do
    .ok (← processImbe4400Simd isa E C (some c.1) e d { s with cur := { s.cur with errorCount4 := c.2 } }).st
  | .ambe (.v2450 C c0 e d), s => do .ok (← processAmbe2450Simd isa E C c0 e d s).st
  | .ambe (.v2400 C c0 e d), s => do .ok (← processAmbe2400Simd isa E C c0 e d s).st
  | .initMbe, s => initMbeState s
  | .initAmbe, s => initAmbeState s
  | .seed n, s => .ok { s with tls := setThreadRngSeed n s.tls }

/-- Run a list of actions on such a build. -/
def runHistSimd (isa : Isa) (E : Env F) : List (Op F) → St F → Exec (St F)
  | [], s => .ok s
  | op :: ops, s => do runHistSimd isa E ops (← op.runSimd isa E s)

/-- The samples that a call delivers, if it delivers any, and the new decoder state, on a build without vector code. -/
def Api.call (E : Env F) : Api F → St F → Exec (Option (Arr 160 F × List Char) × St F)
  | .imbe7200Frame C fr d, s => do let o ← processImbe7200Framef E C fr d s; .ok (some (o.out.pcm, o.out.str), o.out.st)
  | .imbe7100Frame C fr d, s => do let o ← processImbe7100Framef E C fr d s; .ok (some (o.out.pcm, o.out.str), o.out.st)
  | .ambe2450Frame C fr d, s => do let o ← processAmbe2450Framef E C fr d s; .ok (some (o.out.pcm, o.out.str), o.out.st)
  | .ambe2400Frame C fr d, s => do let o ← processAmbe2400Framef E C fr d s; .ok (some (o.out.pcm, o.out.str), o.out.st)
  | .imbeData C errs errs2 d, s => do let o ← processImbe4400Dataf E C errs errs2 d s; .ok (some (o.pcm, o.str), o.st)
  | .ambe2450Data C errs errs2 d, s => do let o ← processAmbe2450Dataf E C errs errs2 d s; .ok (some (o.pcm, o.str), o.st)
  | .ambe2400Data C errs errs2 d, s => do let o ← processAmbe2400 E C errs errs2 d s; .ok (some (o.pcm, o.str), o.st)
  | .initMbe, s => do .ok (none, ← initMbeState s)
  | .initAmbe, s => do .ok (none, ← initAmbeState s)
  | .seed n, s => .ok (none, { s with tls := setThreadRngSeed n s.tls })

/-- The same on a build with vector code. -/
def Api.callSimd (isa : Isa) (E : Env F) : Api F → St F → Exec (Option (Arr 160 F × List Char) × St F)
  | .imbe7200Frame C fr d, s => do let o ← processImbe7200FramefSimd isa E C fr d s; .ok (some (o.out.pcm, o.out.str), o.out.st)
  | .imbe7100Frame C fr d, s => do let o ← processImbe7100FramefSimd isa E C fr d s; .ok (some (o.out.pcm, o.out.str), o.out.st)
  | .ambe2450Frame C fr d, s => do let o ← processAmbe2450FramefSimd isa E C fr d s; .ok (some (o.out.pcm, o.out.str), o.out.st)
  | .ambe2400Frame C fr d, s => do let o ← processAmbe2400FramefSimd isa E C fr d s; .ok (some (o.out.pcm, o.out.str), o.out.st)
  | .imbeData C _ errs2 d, s => do let o ← processImbe4400Simd isa E C none errs2 d s; .ok (some (o.pcm, o.str), o.st)
  | .ambe2450Data C _ errs2 d, s => do let o ← processAmbe2450Simd isa E C none errs2 d s; .ok (some (o.pcm, o.str), o.st)
  | .ambe2400Data C errs errs2 d, s => do let o ← processAmbe2400Simd isa E C errs errs2 d s; .ok (some (o.pcm, o.str), o.st)
  | .initMbe, s => do .ok (none, ← initMbeState s)
  | .initAmbe, s => do .ok (none, ← initAmbeState s)
  | .seed n, s => .ok (none, { s with tls := setThreadRngSeed n s.tls })

/-- The deliveries of a list of calls and the final state; `step` is one of the two functions above. -/
def deliveries (step : Api F → St F → Exec (Option (Arr 160 F × List Char) × St F)) :
    List (Api F) → St F → Exec (List (Option (Arr 160 F × List Char)) × St F)
  | [], s => .ok ([], s)
  | a :: as, s => do
    let r ← step a s
    let rest ← deliveries step as r.2
    .ok (r.1 :: rest.1, rest.2)

end Verif.Spec
