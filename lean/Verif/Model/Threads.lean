import Verif.Model.Process

/-!
# Several threads in one process

The parameter sets live in memory that every thread can reach; the library's own mutable variables are all declared
`MBE_THREAD_LOCAL` (src/internal/mbe_compiler.h:33-42; the variables are listed at `Tls`), so each thread has its own
copy. A schedule is a sequence of calls of the public functions, each made by some thread. Calls are atomic here: a data
race inside a call would need two threads to access the same parameter set (excluded by the hypothesis of the theorems)
or the same library variable (impossible, they are thread-local; the remaining static objects of the library are
`const`). Sample buffers, frames, status strings and payload arrays are arguments and results of a call, that is, they
are private to the calling thread. Pointers passed to one call are different from each other and not `NULL`.
-/

namespace Verif.Model
open Verif Verif.Gen Arith

variable {F : Type} [Arith F]

/-- The state of the process: parameter sets by address, thread-local variables by thread.
include/mbelib-neo/mbelib.h:84-137 and the variables listed at `Tls`. -/
@[ext] structure World (F : Type) where
  heap : Nat → Parms F
  tls : Nat → Tls F

/-- Store a parameter set. Stores through `mbe_parms*`, e.g. src/core/mbelib.c:200-203. -/
def World.put (w : World F) (a : Nat) (p : Parms F) : World F := { w with heap := fun b => if b = a then p else w.heap b }

/-- Store the thread-local variables of thread `t`. Stores to the variables of src/core/mbelib.c:58-61 and the like. -/
def World.putTls (w : World F) (t : Nat) (x : Tls F) : World F := { w with tls := fun u => if u = t then x else w.tls u }

/-- What a call hands back to its caller besides the parameter sets. The out parameters of include/mbelib-neo/mbelib.h:187-516. -/
structure Res (F : Type) where
  pcm : Option (Arr 160 F) := none
  short : Option (Arr 160 Int) := none
  str : List Char := []
  ecc : Option FrameEcc := none
  ret : Int := 0

/-- The three parameter sets that a process call is given. `cur_mp`, `prev_mp`, `prev_mp_enhanced` at include/mbelib-neo/mbelib.h:314-316. -/
structure Ptrs where
  cur : Nat
  prev : Nat
  enh : Nat

/-- Run a computation on three parameter sets and the thread-local variables of thread `t`. For the calls at include/mbelib-neo/mbelib.h:206-370. -/
def onThree (t : Nat) (p : Ptrs) (f : St F → Exec (Res F × St F)) (w : World F) : Exec (Res F × World F) := do
  let (r, s) ← f ⟨w.heap p.cur, w.heap p.prev, w.heap p.enh, w.tls t⟩
  .ok (r, (((w.put p.cur s.cur).put p.prev s.prev).put p.enh s.enh).putTls t s.tls)

/-- Run a computation on two parameter sets and the thread-local variables of thread `t`.
For the calls at include/mbelib-neo/mbelib.h:187-516 with `cur_mp` and `prev_mp`. -/
def onTwo (t a b : Nat) (f : Parms F → Parms F → Tls F → Exec (Res F × Parms F × Parms F × Tls F)) (w : World F) :
    Exec (Res F × World F) := do
  let (r, x, y, z) ← f (w.heap a) (w.heap b) (w.tls t)
  .ok (r, ((w.put a x).put b y).putTls t z)

/-- Run a computation on one parameter set and the thread-local variables of thread `t`.
For the calls at include/mbelib-neo/mbelib.h:187-516 with one `mbe_parms*`. -/
def onOne (t a : Nat) (f : Parms F → Tls F → Exec (Res F × Parms F × Tls F)) (w : World F) : Exec (Res F × World F) := do
  let (r, x, z) ← f (w.heap a) (w.tls t)
  .ok (r, (w.put a x).putTls t z)

/-- Run a computation on the thread-local variables of thread `t`. For the calls at include/mbelib-neo/mbelib.h:187-516 without `mbe_parms*`. -/
def onTls (t : Nat) (f : Tls F → Exec (Res F × Tls F)) (w : World F) : Exec (Res F × World F) := do
  let (r, z) ← f (w.tls t)
  .ok (r, w.putTls t z)

/-- A call of a public function (include/mbelib-neo/mbelib.h:143-516) that reads or writes a parameter set or a
thread-local variable. -/
inductive Act (F : Type)
  | imbe7200Framef (p : Ptrs) (C : Call F) (fr : Frame) (d : Nat → Int)
  | imbe7100Framef (p : Ptrs) (C : Call F) (fr : Frame) (d : Nat → Int)
  | ambe2450Framef (p : Ptrs) (C : Call F) (fr : Frame) (d : Nat → Int)
  | ambe2400Framef (p : Ptrs) (C : Call F) (fr : Frame) (d : Nat → Int)
  | imbe7200Frame (p : Ptrs) (C : Call F) (sbuf : Arr 160 Int) (fr : Frame) (d : Nat → Int)
  | imbe7100Frame (p : Ptrs) (C : Call F) (sbuf : Arr 160 Int) (fr : Frame) (d : Nat → Int)
  | ambe2450Frame (p : Ptrs) (C : Call F) (sbuf : Arr 160 Int) (fr : Frame) (d : Nat → Int)
  | ambe2400Frame (p : Ptrs) (C : Call F) (sbuf : Arr 160 Int) (fr : Frame) (d : Nat → Int)
  | imbe4400Dataf (p : Ptrs) (C : Call F) (errs errs2 : Int) (d : Nat → Int)
  | ambe2450Dataf (p : Ptrs) (C : Call F) (errs errs2 : Int) (d : Nat → Int)
  | ambe2400Dataf (p : Ptrs) (C : Call F) (errs errs2 : Int) (d : Nat → Int)
  | imbe4400Data (p : Ptrs) (C : Call F) (sbuf : Arr 160 Int) (errs errs2 : Int) (d : Nat → Int)
  | ambe2450Data (p : Ptrs) (C : Call F) (sbuf : Arr 160 Int) (errs errs2 : Int) (d : Nat → Int)
  | ambe2400Data (p : Ptrs) (C : Call F) (sbuf : Arr 160 Int) (errs errs2 : Int) (d : Nat → Int)
  | initMbe (p : Ptrs)
  | decodeImbe4400 (cur prev : Nat) (d : Nat → Int)
  | decodeAmbe2450 (cur prev : Nat) (d : Nat → Int)
  | decodeAmbe2400 (cur prev : Nat) (d : Nat → Int)
  | move (src dst : Nat)
  | useLast (dst src : Nat)
  | enhance (cur : Nat)
  | smooth (cur prev : Nat)
  | speechf (cur prev : Nat) (out : Arr 160 F) (uvq : Int)
  | speech (cur prev : Nat) (out : Arr 160 Int) (uvq : Int)
  | tonef (cur : Nat) (out : Arr 160 F) (d : Nat → Int)
  | tonefdstar (cur : Nat) (out : Arr 160 F) (d : Nat → Int) (id : Int)
  | requiresMuting (mp : Nat)
  | isMaxFrameRepeat (mp : Nat)
  | requiresSmoothing (mp : Nat)
  | comfortNoisef (out : Arr 160 F)
  | comfortNoise (out : Arr 160 Int)
  | seed (n : Nat)

/-- A data entry point (see `processImbe4400Dataf` and the like) as a computation on the state. include/mbelib-neo/mbelib.h:260-262, 314-316. -/
def dataCall (f : St F → Exec (Out F)) (s : St F) : Exec (Res F × St F) := do
  let o ← f s
  .ok ({ pcm := some o.pcm, str := o.str }, o.st)

/-- A frame entry point (see `processImbe7200Framef` and the like) as a computation on the state. include/mbelib-neo/mbelib.h:332-334. -/
def frameCall (f : St F → Exec (FrameOut F)) (s : St F) : Exec (Res F × St F) := do
  let o ← f s
  .ok ({ pcm := some o.out.pcm, str := o.out.str, ecc := some o.ecc }, o.out.st)

/-- A 16-bit data entry point (see `shortData`) as a computation on the state. E.g. src/imbe/imbe7200x4400.c:676-682. -/
def dataCallS (f : St F → Exec (Arr 160 Int × Out F)) (s : St F) : Exec (Res F × St F) := do
  let o ← f s
  .ok ({ short := some o.1, str := o.2.str }, o.2.st)

/-- A 16-bit frame entry point (see `shortFrame`) as a computation on the state. E.g. src/imbe/imbe7200x4400.c:721-729. -/
def frameCallS (f : St F → Exec (Arr 160 Int × FrameOut F)) (s : St F) : Exec (Res F × St F) := do
  let o ← f s
  .ok ({ short := some o.1, str := o.2.out.str, ecc := some o.2.ecc }, o.2.out.st)

/-- A decoder of parameters (see `decodeImbe4400` and the like) as a computation on two parameter sets. E.g. src/imbe/imbe7200x4400.c:276-276. -/
def decodeCall (f : Parms F → Parms F → Tls F → Exec (DecodeRes F)) (x y : Parms F) (z : Tls F) :
    Exec (Res F × Parms F × Parms F × Tls F) := do
  let r ← f x y z
  .ok ({ ret := r.bad }, r.cur, r.prev, r.tls)

/-- Call by thread `t`. Each case names the model of the C function; lines in /repo are cited there. `mbe_moveMbeParms`
is src/core/mbelib.c:200-203, `mbe_useLastMbeParms` src/core/mbelib.c:212-215. The address that identifies the parameter
set in the hand-off of the energy before enhancement (src/core/mbe_adaptive.c:40-51) is that of `*cur_mp`. -/
def Act.exec (E : Env F) (t : Nat) : Act F → World F → Exec (Res F × World F)
  | .imbe7200Framef p C fr d => onThree t p (frameCall (processImbe7200Framef E { C with pc := p.cur } fr d))
  | .imbe7100Framef p C fr d => onThree t p (frameCall (processImbe7100Framef E { C with pc := p.cur } fr d))
  | .ambe2450Framef p C fr d => onThree t p (frameCall (processAmbe2450Framef E { C with pc := p.cur } fr d))
  | .ambe2400Framef p C fr d => onThree t p (frameCall (processAmbe2400Framef E { C with pc := p.cur } fr d))
  | .imbe7200Frame p C b fr d => onThree t p (frameCallS fun s =>
      shortFrame (fun C => processImbe7200Framef E C fr d s) { C with pc := p.cur } b)
  | .imbe7100Frame p C b fr d => onThree t p (frameCallS fun s =>
      shortFrame (fun C => processImbe7100Framef E C fr d s) { C with pc := p.cur } b)
  | .ambe2450Frame p C b fr d => onThree t p (frameCallS fun s =>
      shortFrame (fun C => processAmbe2450Framef E C fr d s) { C with pc := p.cur } b)
  | .ambe2400Frame p C b fr d => onThree t p (frameCallS fun s =>
      shortFrame (fun C => processAmbe2400Framef E C fr d s) { C with pc := p.cur } b)
  | .imbe4400Dataf p C e e2 d => onThree t p (dataCall (processImbe4400Dataf E { C with pc := p.cur } e e2 d))
  | .ambe2450Dataf p C e e2 d => onThree t p (dataCall (processAmbe2450Dataf E { C with pc := p.cur } e e2 d))
  | .ambe2400Dataf p C e e2 d => onThree t p (dataCall (processAmbe2400 E { C with pc := p.cur } e e2 d))
  | .imbe4400Data p C b e e2 d => onThree t p (dataCallS fun s =>
      shortData (fun C => processImbe4400Dataf E C e e2 d s) { C with pc := p.cur } b)
  | .ambe2450Data p C b e e2 d => onThree t p (dataCallS fun s =>
      shortData (fun C => processAmbe2450Dataf E C e e2 d s) { C with pc := p.cur } b)
  | .ambe2400Data p C b e e2 d => onThree t p (dataCallS fun s =>
      shortData (fun C => processAmbe2400 E C e e2 d s) { C with pc := p.cur } b)
  | .initMbe p => onThree t p fun s => do .ok ({}, ← initMbeState s)
  | .decodeImbe4400 c p d => onTwo t c p (decodeCall (Model.decodeImbe4400 E.lax d))
  | .decodeAmbe2450 c p d => onTwo t c p (decodeCall (decodeAmbe2450Public E.lax d))
  | .decodeAmbe2400 c p d => onTwo t c p (decodeCall (Model.decodeAmbe2400 E.lax d))
  | .move src dst => onTwo t src dst fun x _ z => .ok ({}, x, x, z)
  | .useLast dst src => onTwo t dst src fun _ y z => .ok ({}, y, y, z)
  | .enhance c => onOne t c fun x z => do
      let r ← spectralAmpEnhance c x z
      .ok ({}, r.1, r.2)
  | .smooth c p => onTwo t c p fun x y z => do
      let r ← applySmoothing c x y z
      .ok ({}, r.1, y, r.2)
  | .speechf c p out uvq => onTwo t c p fun x y z => do
      let r ← synthesizeSpeechf E c out x y z uvq
      .ok ({ pcm := some r.out }, r.cur, r.prev, r.tls)
  | .speech c p out uvq => onTwo t c p fun x y z => do
      let r ← synthesizeSpeech E c out x y z uvq
      .ok ({ short := some r.1 }, r.2.cur, r.2.prev, r.2.tls)
  | .tonef c out d => onOne t c fun x z => do
      let r ← synthesizeTonef out d x
      .ok ({ pcm := some r.1 }, r.2, z)
  | .tonefdstar c out d id => onOne t c fun x z => do
      let r ← synthesizeTonefdstar out d x id
      .ok ({ pcm := some r.1 }, r.2, z)
  | .requiresMuting c => onOne t c fun x z => .ok ({ ret := if Model.requiresMuting x then 1 else 0 }, x, z)
  | .isMaxFrameRepeat c => onOne t c fun x z => .ok ({ ret := if Model.isMaxFrameRepeat x then 1 else 0 }, x, z)
  | .requiresSmoothing c => onOne t c fun x z => .ok ({ ret := if Model.requiresSmoothing x then 1 else 0 }, x, z)
  | .comfortNoisef out => onTls t fun z => do
      let r ← Model.comfortNoisef out z
      .ok ({ pcm := some r.1 }, r.2)
  | .comfortNoise out => onTls t fun z => do
      let r ← Model.comfortNoise out z
      .ok ({ short := some r.1 }, r.2)
  | .seed n => onTls t fun z => .ok ({}, setThreadRngSeed n z)

/-- The parameter sets a call may access. The pointer arguments of include/mbelib-neo/mbelib.h:187-516. -/
def Act.addrs : Act F → List Nat
  | .imbe7200Framef p .. | .imbe7100Framef p .. | .ambe2450Framef p .. | .ambe2400Framef p ..
  | .imbe7200Frame p .. | .imbe7100Frame p .. | .ambe2450Frame p .. | .ambe2400Frame p ..
  | .imbe4400Dataf p .. | .ambe2450Dataf p .. | .ambe2400Dataf p ..
  | .imbe4400Data p .. | .ambe2450Data p .. | .ambe2400Data p .. | .initMbe p => [p.cur, p.prev, p.enh]
  | .decodeImbe4400 c p _ | .decodeAmbe2450 c p _ | .decodeAmbe2400 c p _ => [c, p]
  | .move s d => [s, d]
  | .useLast d s => [d, s]
  | .enhance c | .tonef c .. | .tonefdstar c .. | .requiresMuting c | .isMaxFrameRepeat c | .requiresSmoothing c => [c]
  | .smooth c p | .speechf c p .. | .speech c p .. => [c, p]
  | .comfortNoisef _ | .comfortNoise _ | .seed _ => []

/-- Run a schedule: a list of calls, each with the thread that makes it. The results are listed with their threads.
Calls of include/mbelib-neo/mbelib.h:187-516 from several threads. -/
def runSched (E : Env F) : List (Nat × Act F) → World F → Exec (List (Nat × Res F) × World F)
  | [], w => .ok ([], w)
  | x :: xs, w => do
    let (r, w) ← x.2.exec E x.1 w
    let (rs, w) ← runSched E xs w
    .ok ((x.1, r) :: rs, w)

end Verif.Model
