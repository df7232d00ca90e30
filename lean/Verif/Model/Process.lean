import Verif.Model.Synth
import Verif.Model.Ambe

/-!
# Model of the process functions

Parameter bits or frames in, 160 samples, a status string and the updated decoder state out. The three parameter sets
are different objects. `pc` is the address of `*cur_mp` (not `NULL`), `ps` the address of the local `synth_mp`.
-/

namespace Verif.Model
open Verif Verif.Gen Arith

variable {F : Type} [Arith F]

/-- `mbe_synthesizeTonef`, src/core/mbelib.c:753-807, without `DISABLE_AMBE_TONES`. -/
def synthesizeTonef (out : Arr 160 F) (d : Nat → Int) (cur : Parms F) : Exec (Arr 160 F × Parms F) := do
  let u0 ← orField d (List.range' 0 12)
  let u1 ← orField d (List.range' 12 12)
  let _u2 ← orField d (List.range' 24 11)
  let u3 ← orField d (List.range' 35 14)
  let AD := ((u0 &&& 0x3f) <<< 1) + ((u3 >>> 4) &&& 1)
  let ID1 := (u1 &&& 0xfff) >>> 4
  let f : F × F × Bool := lookupToneFreqs ID1
  if f.2.2 then renderTonef out cur f.1 f.2.1 (AD : Int) else .ok (silencef, cur)

/-- The frequency chosen by `mbe_synthesizeTonefdstar`, src/core/mbelib.c:830-846. -/
def dstarFreq (id : Int) : F :=
  if id = 5 then toF (dlit 15625 100)
  else if id = 6 then toF (dlit 1875 10)
  else if id ≥ 7 ∧ id ≤ 122 then lit 3125 100 *ᶠ ofInt id
  else ofInt 0

/-- `mbe_synthesizeTonefdstar`, src/core/mbelib.c:816-854, without `DISABLE_AMBE_TONES`. -/
def synthesizeTonefdstar (out : Arr 160 F) (_d : Nat → Int) (cur : Parms F) (id : Int) :
    Exec (Arr 160 F × Parms F) :=
  let f : F := dstarFreq id
  if le f (lit 0 1) then .ok (silencef, cur) else renderTonef out cur f f 103

/-! ## Status string -/

/-- The characters written to `err_str` so far; the cursor is at the end. The caller's buffer has `cap` bytes.
E.g. src/imbe/imbe7200x4400.c:603-604, 648-648. -/
def putc (cap : Nat) (s : List Char) (c : Char) : Exec (List Char) :=
  if s.length < cap then .ok (s ++ [c]) else .error .oobWrite

/-- `for (i = 0; i < *errs2; i++) { *err_str = '='; err_str++; }`, src/imbe/imbe7200x4400.c:602-605;
src/ambe/ambe3600x2450.c:644-647; src/ambe/ambe3600x2400.c:622-625. -/
def putEq (cap : Nat) (errs2 : Int) : Exec (List Char) :=
  loop errs2.toNat (fun _ s => putc cap s '=') []

/-! ## State and results -/

/-- The decoder state that persists between frames: the three parameter sets and the thread-local variables.
The last arguments at src/imbe/imbe7200x4400.c:582-584. -/
@[ext] structure St (F : Type) where
  cur : Parms F
  prev : Parms F
  enh : Parms F
  tls : Tls F

/-- Output of a process call. `str` includes the terminating NUL. The out parameters at src/imbe/imbe7200x4400.c:582-584. -/
structure Out (F : Type) where
  pcm : Arr 160 F
  str : List Char
  st : St F

/-- Arguments that a process call takes besides bits and state: capacity of `err_str`, the addresses, the old contents
of the sample buffer and `uvquality`. The arguments at src/imbe/imbe7200x4400.c:582-584. -/
structure Call (F : Type) where
  cap : Nat
  pc : Nat
  ps : Nat
  buf : Arr 160 F
  uvquality : Int

/-- `mbe_initMbeParms` on the three parameter sets, src/core/mbelib.c:223-264. -/
def initMbeState (s : St F) : Exec (St F) := do
  let p ← initMbeParms s.prev
  .ok { s with cur := p, prev := p, enh := p }

/-- `mbe_initAmbeParms_common` on the three parameter sets, src/ambe/ambe_common.c:106-146. -/
def initAmbeState (s : St F) : Exec (St F) := do
  let p ← initAmbeParms s.prev
  .ok { s with cur := p, prev := p, enh := p }

/-- `mbe_ensureAmbeDefaults_common`, src/ambe/ambe_common.c:179-188. -/
def ensureAmbeDefaults (s : St F) : Exec (St F) :=
  if lt (lit 1 1000000) (abs (s.prev.mutingThreshold -ᶠ mutingAmbe)) then initAmbeState s else .ok s

/-- Comfort noise and a complete re-initialisation, src/ambe/ambe3600x2450.c:697-698, 713-714, 723-724;
src/ambe/ambe3600x2400.c:667-668, 675-676. -/
def noiseAndReset (C : Call F) (s : St F) : Exec (Arr 160 F × St F) := do
  let r ← comfortNoisef C.buf s.tls
  .ok (r.1, ← initAmbeState { s with tls := r.2 })

/-- Copy `cur` to `prev`, enhance, synthesise against `enh` and copy the result to `enh`:
src/imbe/imbe7200x4400.c:638-640, 647-647; src/ambe/ambe3600x2450.c:690-693; src/ambe/ambe3600x2400.c:660-663. -/
def speak (E : Env F) (C : Call F) (s : St F) : Exec (Arr 160 F × St F) := do
  let prev := s.cur
  let (cur, t) ← spectralAmpEnhance C.pc s.cur s.tls
  let r ← synthesizeSpeechf E C.pc C.buf cur s.enh t C.uvquality
  .ok (r.out, ⟨r.cur, prev, r.cur, r.tls⟩)

/-! ## IMBE 4400 -/

/-- `errorRate`, src/imbe/imbe7200x4400.c:596-596. -/
def imbeErrorRate (prevRate : F) (errs2 : Int) : F := (lit 95 100 *ᶠ prevRate) +ᶠ (lit 365 1000000 *ᶠ ofInt errs2)

/-- `repeat_required`, src/imbe/imbe7200x4400.c:608-618; `c0 = none` when `c0_errors_valid` is zero. -/
def imbeRepeatRequired (bad : Int) (c0 : Option Int) (errs2 : Int) (errorRate : F) : Bool :=
  let thr := lit 10 1 +ᶠ (lit 40 1 *ᶠ errorRate)
  if bad = 1 then true
  else match c0 with
    | some c => decide (c ≥ 2) && le thr (ofInt errs2)
    | none => decide (errs2 > 5)

/-- Assignments at the start, src/imbe/imbe7200x4400.c:589-600. -/
def imbePrepare (c0 : Option Int) (errs2 : Int) (s : St F) : St F :=
  let cur := { s.cur with mutingThreshold := mutingImbe, errorCountTotal := errs2,
                          errorRate := imbeErrorRate s.prev.errorRate errs2 }
  { s with cur := if c0.isNone then { cur with errorCount4 := 0 } else cur }

/-- Replacement of the parameters by the last ones, src/imbe/imbe7200x4400.c:625-627; src/ambe/ambe3600x2450.c:677-679;
src/ambe/ambe3600x2400.c:648-650. -/
def repeatLast (prev : Parms F) : Exec (Parms F) := do
  .ok { prev with repeat_ := ← i32 (prev.repeat_ + 1), repeatCount := ← i32 (prev.repeatCount + 1) }

/-- The repeat handling, src/imbe/imbe7200x4400.c:620-634: the new `*cur_mp`. -/
def imbeRepeat (rep : Bool) (cur prev : Parms F) : Exec (Parms F) :=
  if rep then
    if prev.repeatCount > 3 then imbeResetHeadroomDefaults cur else repeatLast prev
  else .ok { cur with repeat_ := 0, repeatCount := 0 }

/-- `mbe_processImbe4400Dataf_withC0`, src/imbe/imbe7200x4400.c:581-649. -/
def processImbe4400 (E : Env F) (C : Call F) (c0 : Option Int) (errs2 : Int) (d : Nat → Int) (s : St F) :
    Exec (Out F) := do
  let s := imbePrepare c0 errs2 s
  let str ← putEq C.cap errs2
  let r ← decodeImbe4400 E.lax d s.cur s.prev s.tls
  let rep := imbeRepeatRequired r.bad c0 errs2 r.cur.errorRate
  let cur ← imbeRepeat rep r.cur r.prev
  let str ← (if rep then putc C.cap str 'R' else .ok str)
  let muted := isMaxFrameRepeat cur || requiresMuting cur
  let o ← speak E C ⟨cur, r.prev, s.enh, r.tls⟩
  let str ← (if muted then putc C.cap str 'M' else .ok str)
  let str ← putc C.cap str '\x00'
  .ok ⟨o.1, str, o.2⟩

/-- `mbe_processImbe4400Dataf`, src/imbe/imbe7200x4400.c:663-669. -/
def processImbe4400Dataf (E : Env F) (C : Call F) (_errs errs2 : Int) (d : Nat → Int) (s : St F) : Exec (Out F) :=
  processImbe4400 E C none errs2 d s

/-- Result of a frame entry point: the ECC results and the output. The out parameters at src/imbe/imbe7200x4400.c:696-698. -/
structure FrameOut (F : Type) where
  ecc : FrameEcc
  out : Out F

/-- `mbe_processImbe7200x4400Framef`, src/imbe/imbe7200x4400.c:695-714. -/
def processImbe7200Framef (E : Env F) (C : Call F) (fr : Frame) (d : Nat → Int) (s : St F) : Exec (FrameOut F) := do
  let e ← frameEcc7200 fr d
  let o ← processImbe4400 E C (some (e.errs : Int)) (e.errs2 : Int) e.d
    { s with cur := { s.cur with errorCount4 := (e.c4 : Int) } }
  .ok ⟨e, o⟩

/-- `mbe_processImbe7100x4400Framef`, src/imbe/imbe7100x4400.c:330-350. -/
def processImbe7100Framef (E : Env F) (C : Call F) (fr : Frame) (d : Nat → Int) (s : St F) : Exec (FrameOut F) := do
  let e ← frameEcc7100 fr d
  let d7200 ← convert7100to7200 F e.d
  let o ← processImbe4400 E C (some (e.errs : Int)) (e.errs2 : Int) d7200
    { s with cur := { s.cur with errorCount4 := (e.c4 : Int) } }
  .ok ⟨{ e with d := d7200 }, o⟩

/-! ## AMBE 2450 -/

/-- `errorRate`, src/ambe/ambe3600x2450.c:642-642; src/ambe/ambe3600x2400.c:620-620. -/
def ambeErrorRate (prevRate : F) (errs2 : Int) : F := (lit 95 100 *ᶠ prevRate) +ᶠ (lit 1064 1000000 *ᶠ ofInt errs2)

/-- Assignments at the start, src/ambe/ambe3600x2450.c:633-642; src/ambe/ambe3600x2400.c:607-620. -/
def ambePrepare (errs2 : Int) (s : St F) : Exec (St F) := do
  let s ← ensureAmbeDefaults s
  .ok { s with cur := { s.cur with mutingThreshold := mutingAmbe, errorCountTotal := errs2, errorCount4 := 0,
                                   errorRate := ambeErrorRate s.prev.errorRate errs2 } }

/-- `repeat_required`, src/ambe/ambe3600x2450.c:667-674. -/
def ambe2450RepeatRequired (c0 : Option Int) (errs2 : Int) : Bool :=
  match c0 with
  | some c => decide (c ≥ 4 ∨ (c ≥ 2 ∧ errs2 ≥ 6))
  | none => decide (errs2 > 3)

/-- The handling of the decoder's verdict, src/ambe/ambe3600x2450.c:652-686: the new `*cur_mp` and the letter
appended to the status string. -/
def ambe2450Verdict (bad : Int) (c0 : Option Int) (errs2 : Int) (cur prev : Parms F) :
    Exec (Parms F × Option Char) :=
  if bad = 2 then do
    let cur ← setAmbeErasureParms { cur with repeat_ := 0, repeatCount := 0 } prev
    .ok (cur, some 'E')
  else if bad = 3 ∨ bad = 7 then .ok ({ cur with repeat_ := 0, repeatCount := 0 }, some 'T')
  else if ambe2450RepeatRequired c0 errs2 then do
    .ok (← repeatLast prev, some 'R')
  else .ok ({ cur with repeat_ := 0, repeatCount := 0 }, none)

/-- Append an optional letter. E.g. src/ambe/ambe3600x2450.c:680-681, 695-696. -/
def putOpt (cap : Nat) (s : List Char) : Option Char → Exec (List Char)
  | some c => putc cap s c
  | none => .ok s

/-- The invalid-tone path, src/ambe/ambe3600x2450.c:707-711: a local copy of `enh` is synthesised and stored back. -/
def replayEnhanced (E : Env F) (C : Call F) (s : St F) : Exec (Arr 160 F × St F) := do
  let r ← synthesizeSpeechf E C.ps C.buf s.enh s.enh s.tls C.uvquality
  .ok (r.out, { s with enh := r.cur, tls := r.tls })

/-- The synthesis part, src/ambe/ambe3600x2450.c:688-725: samples, letter and state. -/
def ambe2450Render (E : Env F) (C : Call F) (bad : Int) (d : Nat → Int) (s : St F) :
    Exec (Arr 160 F × Option Char × St F) :=
  if bad = 0 then
    if s.cur.repeat_ ≤ 3 then do
      let o ← speak E C s
      .ok (o.1, none, o.2)
    else do
      let o ← noiseAndReset C s
      .ok (o.1, some 'M', o.2)
  else if bad = 7 then do
    if ← validToneId d then do
      let r ← synthesizeTonef C.buf d s.cur
      .ok (r.1, none, { s with cur := r.2 })
    else if isMaxFrameRepeat s.prev then do
      let o ← noiseAndReset C s
      .ok (o.1, none, o.2)
    else do
      let o ← replayEnhanced E C s
      .ok (o.1, none, o.2)
  else if bad = 2 then do
    let r ← comfortNoisef C.buf s.tls
    .ok (r.1, none, ⟨s.cur, s.cur, s.cur, r.2⟩)
  else do
    let o ← noiseAndReset C s
    .ok (o.1, none, o.2)

/-- `mbe_processAmbe2450Dataf_internal`, src/ambe/ambe3600x2450.c:626-727. -/
def processAmbe2450 (E : Env F) (C : Call F) (c0 : Option Int) (errs2 : Int) (d : Nat → Int) (s : St F) :
    Exec (Out F) := do
  let s ← ambePrepare errs2 s
  let str ← putEq C.cap errs2
  let r ← decodeAmbe2450 E.lax d errs2 s.cur s.prev s.tls
  let v ← ambe2450Verdict r.bad c0 errs2 r.cur r.prev
  let str ← putOpt C.cap str v.2
  let o ← ambe2450Render E C r.bad d ⟨v.1, r.prev, s.enh, r.tls⟩
  let str ← putOpt C.cap str o.2.1
  let str ← putc C.cap str '\x00'
  .ok ⟨o.1, str, o.2.2⟩

/-- `mbe_processAmbe2450Dataf`, src/ambe/ambe3600x2450.c:741-747. -/
def processAmbe2450Dataf (E : Env F) (C : Call F) (_errs errs2 : Int) (d : Nat → Int) (s : St F) : Exec (Out F) :=
  processAmbe2450 E C none errs2 d s

/-- `mbe_processAmbe3600x2450Framef`, src/ambe/ambe3600x2450.c:773-787. -/
def processAmbe2450Framef (E : Env F) (C : Call F) (fr : Frame) (d : Nat → Int) (s : St F) : Exec (FrameOut F) := do
  let e ← frameEccAmbe fr d
  let o ← processAmbe2450 E C (some (e.errs : Int)) (e.errs2 : Int) e.d s
  .ok ⟨e, o⟩

/-! ## AMBE 2400 -/

/-- Result of the first part of the 2400 path: letter, sample buffer and state. src/ambe/ambe3600x2400.c:627-656. -/
structure Verdict2400 (F : Type) where
  letter : Option Char
  buf : Arr 160 F
  cur : Parms F
  prev : Parms F

/-- The handling of the decoder's verdict, src/ambe/ambe3600x2400.c:628-656. -/
def ambe2400Verdict (C : Call F) (bad errs errs2 : Int) (d : Nat → Int) (cur prev : Parms F) :
    Exec (Verdict2400 F) :=
  if bad = 2 then do
    let cur ← setAmbeErasureParms { cur with repeat_ := 0, repeatCount := 0 } prev
    .ok ⟨some 'E', C.buf, cur, prev⟩
  else if bad = 3 then .ok ⟨some 'T', C.buf, { cur with repeat_ := 0, repeatCount := 0 }, prev⟩
  else if bad ≥ 7 ∧ bad ≤ 122 ∧ errs < 2 ∧ errs2 < 3 then do
    let r ← synthesizeTonefdstar C.buf d cur bad
    .ok ⟨none, r.1, r.2, r.2⟩
  else if errs2 > 3 then do
    .ok ⟨some 'R', C.buf, ← repeatLast prev, prev⟩
  else .ok ⟨none, C.buf, { cur with repeat_ := 0, repeatCount := 0 }, prev⟩

/-- The synthesis part, src/ambe/ambe3600x2400.c:658-677. -/
def ambe2400Render (E : Env F) (C : Call F) (bad : Int) (s : St F) : Exec (Arr 160 F × Option Char × St F) :=
  if bad = 0 then
    if s.cur.repeat_ ≤ 3 then do
      let o ← speak E C s
      .ok (o.1, none, o.2)
    else do
      let o ← noiseAndReset C s
      .ok (o.1, some 'M', o.2)
  else if bad = 2 then do
    let r ← comfortNoisef C.buf s.tls
    .ok (r.1, none, ⟨s.cur, s.cur, s.cur, r.2⟩)
  else do
    let o ← noiseAndReset C s
    .ok (o.1, none, o.2)

/-- `mbe_processAmbe2400Dataf`, src/ambe/ambe3600x2400.c:601-679. -/
def processAmbe2400 (E : Env F) (C : Call F) (errs errs2 : Int) (d : Nat → Int) (s : St F) : Exec (Out F) := do
  let s ← ambePrepare errs2 s
  let str ← putEq C.cap errs2
  let r ← decodeAmbe2400 E.lax d s.cur s.prev s.tls
  let v ← ambe2400Verdict C r.bad errs errs2 d r.cur r.prev
  let str ← putOpt C.cap str v.letter
  let o ← ambe2400Render E { C with buf := v.buf } r.bad ⟨v.cur, v.prev, s.enh, r.tls⟩
  let str ← putOpt C.cap str o.2.1
  let str ← putc C.cap str '\x00'
  .ok ⟨o.1, str, o.2.2⟩

/-- `mbe_processAmbe3600x2400Framef`, src/ambe/ambe3600x2400.c:705-718. -/
def processAmbe2400Framef (E : Env F) (C : Call F) (fr : Frame) (d : Nat → Int) (s : St F) : Exec (FrameOut F) := do
  let e ← frameEccAmbe fr d
  let o ← processAmbe2400 E C (e.errs : Int) (e.errs2 : Int) e.d s
  .ok ⟨e, o⟩

/-! ## 16-bit entry points

Each of them calls the float entry point with a local sample buffer (uninitialised; its old contents are an argument
here) and converts the result. -/

/-- The common shape of `mbe_processImbe4400Data` (src/imbe/imbe7200x4400.c:675-682), `mbe_processAmbe2450Data`
(src/ambe/ambe3600x2450.c:753-760) and `mbe_processAmbe2400Data` (src/ambe/ambe3600x2400.c:685-692). -/
def shortData (f : Call F → Exec (Out F)) (C : Call F) (sbuf : Arr 160 Int) : Exec (Arr 160 Int × Out F) := do
  let o ← f C
  .ok (← floatToShort o.pcm sbuf, o)

/-- The common shape of `mbe_processImbe7200x4400Frame` (src/imbe/imbe7200x4400.c:720-729),
`mbe_processImbe7100x4400Frame` (src/imbe/imbe7100x4400.c:356-365), `mbe_processAmbe3600x2450Frame`
(src/ambe/ambe3600x2450.c:793-802) and `mbe_processAmbe3600x2400Frame` (src/ambe/ambe3600x2400.c:724-733). -/
def shortFrame (f : Call F → Exec (FrameOut F)) (C : Call F) (sbuf : Arr 160 Int) :
    Exec (Arr 160 Int × FrameOut F) := do
  let o ← f C
  .ok (← floatToShort o.out.pcm sbuf, o)

end Verif.Model
