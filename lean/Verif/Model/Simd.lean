import Verif.Model.Process

/-!
# The vector code paths

`Verif.Model.Synth` and `Verif.Model.Process` model the library built without `MBELIB_ENABLE_SIMD`. Here are the
functions that differ when it is defined, for SSE2 and for NEON on AArch64: vectors of four `float` lanes, loops with
stride four followed by a scalar remainder, and the horizontal sums. `vmlaq_f32` is modelled as a multiplication
followed by an addition; the reciprocal estimate used for division on 32-bit ARM is not modelled.
-/

namespace Verif.Model
open Verif Verif.Gen Arith

variable {F : Type} [Arith F]

/-- The instruction sets with vector code: the conditionals at src/core/mbelib.c:142-142, 150-150. -/
inductive Isa
  | sse2
  | neon
  deriving DecidableEq, Repr

/-- A vector register of four lanes; `a` is lane 0. `__m128`, `float32x4_t`: e.g. src/core/mbelib.c:143-157. -/
structure V4 (α : Type) where
  a : α
  b : α
  c : α
  d : α

namespace V4
variable {α : Type}

/-- `_mm_set1_ps`, `vdupq_n_f32`. E.g. src/core/mbelib.c:145-145, 153-153. -/
def splat (x : α) : V4 α := ⟨x, x, x, x⟩

/-- A lane-wise operation. E.g. src/core/mbelib.c:147-147, 155-155. -/
def map₂ (f : α → α → α) (v w : V4 α) : V4 α := ⟨f v.a w.a, f v.b w.b, f v.c w.c, f v.d w.d⟩

end V4

/-- `_mm_loadu_ps(&a[i])`, `vld1q_f32(&a[i])`. E.g. src/core/mbelib.c:143-144, 307-308. -/
def Arr.rd4 {n : Nat} {α : Type} (x : Arr n α) (i : Int) : Exec (V4 α) := do
  .ok ⟨← x.rd i, ← x.rd (i + 1), ← x.rd (i + 2), ← x.rd (i + 3)⟩

/-- `_mm_storeu_ps(&a[i], v)`, `vst1q_f32(&a[i], v)`. E.g. src/core/mbelib.c:148-148, 156-156. -/
def Arr.wr4 {n : Nat} {α : Type} (x : Arr n α) (i : Int) (v : V4 α) : Exec (Arr n α) := do
  let x ← x.wr i v.a
  let x ← x.wr (i + 1) v.b
  let x ← x.wr (i + 2) v.c
  x.wr (i + 3) v.d

/-- A load from an automatic array. E.g. src/core/mbelib.c:308-308. -/
def Loc.rd4 {n : Nat} {α : Type} (x : Loc n α) (i : Int) : Exec (V4 α) := do
  .ok ⟨← x.rd i, ← x.rd (i + 1), ← x.rd (i + 2), ← x.rd (i + 3)⟩

/-! ## Spectral amplitude enhancement -/

/-- The horizontal sum, src/core/mbelib.c:313-324, 410-415 (shuffle to lanes 1 0 3 2, add, move the high half
down, add lane 0) and 345-349, 435-437 (low half plus high half, pairwise add). -/
def hsum (isa : Isa) (v : V4 F) : F :=
  match isa with
  | .sse2 => (v.a +ᶠ v.b) +ᶠ (v.c +ᶠ v.d)
  | .neon => (v.a +ᶠ v.c) +ᶠ (v.b +ᶠ v.d)

/-- `Rm0` and `Rm1` with vectors, src/core/mbelib.c:302-332 and 334-358; 360-367 for `L < 4`. -/
def rm01Simd (isa : Isa) (L : Int) (Ml : Arr 57 F) (ct : Loc 57 F) : Exec (F × F) :=
  if L ≥ 4 then do
    let q := L.toNat / 4
    let s ← loop q (fun k (s : V4 F × V4 F) => do
      let m ← Arr.rd4 Ml (1 + 4 * (k : Int))
      let c ← Loc.rd4 ct (1 + 4 * (k : Int))
      let m2 := V4.map₂ Arith.mul m m
      .ok (V4.map₂ Arith.add s.1 m2, V4.map₂ Arith.add s.2 (V4.map₂ Arith.mul m2 c)))
      (V4.splat (lit 0 1), V4.splat (lit 0 1))
    loopFT (1 + 4 * q) L.toNat (fun l (s : F × F) => do
      let m ← Ml.rd l
      let m2 := m *ᶠ m
      .ok (s.1 +ᶠ m2, s.2 +ᶠ (m2 *ᶠ (← ct.rd l)))) (hsum isa s.1, hsum isa s.2)
  else rm01 L Ml ct

/-- `sum` with vectors, src/core/mbelib.c:401-425 and 427-448; the mask and `vabsq_f32` clear the sign bit. -/
def enhSumSimd (isa : Isa) (L : Int) (Ml : Arr 57 F) : Exec F :=
  if L ≥ 4 then do
    let q := L.toNat / 4
    let s ← loop q (fun k (s : V4 F) => do
      let m ← Arr.rd4 Ml (1 + 4 * (k : Int))
      let m : V4 F := ⟨abs m.a, abs m.b, abs m.c, abs m.d⟩
      .ok (V4.map₂ Arith.add s (V4.map₂ Arith.mul m m))) (V4.splat (lit 0 1))
    loopFT (1 + 4 * q) L.toNat (fun l s => do
      let m ← Ml.rd l
      let m := if lt m (lit 0 1) then neg m else m
      .ok (s +ᶠ (m *ᶠ m))) (hsum isa s)
  else enhSum L Ml

/-- Final scaling with vectors, src/core/mbelib.c:471-483 and 485-498. -/
def enhScaleSimd (L : Int) (g : F) (Ml : Arr 57 F) : Exec (Arr 57 F) :=
  if L ≥ 4 then do
    let q := L.toNat / 4
    let Ml ← loop q (fun k Ml => do
      let m ← Arr.rd4 Ml (1 + 4 * (k : Int))
      Arr.wr4 Ml (1 + 4 * (k : Int)) (V4.map₂ Arith.mul m (V4.splat g))) Ml
    loopFT (1 + 4 * q) L.toNat (fun l Ml => do Ml.wr l (g *ᶠ (← Ml.rd l))) Ml
  else enhScale L g Ml

/-- `mbe_spectralAmpEnhance` with vectors, src/core/mbelib.c:272-506. -/
def spectralAmpEnhanceSimd (isa : Isa) (addr : Nat) (cur : Parms F) (t : Tls F) : Exec (Parms F × Tls F) := do
  let ct ← cosTab cur.w0 cur.L
  let r ← rm01Simd isa cur.L cur.Ml ct
  let t := setPreEnhRm0 addr r.1 t
  let Ml ← enhWeights cur.w0 cur.L r.1 r.2 ct cur.Ml
  let sum ← enhSumSimd isa cur.L Ml
  let Ml ← enhScaleSimd cur.L (enhGamma r.1 sum) Ml
  .ok ({ cur with Ml := Ml }, t)

/-! ## Voiced synthesis -/

/-- `mbe_add_voiced_block4` with vectors, src/core/mbelib.c:126-158: the four cosines of the rotation, the products
`(c * W) * (2 * amp)`, and the new registers `(c, s)`. `i` is the position of `Ss`, `j` that of `W`. -/
def voicedBlock4 (i j : Nat) (amp sd cd : F) (s : Arr 160 F × F × F) : Exec (Arr 160 F × F × F) := do
  let rot (r : F × F) : F × F := ((r.1 *ᶠ cd) -ᶠ (r.2 *ᶠ sd), (r.2 *ᶠ cd) +ᶠ (r.1 *ᶠ sd))
  let r0 := s.2
  let r1 := rot r0
  let r2 := rot r1
  let r3 := rot r2
  let vC : V4 F := ⟨r0.1, r1.1, r2.1, r3.1⟩
  let vW : V4 F := ⟨ftab (← tab Ws j) Ws_den, ftab (← tab Ws (j + 1)) Ws_den, ftab (← tab Ws (j + 2)) Ws_den,
    ftab (← tab Ws (j + 3)) Ws_den⟩
  let vA := V4.splat (lit 2 1 *ᶠ amp)
  let vS ← Arr.rd4 s.1 (i : Int)
  let o ← Arr.wr4 s.1 (i : Int) (V4.map₂ Arith.add vS (V4.map₂ Arith.mul (V4.map₂ Arith.mul vC vW) vA))
  .ok (o, rot r3)

/-- The 40 calls for one windowed oscillator, src/core/mbelib.c:1029-1032, 1044-1047. -/
def windowedOscSimd (off : Nat) (amp sd cd s0 c0 : F) (out : Arr 160 F) : Exec (Arr 160 F) := do
  let r ← loop 40 (fun k s => voicedBlock4 (4 * k) (4 * k + off) amp sd cd s) (out, c0, s0)
  .ok r.1

/-- Contribution of band `l`, src/core/mbelib.c:981-1051. -/
def voicedBandSimd (cw0 pw0 : F) (cur prev : Parms F) (l : Nat) (out : Arr 160 F) : Exec (Arr 160 F) := do
  let cv := decide ((← cur.Vl.rd l) = 1)
  let pv := decide ((← prev.Vl.rd l) = 1)
  let cw0l := cw0 *ᶠ ofInt (l : Int)
  let pw0l := pw0 *ᶠ ofInt (l : Int)
  if cv || pv then
    if cv && pv && useInterp l cw0 pw0 then interpBand l cw0 pw0 cur prev out
    else do
      let out ← (if pv then do
          let ph ← prev.PHIl.rd l
          windowedOscSimd 160 (← prev.Ml.rd l) (sin pw0l) (cos pw0l) (sin ph) (cos ph) out
        else .ok out)
      if cv then do
        let ph := (← cur.PHIl.rd l) -ᶠ (cw0l *ᶠ ofInt 160)
        windowedOscSimd 0 (← cur.Ml.rd l) (sin cw0l) (cos cw0l) (sin ph) (cos ph) out
      else .ok out
  else .ok out

/-! ## Unvoiced synthesis -/

/-- The horizontal sum in `mbe_magnitude_squared_sum`, src/core/mbe_unvoiced_fft.c:617-622 (shuffle to lanes 1 0 3 2,
add, reverse the lanes, add lane 0) and 642-644. -/
def hsumMag (isa : Isa) (v : V4 F) : F :=
  match isa with
  | .sse2 => (v.a +ᶠ v.b) +ᶠ (v.d +ᶠ v.c)
  | .neon => (v.a +ᶠ v.c) +ᶠ (v.b +ᶠ v.d)

/-- `mbe_magnitude_squared_sum` with vectors, src/core/mbe_unvoiced_fft.c:571-666. -/
def magSumSimd (isa : Isa) (fft : Arr 256 F) (start fin : Int) : Exec F :=
  if fin ≤ start then .ok (lit 0 1)
  else do
    let (sum, start) ← (if start = 0 then do
        let a ← fft.rd 0
        .ok ((lit 0 1 : F) +ᶠ (a *ᶠ a), (1 : Int))
      else .ok (lit 0 1, start))
    let nyq : Bool := decide (fin > 128)
    let fin := if nyq then 128 else fin
    let cnt := (fin - start).toNat
    let q := cnt / 4
    let sum ← (if cnt ≥ 4 then do
        let v ← loop q (fun k (v : V4 F) => do
          let v0 ← Arr.rd4 fft (2 * start + 8 * (k : Int))
          let v1 ← Arr.rd4 fft (2 * start + 8 * (k : Int) + 4)
          .ok (V4.map₂ Arith.add (V4.map₂ Arith.add v (V4.map₂ Arith.mul v0 v0)) (V4.map₂ Arith.mul v1 v1)))
          (V4.splat (lit 0 1))
        .ok (sum +ᶠ hsumMag isa v)
      else .ok sum)
    let sum ← loop (cnt - 4 * q) (fun i sum => do
      let re ← fft.rd (2 * start + 8 * (q : Int) + 2 * (i : Int))
      let im ← fft.rd (2 * start + 8 * (q : Int) + 2 * (i : Int) + 1)
      .ok (sum +ᶠ ((re *ᶠ re) +ᶠ (im *ᶠ im)))) sum
    if nyq then do
      let a ← fft.rd 1
      .ok (sum +ᶠ (a *ᶠ a))
    else .ok sum

/-- `dftBinScalor` with vectors, src/core/mbe_unvoiced_fft.c:688-688, 721-737. -/
def binScalorsSimd (isa : Isa) (L : Int) (Vl : Arr 57 Int) (Ml : Arr 57 F) (fft : Arr 256 F) (lo hi : Loc 57 Int) :
    Exec (Arr 129 F) :=
  loopTo 1 L (fun l (S : Arr 129 F) => do
    if (← Vl.rd l) = 0 then do
      let a ← lo.rd l
      let b ← hi.rd l
      let num ← magSumSimd isa fft a b
      if b - a > 0 ∧ lt (lit 1 10000000000) num then do
        let sc := bandScalor (← Ml.rd l) num (b - a)
        loop (b - a).toNat (fun k S => S.wr (a + k) sc) S
      else .ok S
    else .ok S) (Arr.const 129 (fi 0))

/-- Normalisation by 1/256 with vectors, src/core/mbe_unvoiced_fft.c:753-769; no scalar remainder is left. -/
def normalizeSimd (U : Arr 256 F) : Exec (Arr 256 F) :=
  loop 64 (fun k U => do
    let v ← Arr.rd4 U (4 * (k : Int))
    Arr.wr4 U (4 * (k : Int)) (V4.map₂ Arith.mul v (V4.splat (lit 1 1 /ᶠ ofInt 256)))) U

/-- The scalar statement of the first and third part, src/core/mbe_unvoiced_fft.c:361-364, 401-404. -/
def wolaAdd (P : Plan F) (n : Nat) (ps cs : F) (out : Arr 160 F) : Exec (Arr 160 F) := do
  let d ← P.denom.rd n
  if lt (lit 1 10000000000) d then do
    let v := (((← P.wPrev.rd n) *ᶠ ps) +ᶠ ((← P.wCurr.rd n) *ᶠ cs)) /ᶠ d
    out.wr n ((← out.rd n) +ᶠ v)
  else .ok out

/-- `_mm_cmpgt_ps` against the threshold and `_mm_and_ps`, src/core/mbe_unvoiced_fft.c:386-389: a lane becomes `+0` if
its denominator is not above the threshold. -/
def maskLane (d x : F) : F := if lt (lit 1 10000000000) d then x else lit 0 1

/-- `mbe_wola_combine_fast` with vectors, src/core/mbe_unvoiced_fft.c:354-406, 409-473. -/
def wolaSimd (P : Plan F) (prevUw currUw : Arr 256 F) (out : Arr 160 F) : Exec (Arr 160 F) := do
  let out ← loop 32 (fun n out => do wolaAdd P n (← prevUw.rd (← P.prevIdx.rd n)) (lit 0 1) out) out
  let out ← loop 24 (fun k out => do
    let n : Int := 32 + 4 * (k : Int)
    let wp ← Arr.rd4 P.wPrev n
    let wc ← Arr.rd4 P.wCurr n
    let d ← Arr.rd4 P.denom n
    let ip ← Arr.rd4 P.prevIdx n
    let ic ← Arr.rd4 P.currIdx n
    let ps : V4 F := ⟨← prevUw.rd ip.a, ← prevUw.rd ip.b, ← prevUw.rd ip.c, ← prevUw.rd ip.d⟩
    let cs : V4 F := ⟨← currUw.rd ic.a, ← currUw.rd ic.b, ← currUw.rd ic.c, ← currUw.rd ic.d⟩
    let s := V4.map₂ Arith.add (V4.map₂ Arith.mul wp ps) (V4.map₂ Arith.mul wc cs)
    let r := V4.map₂ maskLane d (V4.map₂ Arith.div s d)
    let o ← Arr.rd4 out n
    Arr.wr4 out n (V4.map₂ Arith.add o r)) out
  loop 32 (fun j out => do wolaAdd P (128 + j) (lit 0 1) (← currUw.rd (← P.currIdx.rd ((128 + j : Nat) : Int))) out) out

/-- `mbe_synthesizeUnvoicedFFTWithNoise` with vectors, src/core/mbe_unvoiced_fft.c:668-783. -/
def unvoicedSimd (isa : Isa) (E : Env F) (P : Plan F) (noise : Arr 256 F) (cur prev : Parms F) (out : Arr 160 F) :
    Exec (Arr 160 F × Arr 256 F) := do
  let U ← windowNoise noise
  let fft := E.fwd U
  let mult := binMultiplier cur.w0
  let e ← bandEdges mult cur.L
  let S ← binScalorsSimd isa cur.L cur.Vl cur.Ml fft e.1 e.2
  let fft ← scaleBins S fft
  let Uo ← normalizeSimd (E.bwd fft)
  let out ← wolaSimd P prev.previousUw Uo out
  .ok (out, Uo)

/-! ## Speech synthesis -/

/-- The part of `mbe_synthesizeSpeechf` for frames that are not muted, src/core/mbelib.c:922-1061. -/
def synthUnmutedSimd (isa : Isa) (E : Env F) (cur prev : Parms F) (t : Tls F) : Exec (SynthRes F) := do
  let nr ← noiseOverlap (Arr.const 256 (fi 0)) cur.noiseSeed cur.noiseOverlap t
  let cur := { cur with noiseSeed := nr.seed, noiseOverlap := nr.overlap }
  let t := nr.tls
  let numUv ← countUv cur.L cur.Vl
  let cw0 := cur.w0
  let pw0 := prev.w0
  let out : Arr 160 F := Arr.const 160 (fi 0)
  let (cur, prev, maxl) ←
    (if cur.L > prev.L then do .ok (cur, ← extendBands prev.L cur.L prev, cur.L)
    else do .ok (← extendBands cur.L prev.L cur, prev, prev.L))
  let (cur, prev) ← phaseUpdate nr.buf numUv cw0 pw0 cur prev
  let out ← loopTo 1 maxl (voicedBandSimd cw0 pw0 cur prev) out
  let (plan, t) ← getPlan E t
  match plan with
  | some P => do
    let r ← unvoicedSimd isa E P nr.buf cur prev out
    .ok ⟨← clipBuffer r.1, { cur with previousUw := r.2 }, prev, t⟩
  | none => do .ok ⟨← clipBuffer out, cur, prev, t⟩

/-- `mbe_synthesizeSpeechf` with vectors, src/core/mbelib.c:894-1062. -/
def synthesizeSpeechfSimd (isa : Isa) (E : Env F) (addr : Nat) (out : Arr 160 F) (cur prev : Parms F) (t : Tls F)
    (_uvquality : Int) : Exec (SynthRes F) := do
  let (cur, t) ← applySmoothing addr cur prev t
  if synthMuted cur then do
    let r ← comfortNoisef out t
    .ok ⟨r.1, cur, prev, r.2⟩
  else synthUnmutedSimd isa E cur prev t

/-! ## Conversion to 16 bits -/

/-- `vcvtq_s32_f32` on one lane: truncation with saturation; zero for NaN. src/core/mbelib.c:1154-1155. -/
def cvtNeon (x : F) : Int :=
  match trunc x with
  | some n => if n > 2147483647 then 2147483647 else if n < -2147483648 then -2147483648 else n
  | none => if lt (lit 0 1) x then 2147483647 else if lt x (lit 0 1) then -2147483648 else 0

/-- One lane of `mbe_floattoshort_neon`, src/core/mbelib.c:1146-1157. `vmaxq_f32` and `vminq_f32` return NaN for a NaN
operand. `vqmovn_s32` is the saturation `packs`. -/
def shortSampleNeon (x : F) : Int :=
  let vmin : F := neg (lit 32767 1) *ᶠ lit 95 100
  let a := x *ᶠ lit 7 1
  let a := if lt a vmin then vmin else a
  let a := if lt maxAmplitude a then maxAmplitude else a
  packs (cvtNeon a)

/-- `mbe_floattoshort_neon`, src/core/mbelib.c:1143-1160, lane by lane. -/
def floatToShortNeon (inp : Arr 160 F) (out : Arr 160 Int) : Exec (Arr 160 Int) :=
  loop 160 (fun i out => do out.wr i (shortSampleNeon (← inp.rd i))) out

/-- The implementations of the conversion, src/core/mbelib.c:1094-1161. -/
inductive ShortImpl
  | scalar
  | sse2
  | neon
  deriving DecidableEq, Repr

/-- The processor families that the dispatch distinguishes; on 32-bit x86 the argument says whether the processor has
SSE2 (bit 26 of `edx`) and the compiler was told to use it. src/core/mbelib.c:1182-1218. -/
inductive Target
  | x86_64
  | i386 (cpuSse2 compilerSse2 : Bool)
  | aarch64
  | armNeon
  | other
  deriving DecidableEq, Repr

/-- `mbe_init_runtime_dispatch`, src/core/mbelib.c:1174-1219: the new value of `mbe_floattoshort_impl`. -/
def initDispatch (tg : Target) : Option ShortImpl → ShortImpl
  | some i => i
  | none =>
    match tg with
    | .x86_64 => .sse2
    | .i386 cpu comp => if cpu && comp then .sse2 else .scalar
    | .aarch64 => .neon
    | .armNeon => .neon
    | .other => .scalar

/-- `mbe_floattoshort` with `MBELIB_ENABLE_SIMD`, src/core/mbelib.c:1221-1227: the samples and the new value of the
thread-local pointer. -/
def floatToShortSimd (tg : Target) (impl : Option ShortImpl) (inp : Arr 160 F) (out : Arr 160 Int) :
    Exec (Arr 160 Int × Option ShortImpl) := do
  let i := initDispatch tg impl
  let r ← match i with
    | .scalar => floatToShort inp out
    | .sse2 => floatToShortSse2 inp out
    | .neon => floatToShortNeon inp out
  .ok (r, some i)

/-! ## Process functions

The text is that of `Verif.Model.Process` with the vector versions of the two functions above. -/

/-- As `speak`: src/imbe/imbe7200x4400.c:638-640, 647-647; src/ambe/ambe3600x2450.c:690-693;
src/ambe/ambe3600x2400.c:660-663. -/
def speakSimd (isa : Isa) (E : Env F) (C : Call F) (s : St F) : Exec (Arr 160 F × St F) := do
  let prev := s.cur
  let (cur, t) ← spectralAmpEnhanceSimd isa C.pc s.cur s.tls
  let r ← synthesizeSpeechfSimd isa E C.pc C.buf cur s.enh t C.uvquality
  .ok (r.out, ⟨r.cur, prev, r.cur, r.tls⟩)

/-- `mbe_processImbe4400Dataf_withC0`, src/imbe/imbe7200x4400.c:581-649. -/
def processImbe4400Simd (isa : Isa) (E : Env F) (C : Call F) (c0 : Option Int) (errs2 : Int) (d : Nat → Int) (s : St F) :
    Exec (Out F) := do
  let s := imbePrepare c0 errs2 s
  let str ← putEq C.cap errs2
  let r ← decodeImbe4400 E.lax d s.cur s.prev s.tls
  let rep := imbeRepeatRequired r.bad c0 errs2 r.cur.errorRate
  let cur ← imbeRepeat rep r.cur r.prev
  let str ← (if rep then putc C.cap str 'R' else .ok str)
  let muted := isMaxFrameRepeat cur || requiresMuting cur
  let o ← speakSimd isa E C ⟨cur, r.prev, s.enh, r.tls⟩
  let str ← (if muted then putc C.cap str 'M' else .ok str)
  let str ← putc C.cap str '\x00'
  .ok ⟨o.1, str, o.2⟩

/-- The invalid-tone path, src/ambe/ambe3600x2450.c:707-711. -/
def replayEnhancedSimd (isa : Isa) (E : Env F) (C : Call F) (s : St F) : Exec (Arr 160 F × St F) := do
  let r ← synthesizeSpeechfSimd isa E C.ps C.buf s.enh s.enh s.tls C.uvquality
  .ok (r.out, { s with enh := r.cur, tls := r.tls })

/-- The synthesis part, src/ambe/ambe3600x2450.c:688-725. -/
def ambe2450RenderSimd (isa : Isa) (E : Env F) (C : Call F) (bad : Int) (d : Nat → Int) (s : St F) :
    Exec (Arr 160 F × Option Char × St F) :=
  if bad = 0 then
    if s.cur.repeat_ ≤ 3 then do
      let o ← speakSimd isa E C s
      .ok (o.1, none, o.2)
    else do
      let o ← noiseAndReset C s
      .ok (o.1, some 'M', o.2)
  else if bad = 7 then do
    if ← validToneId d then do
      let r ← synthesizeTonef C.buf d s.cur
      .ok (r.1, none, { s with cur := r.2 })
    else if isMaxFrameRepeat s.prev then do
      let o ← noiseAndReset C s
      .ok (o.1, none, o.2)
    else do
      let o ← replayEnhancedSimd isa E C s
      .ok (o.1, none, o.2)
  else if bad = 2 then do
    let r ← comfortNoisef C.buf s.tls
    .ok (r.1, none, ⟨s.cur, s.cur, s.cur, r.2⟩)
  else do
    let o ← noiseAndReset C s
    .ok (o.1, none, o.2)

/-- `mbe_processAmbe2450Dataf_internal`, src/ambe/ambe3600x2450.c:626-727. -/
def processAmbe2450Simd (isa : Isa) (E : Env F) (C : Call F) (c0 : Option Int) (errs2 : Int) (d : Nat → Int) (s : St F) :
    Exec (Out F) := do
  let s ← ambePrepare errs2 s
  let str ← putEq C.cap errs2
  let r ← decodeAmbe2450 E.lax d errs2 s.cur s.prev s.tls
  let v ← ambe2450Verdict r.bad c0 errs2 r.cur r.prev
  let str ← putOpt C.cap str v.2
  let o ← ambe2450RenderSimd isa E C r.bad d ⟨v.1, r.prev, s.enh, r.tls⟩
  let str ← putOpt C.cap str o.2.1
  let str ← putc C.cap str '\x00'
  .ok ⟨o.1, str, o.2.2⟩

/-- The synthesis part, src/ambe/ambe3600x2400.c:658-677. -/
def ambe2400RenderSimd (isa : Isa) (E : Env F) (C : Call F) (bad : Int) (s : St F) :
    Exec (Arr 160 F × Option Char × St F) :=
  if bad = 0 then
    if s.cur.repeat_ ≤ 3 then do
      let o ← speakSimd isa E C s
      .ok (o.1, none, o.2)
    else do
      let o ← noiseAndReset C s
      .ok (o.1, some 'M', o.2)
  else if bad = 2 then do
    let r ← comfortNoisef C.buf s.tls
    .ok (r.1, none, ⟨s.cur, s.cur, s.cur, r.2⟩)
  else do
    let o ← noiseAndReset C s
    .ok (o.1, none, o.2)

/-- `mbe_processAmbe2400Dataf`, src/ambe/ambe3600x2400.c:601-679. -/
def processAmbe2400Simd (isa : Isa) (E : Env F) (C : Call F) (errs errs2 : Int) (d : Nat → Int) (s : St F) :
    Exec (Out F) := do
  let s ← ambePrepare errs2 s
  let str ← putEq C.cap errs2
  let r ← decodeAmbe2400 E.lax d s.cur s.prev s.tls
  let v ← ambe2400Verdict C r.bad errs errs2 d r.cur r.prev
  let str ← putOpt C.cap str v.letter
  let o ← ambe2400RenderSimd isa E { C with buf := v.buf } r.bad ⟨v.cur, v.prev, s.enh, r.tls⟩
  let str ← putOpt C.cap str o.2.1
  let str ← putc C.cap str '\x00'
  .ok ⟨o.1, str, o.2.2⟩

/-- `mbe_processImbe7200x4400Framef`, src/imbe/imbe7200x4400.c:695-714. -/
def processImbe7200FramefSimd (isa : Isa) (E : Env F) (C : Call F) (fr : Frame) (d : Nat → Int) (s : St F) :
    Exec (FrameOut F) := do
  let e ← frameEcc7200 fr d
  let o ← processImbe4400Simd isa E C (some (e.errs : Int)) (e.errs2 : Int) e.d
    { s with cur := { s.cur with errorCount4 := (e.c4 : Int) } }
  .ok ⟨e, o⟩

/-- `mbe_processImbe7100x4400Framef`, src/imbe/imbe7100x4400.c:330-350. -/
def processImbe7100FramefSimd (isa : Isa) (E : Env F) (C : Call F) (fr : Frame) (d : Nat → Int) (s : St F) :
    Exec (FrameOut F) := do
  let e ← frameEcc7100 fr d
  let d7200 ← convert7100to7200 F e.d
  let o ← processImbe4400Simd isa E C (some (e.errs : Int)) (e.errs2 : Int) d7200
    { s with cur := { s.cur with errorCount4 := (e.c4 : Int) } }
  .ok ⟨{ e with d := d7200 }, o⟩

/-- `mbe_processAmbe3600x2450Framef`, src/ambe/ambe3600x2450.c:773-787. -/
def processAmbe2450FramefSimd (isa : Isa) (E : Env F) (C : Call F) (fr : Frame) (d : Nat → Int) (s : St F) :
    Exec (FrameOut F) := do
  let e ← frameEccAmbe fr d
  let o ← processAmbe2450Simd isa E C (some (e.errs : Int)) (e.errs2 : Int) e.d s
  .ok ⟨e, o⟩

/-- `mbe_processAmbe3600x2400Framef`, src/ambe/ambe3600x2400.c:705-718. -/
def processAmbe2400FramefSimd (isa : Isa) (E : Env F) (C : Call F) (fr : Frame) (d : Nat → Int) (s : St F) :
    Exec (FrameOut F) := do
  let e ← frameEccAmbe fr d
  let o ← processAmbe2400Simd isa E C (e.errs : Int) (e.errs2 : Int) e.d s
  .ok ⟨e, o⟩

end Verif.Model
