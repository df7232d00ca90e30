import Verif.Model.Imbe
import Verif.Gen.Window
import Verif.Gen.Unvoiced

/-!
# Model of the synthesiser

`src/core/mbelib.c`, `src/core/mbe_adaptive.c` and `src/core/mbe_unvoiced_fft.c` in the build without
`MBELIB_ENABLE_SIMD` (the scalar branches), with the SSE2 float-to-short conversion as an alternative definition.
-/

namespace Verif.Model
open Verif Verif.Gen Arith

variable {F : Type} [Arith F]

/-- What the model leaves open: the two `pffft` transforms of 256 floats (see Model/Fft.lean and C61), whether the
allocation of the FFT plan succeeds, and how the access `log2Ml[57]` is treated (see `rdLog2`).
src/core/mbelib.c:68-74; src/core/mbe_unvoiced_fft.c:130-160. -/
structure Env (F : Type) where
  fwd : Arr 256 F → Arr 256 F
  bwd : Arr 256 F → Arr 256 F
  alloc : Bool
  lax : Bool

/-- `for (l = lo; l <= hi; l++)` with `int` bounds and a non-negative `lo`. E.g. src/core/mbelib.c:358-366. -/
def loopTo {σ : Type} (lo : Nat) (hi : Int) (f : Nat → σ → Exec σ) (s : σ) : Exec σ := loopFT lo hi.toNat f s

/-! ## Generators -/

/-- The value used instead of a zero seed, src/core/mbelib.c:79-79, src/core/mbe_adaptive.c:34-34 and
src/core/mbe_unvoiced_fft.c:232-232. -/
def zeroSeed : Nat := 0x6d25357b

/-- `MBE_JAVA_RNG_MULT`, src/core/mbe_adaptive.c:20-20. -/
def javaMult : Nat := 0x5DEECE66D

/-- `mbe_seedComfortNoiseRng`, src/core/mbe_adaptive.c:31-38. -/
def seedComfortNoise (seed : Nat) (t : Tls F) : Tls F :=
  let seed := if seed = 0 then zeroSeed else seed
  { t with comfortSeed48 := (seed ^^^ javaMult) % 2 ^ 48, comfortSeeded := true }

/-- `mbe_seedUnvoicedNoiseLcg`, src/core/mbe_unvoiced_fft.c:229-236. -/
def seedUnvoicedNoise (seed : Nat) (t : Tls F) : Tls F :=
  let seed := if seed = 0 then zeroSeed else seed
  { t with uvSeedState := seed % 53125, uvSeedOverride := true }

/-- `mbe_setThreadRngSeed`, src/core/mbelib.c:76-84. -/
def setThreadRngSeed (seed : Nat) (t : Tls F) : Tls F :=
  let seed := if seed = 0 then zeroSeed else seed
  let t := { t with rngState := seed }
  seedUnvoicedNoise seed (seedComfortNoise seed t)

/-- The three shifts of `mbe_xorshift32` on 32-bit values, src/core/mbelib.c:98-100. -/
def xorshiftStep (x : Nat) : Nat :=
  let x := x ^^^ ((x <<< 13) % 2 ^ 32)
  let x := x ^^^ (x >>> 17)
  x ^^^ ((x <<< 5) % 2 ^ 32)

/-- `mbe_xorshift32`, src/core/mbelib.c:95-103: the returned value and the new state. -/
def xorshift32 (t : Tls F) : Nat × Tls F :=
  let x := xorshiftStep t.rngState
  let x := if x = 0 then zeroSeed else x
  (x, { t with rngState := x })

/-- One step of the 48-bit generator, src/core/mbe_adaptive.c:70-70. -/
def javaStep (s : Nat) : Nat := (s * javaMult % 2 ^ 64 + 0xB) % 2 ^ 64 % 2 ^ 48

/-- `mbe_java_random_next_bits(24)`, src/core/mbe_adaptive.c:63-72. -/
def javaNext24 (t : Tls F) : Nat × Tls F :=
  let s := if t.comfortSeeded then t.comfortSeed48 else (0x12345678 ^^^ javaMult) % 2 ^ 48
  let s := javaStep s
  (s >>> 24, { t with comfortSeed48 := s, comfortSeeded := true })

/-- `(0.003f * 32767.0f) / 7.0f`, src/core/mbe_adaptive.c:136-136. -/
def comfortGain : F := (lit 3 1000 *ᶠ lit 32767 1) /ᶠ lit 7 1

/-- One sample `u * gain`, src/core/mbe_adaptive.c:140-141. -/
def comfortSample (v : Nat) : F :=
  (((ofInt (v : Int) /ᶠ lit 16777216 1) *ᶠ lit 2 1) -ᶠ lit 1 1) *ᶠ comfortGain

/-- `mbe_synthesizeComfortNoisef`, src/core/mbe_adaptive.c:128-143. -/
def comfortNoisef (out : Arr 160 F) (t : Tls F) : Exec (Arr 160 F × Tls F) :=
  loop 160 (fun i (s : Arr 160 F × Tls F) => do
    let (v, t) := javaNext24 s.2
    .ok (← s.1.wr i (comfortSample v), t)) (out, t)

/-- One step of the noise generator, src/core/mbe_unvoiced_fft.c:224-224, 270-270, in `uint32_t` arithmetic. -/
def lcgStep (s : Nat) : Nat := ((171 * s) % 2 ^ 32 + 11213) % 2 ^ 32 % 53125

/-- `mbe_generate_noise_lcg`, src/core/mbe_unvoiced_fft.c:211-227, for a buffer of `n` floats and `count = n`: the
filled buffer and the new seed. -/
def noiseLcg (n : Nat) (buf : Arr n F) (seed : F) : Exec (Arr n F × F) := do
  let s0 := (← toU32 seed) % 53125
  let s ← loop n (fun i (s : Arr n F × Nat) => do
    .ok (← s.1.wr i (ofInt (s.2 : Int)), lcgStep s.2)) (buf, s0)
  .ok (s.1, ofInt (s.2 : Int))

/-- Result of `mbe_generate_noise_with_overlap`. The out parameters at src/core/mbe_unvoiced_fft.c:239-239. -/
structure NoiseRes (F : Type) where
  buf : Arr 256 F
  seed : F
  overlap : Arr 96 F
  tls : Tls F

/-- `mbe_generate_noise_with_overlap`, src/core/mbe_unvoiced_fft.c:238-275. The buffer starts uninitialised in the
caller; every element is assigned before it is read, so its old value is an argument here. -/
def noiseOverlap (buf : Arr 256 F) (seed : F) (ov : Arr 96 F) (t : Tls F) : Exec (NoiseRes F) :=
  if lt seed (lit 0 1) then
    if t.uvSeedOverride then
      .ok ⟨Arr.const 256 (fi 0), ofInt (t.uvSeedState : Int), Arr.const 96 (fi 0), { t with uvSeedOverride := false }⟩
    else .ok ⟨Arr.const 256 (fi 0), lit 3147 1, Arr.const 96 (fi 0), t⟩
  else do
    let buf ← loop 96 (fun i buf => do buf.wr i (← ov.rd i)) buf
    let s0 := (← toU32 seed) % 53125
    let s ← loopFT 96 255 (fun i (s : Arr 256 F × Nat) => do
      .ok (← s.1.wr i (ofInt (s.2 : Int)), lcgStep s.2)) (buf, s0)
    let ov ← loop 96 (fun i ov => do ov.wr i (← s.1.rd (160 + (i : Int)))) ov
    .ok ⟨s.1, ofInt (s.2 : Int), ov, t⟩

/-! ## Spectral amplitude enhancement -/

/-- `mbe_setPreEnhRm0`, src/core/mbe_adaptive.c:40-51; `owner` is the address of the parameter set. -/
def setPreEnhRm0 (owner : Nat) (rm0 : F) (t : Tls F) : Tls F :=
  if owner ≠ 0 ∧ le (lit 0 1) rm0 then { t with preEnhRm0 := rm0, preEnhValid := true, preEnhOwner := owner }
  else { t with preEnhRm0 := lit 0 1, preEnhValid := false, preEnhOwner := 0 }

/-- The table `cos(w0 * l)` by rotation, src/core/mbelib.c:280-294. -/
def cosTab (w0 : F) (L : Int) : Exec (Loc 57 F) := do
  let ss := sin w0
  let cs := cos w0
  let s ← loopTo 1 L (fun l (s : Loc 57 F × F × F) => do
    let c := s.2.1
    let sn := s.2.2
    let c' := (c *ᶠ cs) -ᶠ (sn *ᶠ ss)
    let s' := (sn *ᶠ cs) +ᶠ (c *ᶠ ss)
    .ok (← s.1.wr l c', c', s')) (Loc.fresh 57 F, lit 1 1, lit 0 1)
  .ok s.1

/-- `Rm0` and `Rm1`, src/core/mbelib.c:298-299, 361-367. -/
def rm01 (L : Int) (Ml : Arr 57 F) (ct : Loc 57 F) : Exec (F × F) :=
  loopTo 1 L (fun l (s : F × F) => do
    let m ← Ml.rd l
    let m2 := m *ᶠ m
    .ok (s.1 +ᶠ m2, s.2 +ᶠ (m2 *ᶠ (← ct.rd l)))) (lit 0 1, lit 0 1)

/-- `Wl[l]`, src/core/mbelib.c:380-382. -/
def enhWeight (w0 rm0 rm1 m c : F) : F :=
  let r20 := rm0 *ᶠ rm0
  let r21 := rm1 *ᶠ rm1
  sqrt m *ᶠ sqrt (sqrt (((toF (dlit 96 100) *ᶠ fpi) *ᶠ ((r20 +ᶠ r21) -ᶠ (((ofInt 2 *ᶠ rm0) *ᶠ rm1) *ᶠ c)))
    /ᶠ ((w0 *ᶠ rm0) *ᶠ (r20 -ᶠ r21))))

/-- The new `Ml[l]` from the weight, src/core/mbelib.c:384-392. -/
def enhApply (l : Nat) (L : Int) (w m : F) : F :=
  if 8 * (l : Int) ≤ L then m
  else if lt (lit 12 10) w then lit 12 10 *ᶠ m
  else if lt w (lit 5 10) then lit 5 10 *ᶠ m
  else w *ᶠ m

/-- Weighting loop, src/core/mbelib.c:377-394. -/
def enhWeights (w0 : F) (L : Int) (rm0 rm1 : F) (ct : Loc 57 F) (Ml : Arr 57 F) : Exec (Arr 57 F) :=
  loopTo 1 L (fun l Ml => do
    let m ← Ml.rd l
    if eq m (lit 0 1) then .ok Ml
    else Ml.wr l (enhApply l L (enhWeight w0 rm0 rm1 m (← ct.rd l)) m)) Ml

/-- Sum of squares, src/core/mbelib.c:398-398, 451-459. -/
def enhSum (L : Int) (Ml : Arr 57 F) : Exec F :=
  loopTo 1 L (fun l s => do
    let m ← Ml.rd l
    let m := if lt m (lit 0 1) then neg m else m
    .ok (s +ᶠ (m *ᶠ m))) (lit 0 1)

/-- `gamma`, src/core/mbelib.c:461-465. -/
def enhGamma (rm0 sum : F) : F := if eq sum (lit 0 1) then lit 1 1 else sqrt (rm0 /ᶠ sum)

/-- Final scaling, src/core/mbelib.c:501-505. -/
def enhScale (L : Int) (g : F) (Ml : Arr 57 F) : Exec (Arr 57 F) :=
  loopTo 1 L (fun l Ml => do Ml.wr l (g *ᶠ (← Ml.rd l))) Ml

/-- `mbe_spectralAmpEnhance`, src/core/mbelib.c:272-506. `addr` is the address of `*cur_mp`. -/
def spectralAmpEnhance (addr : Nat) (cur : Parms F) (t : Tls F) : Exec (Parms F × Tls F) := do
  let ct ← cosTab cur.w0 cur.L
  let r ← rm01 cur.L cur.Ml ct
  let t := setPreEnhRm0 addr r.1 t
  let Ml ← enhWeights cur.w0 cur.L r.1 r.2 ct cur.Ml
  let sum ← enhSum cur.L Ml
  let Ml ← enhScale cur.L (enhGamma r.1 sum) Ml
  .ok ({ cur with Ml := Ml }, t)

/-! ## Adaptive smoothing and muting -/

/-- `mbe_requiresAdaptiveSmoothing`, src/core/mbe_adaptive.c:82-88. -/
def requiresSmoothing (p : Parms F) : Bool := lt (lit 125 10000) p.errorRate || decide (p.errorCountTotal > 4)

/-- `mbe_requiresMuting`, src/core/mbe_adaptive.c:99-105. -/
def requiresMuting (p : Parms F) : Bool := lt p.mutingThreshold p.errorRate

/-- `mbe_isMaxFrameRepeat`, src/core/mbe_adaptive.c:113-119. -/
def isMaxFrameRepeat (p : Parms F) : Bool := decide (p.repeatCount ≥ 4)

/-- `FLT_MAX`. src/core/mbe_adaptive.c:217-217. -/
def fltMax : F := lit 340282346638528859811704183484516925440 1

/-- `RM0` and the hand-off state, src/core/mbe_adaptive.c:190-201. -/
def smoothRm0 (addr : Nat) (cur : Parms F) (t : Tls F) : Exec (F × Tls F) :=
  if t.preEnhValid ∧ t.preEnhOwner = addr then
    .ok (t.preEnhRm0, { t with preEnhValid := false, preEnhOwner := 0 })
  else do
    let r ← loopTo 1 cur.L (fun l s => do
      let m ← cur.Ml.rd l
      .ok (s +ᶠ (m *ᶠ m))) (lit 0 1)
    .ok (r, t)

/-- New local energy, src/core/mbe_adaptive.c:203-212. -/
def smoothEnergy (prevEnergy rm0 : F) : F :=
  let pe := if lt prevEnergy (lit 10000 1) then defaultLocalEnergy else prevEnergy
  let e := (lit 95 100 *ᶠ pe) +ᶠ (lit 5 100 *ᶠ rm0)
  if lt e (lit 10000 1) then lit 10000 1 else e

/-- `VM`, src/core/mbe_adaptive.c:214-229. -/
def smoothVM (errorRate energy : F) (errorTotal errorCount4 : Int) : F :=
  if le errorRate (lit 5 1000) ∧ errorTotal ≤ 4 then fltMax
  else
    let x8 := sqrt (sqrt (sqrt energy))
    let en := (x8 *ᶠ x8) *ᶠ x8
    if le errorRate (lit 125 10000) ∧ errorCount4 = 0 then
      (lit 45255 1000 *ᶠ en) /ᶠ exp (lit 27726 100 *ᶠ errorRate)
    else lit 1414 1000 *ᶠ en

/-- Forced voicing, src/core/mbe_adaptive.c:232-236. -/
def smoothVoicing (L : Int) (vm : F) (Ml : Arr 57 F) (Vl : Arr 57 Int) : Exec (Arr 57 Int) :=
  loopTo 1 L (fun l Vl => do
    if lt vm (← Ml.rd l) then Vl.wr l 1 else .ok Vl) Vl

/-- `Am`, src/core/mbe_adaptive.c:239-243. -/
def smoothAm (L : Int) (Ml : Arr 57 F) : Exec F :=
  loopTo 1 L (fun l s => do .ok (s +ᶠ (← Ml.rd l))) (lit 0 1)

/-- `Tm`, src/core/mbe_adaptive.c:245-256. -/
def smoothTm (errorRate : F) (errorTotal prevT : Int) : Exec Int :=
  let prevT := if prevT ≤ 0 then 20480 else prevT
  if le errorRate (lit 5 1000) ∧ errorTotal ≤ 6 then .ok 20480
  else do i32 ((← i32 (6000 - (← i32 (300 * errorTotal)))) + prevT)

/-- Scaling by the amplitude threshold, src/core/mbe_adaptive.c:260-265. -/
def smoothScale (L : Int) (am : F) (tm : Int) (Ml : Arr 57 F) : Exec (Arr 57 F) :=
  if lt (ofInt tm) am ∧ lt (lit 0 1) am then
    let s := ofInt tm /ᶠ am
    loopTo 1 L (fun l Ml => do Ml.wr l ((← Ml.rd l) *ᶠ s)) Ml
  else .ok Ml

/-- `mbe_applyAdaptiveSmoothing`, src/core/mbe_adaptive.c:177-266. -/
def applySmoothing (addr : Nat) (cur prev : Parms F) (t : Tls F) : Exec (Parms F × Tls F) := do
  let (rm0, t) ← smoothRm0 addr cur t
  let cur := { cur with localEnergy := smoothEnergy prev.localEnergy rm0 }
  let vm := smoothVM cur.errorRate cur.localEnergy cur.errorCountTotal cur.errorCount4
  let cur := { cur with Vl := ← smoothVoicing cur.L vm cur.Ml cur.Vl }
  let am ← smoothAm cur.L cur.Ml
  let tm ← smoothTm cur.errorRate cur.errorCountTotal prev.amplitudeThreshold
  let cur := { cur with amplitudeThreshold := tm }
  .ok ({ cur with Ml := ← smoothScale cur.L am tm cur.Ml }, t)

/-! ## Clipping and conversion to 16 bits -/

/-- `MBE_AUDIO_SOFT_CLIP_FLOAT`, src/core/mbelib.c:509-509. -/
def softClip : F := (lit 32767 1 *ᶠ lit 95 100) /ᶠ lit 7 1

/-- `mbe_clipFloatSample`, src/core/mbelib.c:513-522. -/
def clipSample (x : F) : F :=
  if lt softClip x then softClip else if lt x (neg softClip) then neg softClip else x

/-- `mbe_clipFloatBuffer` for 160 samples, src/core/mbelib.c:524-529. -/
def clipBuffer (out : Arr 160 F) : Exec (Arr 160 F) :=
  loop 160 (fun i out => do out.wr i (clipSample (← out.rd i))) out

/-- `max_amplitude`, src/core/mbelib.c:1098-1098, 1235-1235. -/
def maxAmplitude : F := lit 32767 1 *ᶠ lit 95 100

/-- One sample of `mbe_floattoshort`, src/core/mbelib.c:1237-1249 (same text at 1100-1112). -/
def shortSample (x : F) : Exec Int :=
  let a := lit 7 1 *ᶠ x
  let a := if lt maxAmplitude a then maxAmplitude else if lt a (neg maxAmplitude) then neg maxAmplitude else a
  toI16 a

/-- `mbe_floattoshort`, src/core/mbelib.c:1230-1251. -/
def floatToShort (inp : Arr 160 F) (out : Arr 160 Int) : Exec (Arr 160 Int) :=
  loop 160 (fun i out => do out.wr i (← shortSample (← inp.rd i))) out

/-- `_mm_cvttps_epi32` on one lane: truncation, or the integer indefinite value. src/core/mbelib.c:1131-1132. -/
def cvtt (x : F) : Int :=
  match trunc x with
  | some n => if -2147483648 ≤ n ∧ n < 2147483648 then n else -2147483648
  | none => -2147483648

/-- `_mm_packs_epi32` on one lane: signed saturation to 16 bits. src/core/mbelib.c:1133-1133. -/
def packs (n : Int) : Int := if n > 32767 then 32767 else if n < -32768 then -32768 else n

/-- One lane of `mbe_floattoshort_sse2`, src/core/mbelib.c:1123-1133. `_mm_max_ps(a, b)` is `a > b ? a : b` and
`_mm_min_ps(a, b)` is `a < b ? a : b`, so the second operand is the result when a NaN is involved. -/
def shortSampleSse2 (x : F) : Int :=
  let vmin : F := neg (lit 32767 1) *ᶠ lit 95 100
  let a := x *ᶠ lit 7 1
  let a := if lt vmin a then a else vmin
  let a := if lt a maxAmplitude then a else maxAmplitude
  packs (cvtt a)

/-- `mbe_floattoshort_sse2`, src/core/mbelib.c:1120-1136, lane by lane. -/
def floatToShortSse2 (inp : Arr 160 F) (out : Arr 160 Int) : Exec (Arr 160 Int) :=
  loop 160 (fun i out => do out.wr i (shortSampleSse2 (← inp.rd i))) out

/-- `mbe_synthesizeSilencef`, src/core/mbelib.c:860-866, for a non-null buffer. -/
def silencef : Arr 160 F := Arr.const 160 (fi 0)

/-- `mbe_synthesizeSilence`, src/core/mbelib.c:872-878, for a non-null buffer. -/
def silence : Arr 160 Int := Arr.const 160 0

/-- `mbe_synthesizeComfortNoise`, src/core/mbe_adaptive.c:150-161. -/
def comfortNoise (out : Arr 160 Int) (t : Tls F) : Exec (Arr 160 Int × Tls F) := do
  let r ← comfortNoisef (Arr.const 160 (fi 0)) t
  .ok (← floatToShort r.1 out, r.2)

/-! ## Unvoiced synthesis -/

/-- `mbe_synthesisWindow`, src/core/mbe_unvoiced_fft.c:203-209. -/
def synthWindow (n : Int) : Exec F :=
  if n < -105 ∨ n > 105 then .ok (lit 0 1) else do .ok (lit (← tabI Ws_synthesis (n + 105)) Ws_synthesis_den)

/-- The part of `mbe_fft_plan_alloc` that computes data, src/core/mbe_unvoiced_fft.c:161-176. -/
def planFill (p : Plan F) : Exec (Plan F) :=
  loop 160 (fun n p => do
    let wp ← synthWindow (n : Int)
    let wc ← synthWindow ((n : Int) - 160)
    let p := { p with wPrev := ← p.wPrev.wr n wp }
    let p := { p with wCurr := ← p.wCurr.wr n wc }
    let p := { p with denom := ← p.denom.wr n ((wp *ᶠ wp) +ᶠ (wc *ᶠ wc)) }
    let p := { p with prevIdx := ← p.prevIdx.wr n ((n : Int) + 128) }
    pure { p with currIdx := ← p.currIdx.wr n ((n : Int) + 128 - 160) }) p

/-- The contents of a freshly allocated plan; every element is assigned by `planFill`. src/core/mbe_unvoiced_fft.c:131-131. -/
def planRaw : Plan F := ⟨Arr.const 160 (fi 0), Arr.const 160 (fi 0), Arr.const 160 (fi 0), Arr.const 160 0, Arr.const 160 0⟩

/-- `mbe_get_fft_plan`, src/core/mbelib.c:67-74. -/
def getPlan (E : Env F) (t : Tls F) : Exec (Option (Plan F) × Tls F) :=
  match t.plan with
  | some p => .ok (some p, t)
  | none =>
    if E.alloc then do
      let p ← planFill planRaw
      .ok (some p, { t with plan := some p })
    else .ok (none, t)

/-- `Uw[i] = noise[i] * w`, src/core/mbe_unvoiced_fft.c:694-699. -/
def windowNoise (noise : Arr 256 F) : Exec (Arr 256 F) :=
  loop 256 (fun i (U : Arr 256 F) => do
    let n : Int := (i : Int) - 128
    let w : F ← (if n ≥ -105 ∧ n ≤ 105 then do .ok (lit (← tabI Ws_synthesis (n + 105)) Ws_synthesis_den)
      else .ok (lit 0 1))
    U.wr i ((← noise.rd i) *ᶠ w)) (Arr.const 256 (fi 0))

/-- `MBE_256_OVER_2PI * w0`, src/internal/mbe_unvoiced_fft.h:21-21 and src/core/mbe_unvoiced_fft.c:705-705. -/
def binMultiplier (w0 : F) : F :=
  (lit 256 1 /ᶠ (lit 2 1 *ᶠ lit 314159265358979323846 100000000000000000000)) *ᶠ w0

/-- `a_min[l]` after clamping, src/core/mbe_unvoiced_fft.c:708-713. -/
def bandLo (mult : F) (l : Nat) : Exec Int := do
  let a ← toI32 (ceil ((ofInt (l : Int) -ᶠ lit 5 10) *ᶠ mult))
  .ok (if a < 0 then 0 else a)

/-- `b_max[l]` after clamping, src/core/mbe_unvoiced_fft.c:709-709, 714-716. -/
def bandHi (mult : F) (l : Nat) : Exec Int := do
  let b ← toI32 (ceil ((ofInt (l : Int) +ᶠ lit 5 10) *ᶠ mult))
  .ok (if b > 128 then 128 else b)

/-- Band edges, src/core/mbe_unvoiced_fft.c:707-717. -/
def bandEdges (mult : F) (L : Int) : Exec (Loc 57 Int × Loc 57 Int) :=
  loopTo 1 L (fun l (s : Loc 57 Int × Loc 57 Int) => do
    let a ← bandLo mult l
    let b ← bandHi mult l
    .ok (← s.1.wr l a, ← s.2.wr l b)) (Loc.fresh 57 Int, Loc.fresh 57 Int)

/-- `mbe_magnitude_squared_sum`, src/core/mbe_unvoiced_fft.c:571-666. -/
def magSum (fft : Arr 256 F) (start fin : Int) : Exec F :=
  if fin ≤ start then .ok (lit 0 1)
  else do
    let (sum, start) ← (if start = 0 then do
        let a ← fft.rd 0
        .ok ((lit 0 1 : F) +ᶠ (a *ᶠ a), (1 : Int))
      else .ok (lit 0 1, start))
    let nyq : Bool := decide (fin > 128)
    let fin := if nyq then 128 else fin
    let sum ← loop (fin - start).toNat (fun i sum => do
      let re ← fft.rd (2 * (start + i))
      let im ← fft.rd (2 * (start + i) + 1)
      .ok (sum +ᶠ ((re *ᶠ re) +ᶠ (im *ᶠ im)))) sum
    if nyq then do
      let a ← fft.rd 1
      .ok (sum +ᶠ (a *ᶠ a))
    else .ok sum

/-- `scalor`, src/core/mbe_unvoiced_fft.c:727-728. -/
def bandScalor (m numer : F) (cnt : Int) : F := (lit 14617696 100000 *ᶠ m) /ᶠ sqrt (numer /ᶠ ofInt cnt)

/-- `dftBinScalor`, src/core/mbe_unvoiced_fft.c:688-688, 721-737. -/
def binScalors (L : Int) (Vl : Arr 57 Int) (Ml : Arr 57 F) (fft : Arr 256 F) (lo hi : Loc 57 Int) :
    Exec (Arr 129 F) :=
  loopTo 1 L (fun l (S : Arr 129 F) => do
    if (← Vl.rd l) = 0 then do
      let a ← lo.rd l
      let b ← hi.rd l
      let num ← magSum fft a b
      if b - a > 0 ∧ lt (lit 1 10000000000) num then do
        let sc := bandScalor (← Ml.rd l) num (b - a)
        loop (b - a).toNat (fun k S => S.wr (a + k) sc) S
      else .ok S
    else .ok S) (Arr.const 129 (fi 0))

/-- `pffft_bin_scale`, src/core/mbe_unvoiced_fft.c:543-555. -/
def binScale (fft : Arr 256 F) (bin : Nat) (s : F) : Exec (Arr 256 F) :=
  if bin = 0 then do fft.wr 0 ((← fft.rd 0) *ᶠ s)
  else if bin = 128 then do fft.wr 1 ((← fft.rd 1) *ᶠ s)
  else do
    let fft ← fft.wr (2 * (bin : Int)) ((← fft.rd (2 * (bin : Int))) *ᶠ s)
    fft.wr (2 * (bin : Int) + 1) ((← fft.rd (2 * (bin : Int) + 1)) *ᶠ s)

/-- Scaling of all bins, src/core/mbe_unvoiced_fft.c:743-745. -/
def scaleBins (S : Arr 129 F) (fft : Arr 256 F) : Exec (Arr 256 F) :=
  loopFT 0 128 (fun bin fft => do binScale fft bin (← S.rd bin)) fft

/-- Normalisation by 1/256, src/core/mbe_unvoiced_fft.c:753, 773-775. -/
def normalize (U : Arr 256 F) : Exec (Arr 256 F) :=
  loop 256 (fun i U => do U.wr i ((← U.rd i) *ᶠ (lit 1 1 /ᶠ ofInt 256))) U

/-- `mbe_wola_combine_fast`, scalar branch, src/core/mbe_unvoiced_fft.c:477-496. -/
def wolaFast (P : Plan F) (prevUw currUw : Arr 256 F) (out : Arr 160 F) : Exec (Arr 160 F) :=
  loop 160 (fun n out => do
    let pi ← P.prevIdx.rd n
    let ps : F ← (if pi ≥ 0 ∧ pi < 256 then prevUw.rd pi else .ok (lit 0 1))
    let ci ← P.currIdx.rd n
    let cs : F ← (if ci ≥ 0 ∧ ci < 256 then currUw.rd ci else .ok (lit 0 1))
    let d ← P.denom.rd n
    if lt (lit 1 10000000000) d then do
      let v := (((← P.wPrev.rd n) *ᶠ ps) +ᶠ ((← P.wCurr.rd n) *ᶠ cs)) /ᶠ d
      out.wr n ((← out.rd n) +ᶠ v)
    else .ok out) out

/-- `mbe_wola_combine` with `N = 160`, src/core/mbe_unvoiced_fft.c:277-317. -/
def wolaCombine (prevUw currUw : Arr 256 F) (out : Arr 160 F) : Exec (Arr 160 F) :=
  loop 160 (fun n out => do
    let wp : F ← synthWindow (n : Int)
    let wc : F ← synthWindow ((n : Int) - 160)
    let pi : Int := (n : Int) + 128
    let ps : F ← (if pi < 256 then prevUw.rd pi else .ok (lit 0 1))
    let ci : Int := (n : Int) + 128 - 160
    let cs : F ← (if ci ≥ 0 ∧ ci < 256 then currUw.rd ci else .ok (lit 0 1))
    let d := (wp *ᶠ wp) +ᶠ (wc *ᶠ wc)
    if lt (lit 1 10000000000) d then do
      out.wr n ((← out.rd n) +ᶠ (((wp *ᶠ ps) +ᶠ (wc *ᶠ cs)) /ᶠ d))
    else .ok out) out

/-- `mbe_synthesizeUnvoicedFFTWithNoise`, src/core/mbe_unvoiced_fft.c:668-783: the output and the new
`cur_mp->previousUw`. -/
def unvoiced (E : Env F) (P : Plan F) (noise : Arr 256 F) (cur prev : Parms F) (out : Arr 160 F) :
    Exec (Arr 160 F × Arr 256 F) := do
  let U ← windowNoise noise
  let fft := E.fwd U
  let mult := binMultiplier cur.w0
  let e ← bandEdges mult cur.L
  let S ← binScalors cur.L cur.Vl cur.Ml fft e.1 e.2
  let fft ← scaleBins S fft
  let Uo ← normalize (E.bwd fft)
  let out ← wolaFast P prev.previousUw Uo out
  .ok (out, Uo)

/-- `mbe_synthesizeUnvoicedFFT`, src/core/mbe_unvoiced_fft.c:785-798: the output, the new `*cur_mp` and the
thread-local state. -/
def unvoicedStandalone (E : Env F) (P : Plan F) (cur prev : Parms F) (t : Tls F) (out : Arr 160 F) :
    Exec (Arr 160 F × Parms F × Tls F) := do
  let nr ← noiseOverlap (Arr.const 256 (fi 0)) cur.noiseSeed cur.noiseOverlap t
  let cur := { cur with noiseSeed := nr.seed, noiseOverlap := nr.overlap }
  let r ← unvoiced E P nr.buf cur prev out
  .ok (r.1, { cur with previousUw := r.2 }, nr.tls)

/-! ## Voiced synthesis -/

/-- `MBE_TWO_PI`, src/core/mbelib.c:55-55. -/
def twoPi : F := lit 2 1 *ᶠ fpi

/-- `MBE_WHITE_NOISE_SCALAR`, src/core/mbelib.c:892-892. -/
def whiteScalar : F := (lit 2 1 *ᶠ fpi) /ᶠ lit 53125 1

/-- Number of unvoiced bands, src/core/mbelib.c:928-933. -/
def countUv (L : Int) (Vl : Arr 57 Int) : Exec Int :=
  loop (L + 1).toNat (fun l n => do .ok (if (← Vl.rd l) = 0 then n + 1 else n)) 0

/-- One half of eq. 128/129: bands `lo+1 .. hi` become voiced with zero amplitude, src/core/mbelib.c:943-947 and
949-953. -/
def extendBands (lo hi : Int) (p : Parms F) : Exec (Parms F) :=
  loop (hi - lo).toNat (fun k p => do
    let l := lo + 1 + k
    let p := { p with Ml := ← p.Ml.wr l (lit 0 1) }
    pure { p with Vl := ← p.Vl.wr l 1 }) p

/-- `fmodf(x, MBE_TWO_PI)` moved to a non-negative value, src/core/mbelib.c:960-963. -/
def wrapPhase (x : F) : F :=
  let r := fmod x twoPi
  if lt r (lit 0 1) then r +ᶠ twoPi else r

/-- Phase update, src/core/mbelib.c:958-975: the new `(cur, prev)`. -/
def phaseUpdate (noise : Arr 256 F) (numUv : Int) (cw0 pw0 : F) (cur prev : Parms F) : Exec (Parms F × Parms F) :=
  loopFT 1 56 (fun l (s : Parms F × Parms F) => do
    let w := wrapPhase (← s.2.PSIl.rd l)
    let prev := { s.2 with PSIl := ← s.2.PSIl.wr l w }
    let psi := w +ᶠ ((pw0 +ᶠ cw0) *ᶠ (ofInt ((l : Int) * 160) /ᶠ lit 2 1))
    let cur := { s.1 with PSIl := ← s.1.PSIl.wr l psi }
    if (l : Int) ≤ cur.L.tdiv 4 then .ok ({ cur with PHIl := ← cur.PHIl.wr l (← cur.PSIl.rd l) }, prev)
    else do
      let pl := (whiteScalar *ᶠ (← noise.rd l)) -ᶠ fpi
      let phi := (← cur.PSIl.rd l) +ᶠ ((ofInt numUv *ᶠ pl) /ᶠ ofInt cur.L)
      .ok ({ cur with PHIl := ← cur.PHIl.wr l phi }, prev)) (cur, prev)

/-- `use_interpolation`, src/core/mbelib.c:992-992. -/
def useInterp (l : Nat) (cw0 pw0 : F) : Bool := decide (l < 8) && lt (abs (cw0 -ᶠ pw0)) (lit 1 10 *ᶠ cw0)

/-- `deltaphil`, src/core/mbelib.c:998-998. -/
def deltaPhi (l : Nat) (cw0 pw0 phic phip : F) : F :=
  (phic -ᶠ phip) -ᶠ (((pw0 +ᶠ cw0) *ᶠ ofInt ((l : Int) * 160)) /ᶠ lit 2 1)

/-- `deltawl`, src/core/mbelib.c:1001-1003. -/
def deltaW (dphi : F) : F :=
  (lit 1 1 /ᶠ ofInt 160) *ᶠ (dphi -ᶠ ((lit 2 1 *ᶠ fpi) *ᶠ floor ((dphi +ᶠ fpi) /ᶠ (lit 2 1 *ᶠ fpi))))

/-- `thetaln`, src/core/mbelib.c:1007-1008. -/
def thetaLn (l n : Nat) (cw0 pw0 phip dw : F) : F :=
  (phip +ᶠ (((pw0 *ᶠ ofInt (l : Int)) +ᶠ dw) *ᶠ ofInt (n : Int)))
    +ᶠ (((cw0 -ᶠ pw0) *ᶠ ofInt ((l : Int) * n * n)) /ᶠ ofInt (2 * 160))

/-- `aln`, src/core/mbelib.c:1011-1011. -/
def ampLn (n : Nat) (mc mp : F) : F := mp +ᶠ ((ofInt (n : Int) /ᶠ ofInt 160) *ᶠ (mc -ᶠ mp))

/-- The interpolating oscillator of band `l`, src/core/mbelib.c:994-1016. -/
def interpBand (l : Nat) (cw0 pw0 : F) (cur prev : Parms F) (out : Arr 160 F) : Exec (Arr 160 F) := do
  let phic ← cur.PHIl.rd l
  let phip ← prev.PHIl.rd l
  let dw := deltaW (deltaPhi l cw0 pw0 phic phip)
  loop 160 (fun n out => do
    let th := thetaLn l n cw0 pw0 phip dw
    let a := ampLn n (← cur.Ml.rd l) (← prev.Ml.rd l)
    out.wr n ((← out.rd n) +ᶠ ((lit 2 1 *ᶠ a) *ᶠ cos th))) out

/-- The windowed oscillator: 40 calls of `mbe_add_voiced_block4` with the window at offset `off`,
src/core/mbelib.c:1025-1032, 1044-1047 and 126-165. Within a block the four outputs depend on the rotated state only,
so the four rotations and the four accumulations are interleaved sample by sample here. -/
def windowedOsc (off : Nat) (amp sd cd s0 c0 : F) (out : Arr 160 F) : Exec (Arr 160 F) := do
  let r ← loop 160 (fun n (s : Arr 160 F × F × F) => do
    let cc := s.2.1
    let ss := s.2.2
    let w : F := ftab (← tab Ws (n + off)) Ws_den
    let o ← s.1.wr n ((← s.1.rd n) +ᶠ (((lit 2 1 *ᶠ w) *ᶠ amp) *ᶠ cc))
    .ok (o, (cc *ᶠ cd) -ᶠ (ss *ᶠ sd), (ss *ᶠ cd) +ᶠ (cc *ᶠ sd))) (out, c0, s0)
  .ok r.1

/-- Contribution of band `l`, src/core/mbelib.c:981-1051. -/
def voicedBand (cw0 pw0 : F) (cur prev : Parms F) (l : Nat) (out : Arr 160 F) : Exec (Arr 160 F) := do
  let cv := decide ((← cur.Vl.rd l) = 1)
  let pv := decide ((← prev.Vl.rd l) = 1)
  let cw0l := cw0 *ᶠ ofInt (l : Int)
  let pw0l := pw0 *ᶠ ofInt (l : Int)
  if cv || pv then
    if cv && pv && useInterp l cw0 pw0 then interpBand l cw0 pw0 cur prev out
    else do
      let out ← (if pv then do
          let ph ← prev.PHIl.rd l
          windowedOsc 160 (← prev.Ml.rd l) (sin pw0l) (cos pw0l) (sin ph) (cos ph) out
        else .ok out)
      if cv then do
        let ph := (← cur.PHIl.rd l) -ᶠ (cw0l *ᶠ ofInt 160)
        windowedOsc 0 (← cur.Ml.rd l) (sin cw0l) (cos cw0l) (sin ph) (cos ph) out
      else .ok out
  else .ok out

/-- Result of a synthesis call: the objects it may modify. The arguments at src/core/mbelib.c:895-895. -/
structure SynthRes (F : Type) where
  out : Arr 160 F
  cur : Parms F
  prev : Parms F
  tls : Tls F

/-- `mute_on_error_rate` and the muting decision, src/core/mbelib.c:915-916. -/
def synthMuted (cur : Parms F) : Bool :=
  isMaxFrameRepeat cur ||
    (lt (lit 1 1000000) (abs (cur.mutingThreshold -ᶠ mutingAmbe)) && requiresMuting cur)

/-- The part of `mbe_synthesizeSpeechf` for frames that are not muted, src/core/mbelib.c:922-1061.
The old contents of the output buffer are overwritten by the `memset` at line 939. -/
def synthUnmuted (E : Env F) (cur prev : Parms F) (t : Tls F) : Exec (SynthRes F) := do
  let nr ← noiseOverlap (Arr.const 256 (fi 0)) cur.noiseSeed cur.noiseOverlap t
  let cur := { cur with noiseSeed := nr.seed, noiseOverlap := nr.overlap }
  let t := nr.tls
  let numUv ← countUv cur.L cur.Vl
  let cw0 := cur.w0
  let pw0 := prev.w0
  let out : Arr 160 F := Arr.const 160 (fi 0)
  let (cur, prev, maxl) ←
    (if cur.L > prev.L then do .ok (cur, ← extendBands prev.L cur.L prev, cur.L)
    else do .ok (← extendBands cur.L prev.L cur, prev, prev.L))
  let (cur, prev) ← phaseUpdate nr.buf numUv cw0 pw0 cur prev
  let out ← loopTo 1 maxl (voicedBand cw0 pw0 cur prev) out
  let (plan, t) ← getPlan E t
  match plan with
  | some P => do
    let r ← unvoiced E P nr.buf cur prev out
    .ok ⟨← clipBuffer r.1, { cur with previousUw := r.2 }, prev, t⟩
  | none => do .ok ⟨← clipBuffer out, cur, prev, t⟩

/-- `mbe_synthesizeSpeechf`, src/core/mbelib.c:894-1062. `addr` is the address of `*cur_mp`; `cur` and `prev` are
different objects; `uvquality` is not used by the code. -/
def synthesizeSpeechf (E : Env F) (addr : Nat) (out : Arr 160 F) (cur prev : Parms F) (t : Tls F) (_uvquality : Int) :
    Exec (SynthRes F) := do
  let (cur, t) ← applySmoothing addr cur prev t
  if synthMuted cur then do
    let r ← comfortNoisef out t
    .ok ⟨r.1, cur, prev, r.2⟩
  else synthUnmuted E cur prev t

/-- `mbe_synthesizeSpeech`, src/core/mbelib.c:1071-1077: the 16-bit samples and the float-level result. -/
def synthesizeSpeech (E : Env F) (addr : Nat) (sout : Arr 160 Int) (cur prev : Parms F) (t : Tls F) (uvq : Int) :
    Exec (Arr 160 Int × SynthRes F) := do
  let r ← synthesizeSpeechf E addr (Arr.const 160 (fi 0)) cur prev t uvq
  .ok (← floatToShort r.out sout, r)

/-! ## Tones -/

/-- `mbe_tonePhaseStep`, src/core/mbelib.c:531-538. -/
def tonePhaseStep (f : F) : Exec Nat :=
  let step := (f /ᵈ dlit 8000 1) *ᵈ dlit 4294967296 1
  if le step (dlit 0 1) then .ok 0 else toU32 (step +ᵈ dlit 5 10)

/-- `mbe_toneSampleFromPhase`, src/core/mbelib.c:540-544. -/
def toneSample (phase : Nat) : F :=
  sin (toF ((dofInt (phase : Int) *ᵈ ((dlit 2 1 *ᵈ mpi) /ᵈ dlit 4294967296 1)) -ᵈ (mpi /ᵈ dlit 2 1)))

/-- The frequency pairs of `mbe_lookupToneFreqs` with two explicit values, src/core/mbelib.c:560-703. -/
def toneTab : List (Nat × Int × Int) :=
 [(128, 1336, 941), (129, 1209, 697), (130, 1336, 697), (131, 1477, 697), (132, 1209, 770), (133, 1336, 770),
  (134, 1477, 770), (135, 1209, 852), (136, 1336, 852), (137, 1477, 852), (138, 1633, 697), (139, 1633, 770),
  (140, 1633, 852), (141, 1633, 941), (142, 1209, 941), (143, 1477, 941), (144, 1162, 820), (145, 1052, 606),
  (146, 1162, 606), (147, 1279, 606), (148, 1052, 672), (149, 1162, 672), (150, 1279, 672), (151, 1052, 743),
  (152, 1162, 743), (153, 1279, 743), (154, 1430, 606), (155, 1430, 672), (156, 1430, 743), (157, 1430, 820),
  (158, 1052, 820), (159, 1279, 820), (160, 440, 350), (161, 480, 440), (162, 620, 480), (163, 490, 350)]

/-- `mbe_lookupToneFreqs`, src/core/mbelib.c:546-714: `freq1`, `freq2` and the return value. -/
def lookupToneFreqs (id : Nat) : F × F × Bool :=
  let p : F × F :=
    if id = 5 then (lit 15625 100, lit 15625 100)
    else if id = 6 then (lit 1875 10, lit 1875 10)
    else match toneTab.lookup id with
      | some (a, b) => (lit a 1, lit b 1)
      | none =>
        if id ≥ 7 ∧ id ≤ 122 then (lit 3125 100 *ᶠ ofInt (id : Int), lit 3125 100 *ᶠ ofInt (id : Int))
        else (lit 0 1, lit 0 1)
  (p.1, p.2, lt (lit 0 1) p.1 || lt (lit 0 1) p.2)

/-- Conversion of a `uint32_t` to `int` (implementation-defined in C17 6.3.1.3p3; two's complement wrap-around). src/core/mbelib.c:743-744. -/
def toS32 (n : Nat) : Int := if n < 2147483648 then (n : Int) else (n : Int) - 4294967296

/-- Conversion of an `int` to `uint32_t`. src/core/mbelib.c:727-728. -/
def toUns32 (n : Int) : Nat := (n % 4294967296).toNat

/-- `gain`, src/core/mbelib.c:724-724. -/
def toneGain (amp : Int) : F := ((if amp < 0 then lit 0 1 else ofInt amp) /ᶠ lit 127 1) *ᶠ softClip

/-- `dual_tone`, src/core/mbelib.c:723-723. -/
def dualTone (f1 f2 : F) : Bool := lt (lit 0 1) f2 && lt (lit 1 1000000) (abs (f2 -ᶠ f1))

/-- `mbe_renderTonef`, src/core/mbelib.c:716-745. -/
def renderTonef (out : Arr 160 F) (cur : Parms F) (f1 f2 : F) (amp : Int) : Exec (Arr 160 F × Parms F) :=
  if le f1 (lit 0 1) then .ok (silencef, cur)
  else do
    let dual := dualTone f1 f2
    let gain : F := toneGain amp
    let step1 ← tonePhaseStep f1
    let step2 ← (if dual then tonePhaseStep f2 else .ok 0)
    let r ← loop 160 (fun n (s : Arr 160 F × Nat × Nat) => do
      let p1 := (s.2.1 + step1) % 4294967296
      let s1 : F := toneSample p1
      if dual then do
        let p2 := (s.2.2 + step2) % 4294967296
        let s2 : F := toneSample p2
        .ok (← s.1.wr n (((lit 5 10 *ᶠ gain) *ᶠ s1) +ᶠ ((lit 5 10 *ᶠ gain) *ᶠ s2)), p1, p2)
      else do
        .ok (← s.1.wr n (gain *ᶠ s1), p1, s.2.2)) (out, toUns32 cur.swn, toUns32 cur.un)
    .ok (r.1, { cur with swn := toS32 r.2.1, un := toS32 r.2.2 })

end Verif.Model
