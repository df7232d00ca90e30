import Verif.Arr
import Verif.Num.Arith
import Verif.Model.Frames

/-!
# Decoder state: `mbe_parms`, its initialisers, and thread-local storage
-/

namespace Verif.Model
open Verif Arith

/-- `struct mbe_parameters`, include/mbelib-neo/mbelib.h:84-135. `repeat_` is the field `repeat`. The members are kept
in declaration order; the only fact about the layout that the model uses is that `PHIl` follows `log2Ml`
(see `rdLog2`). -/
@[ext] structure Parms (F : Type) where
  w0 : F
  L : Int
  K : Int
  Vl : Arr 57 Int
  Ml : Arr 57 F
  log2Ml : Arr 57 F
  PHIl : Arr 57 F
  PSIl : Arr 57 F
  gamma : F
  un : Int
  repeat_ : Int
  swn : Int
  localEnergy : F
  amplitudeThreshold : Int
  errorRate : F
  errorCountTotal : Int
  errorCount4 : Int
  repeatCount : Int
  mutingThreshold : F
  previousUw : Arr 256 F
  noiseSeed : F
  noiseOverlap : Arr 96 F

variable {F : Type} [Arith F]

/-- `MBE_MUTING_THRESHOLD_IMBE`, include/mbelib-neo/mbelib.h:470-470. -/
def mutingImbe : F := lit 875 10000
/-- `MBE_MUTING_THRESHOLD_AMBE`, include/mbelib-neo/mbelib.h:473-473. -/
def mutingAmbe : F := lit 96 1000
/-- `MBE_DEFAULT_LOCAL_ENERGY`, src/internal/mbe_adaptive.h:17-17. -/
def defaultLocalEnergy : F := lit 75000 1
/-- `MBE_DEFAULT_AMPLITUDE_THRESHOLD`, src/internal/mbe_adaptive.h:29-29. -/
def defaultAmplitudeThreshold : Int := 20480

/-- The default fundamental `(float)((4.0 * M_PI) / (134.0 + 39.5))`, src/core/mbelib.c:230-230 and
src/imbe/imbe7200x4400.c:65-65. -/
def imbeDefaultW0 : F := toF ((dlit 4 1 *ᵈ mpi) /ᵈ (dlit 134 1 +ᵈ dlit 395 10))

/-- `(int)(0.9254 * (int)((M_PI / w0) + 0.25))`, src/imbe/imbe7200x4400.c:316-316, :66-66 and src/core/mbelib.c:231-231. -/
def imbeLOfW0 (w0 : F) : Exec Int := do
  let n ← toI32 ((mpi /ᵈ w0) +ᵈ dlit 25 100)
  toI32 ((dlit 9254 10000 : F) *ᵈ dofInt n)

/-- `mbe_initMbeParms`, src/core/mbelib.c:223-264. Returns the common value of the three structures: the function
assigns every member of `*prev_mp` and then copies it to `*cur_mp` and `*prev_mp_enhanced`. The arguments are the old
contents; `initMbeParms_eq` in `Verif.Lemmas.Init` shows they do not matter. -/
def initMbeParms (p : Parms F) : Exec (Parms F) := do
  let p := { p with swn := 0, un := 0, w0 := imbeDefaultW0 }
  let p := { p with L := ← imbeLOfW0 p.w0 }
  let p := { p with K := 12, gamma := fi 0 }
  let p ← loop 57 (fun l p => do
    let p := { p with Ml := ← p.Ml.wr l (lit 1 1) }
    let p := { p with Vl := ← p.Vl.wr l 0 }
    let p := { p with log2Ml := ← p.log2Ml.wr l (fi 0) }
    let p := { p with PHIl := ← p.PHIl.wr l (fi 0) }
    pure { p with PSIl := ← p.PSIl.wr l (lit 0 1) }) p
  pure { p with repeat_ := 0, localEnergy := defaultLocalEnergy, amplitudeThreshold := defaultAmplitudeThreshold,
                errorRate := lit 0 1, errorCountTotal := 0, errorCount4 := 0, repeatCount := 0,
                mutingThreshold := mutingImbe, noiseSeed := neg (lit 1 1), noiseOverlap := Arr.const 96 (fi 0),
                previousUw := Arr.const 256 (fi 0) }

/-- `mbe_initAmbeParms_common`, src/ambe/ambe_common.c:106-146, with the same convention as `initMbeParms`. -/
def initAmbeParms (p : Parms F) : Exec (Parms F) := do
  let p := { p with swn := 0, un := 0, w0 := toF ((mpi /ᵈ dlit 32 1) *ᵈ (dlit 2 1 *ᵈ mpi)), L := 15, K := 0,
                    gamma := lit 0 1 }
  let p ← loop 57 (fun l p => do
    let p := { p with Ml := ← p.Ml.wr l (lit 1 1) }
    let p := { p with Vl := ← p.Vl.wr l 0 }
    let p := { p with log2Ml := ← p.log2Ml.wr l (lit 0 1) }
    let p := { p with PHIl := ← p.PHIl.wr l (lit 0 1) }
    pure { p with PSIl := ← p.PSIl.wr l (lit 0 1) }) p
  pure { p with repeat_ := 0, localEnergy := defaultLocalEnergy, amplitudeThreshold := defaultAmplitudeThreshold,
                errorRate := lit 0 1, errorCountTotal := 0, errorCount4 := 0, repeatCount := 0,
                mutingThreshold := mutingAmbe, noiseSeed := neg (lit 1 1), noiseOverlap := Arr.const 96 (fi 0),
                previousUw := Arr.const 256 (fi 0) }

/-- `mbe_setAmbeErasureParms_common`, src/ambe/ambe_common.c:148-177, with a non-null `state_src`. -/
def setAmbeErasureParms (mp src : Parms F) : Exec (Parms F) := do
  let mp := { mp with swn := 0, un := 0, w0 := lit 0 1, L := 9, K := 0, gamma := lit 0 1 }
  let mp ← loop 57 (fun l mp => do
    let mp := { mp with Ml := ← mp.Ml.wr l (lit 1 1) }
    let mp := { mp with Vl := ← mp.Vl.wr l 0 }
    let mp := { mp with log2Ml := ← mp.log2Ml.wr l (lit 0 1) }
    let mp := { mp with PHIl := ← mp.PHIl.wr l (← src.PHIl.rd l) }
    pure { mp with PSIl := ← mp.PSIl.wr l (← src.PSIl.rd l) }) mp
  pure { mp with localEnergy := defaultLocalEnergy, amplitudeThreshold := defaultAmplitudeThreshold,
                 noiseSeed := src.noiseSeed, noiseOverlap := src.noiseOverlap, previousUw := src.previousUw }

/-- `imbe_reset_headroom_defaults`, src/imbe/imbe7200x4400.c:55-81. -/
def imbeResetHeadroomDefaults (mp : Parms F) : Exec (Parms F) := do
  let mp := { mp with swn := 0, un := 0, w0 := imbeDefaultW0 }
  let mp := { mp with L := ← imbeLOfW0 mp.w0 }
  let mp := { mp with K := 12, gamma := lit 0 1 }
  let mp ← loop 57 (fun l mp => do
    let mp := { mp with Vl := ← mp.Vl.wr l 0 }
    let mp := { mp with Ml := ← mp.Ml.wr l (lit 1 1) }
    pure { mp with log2Ml := ← mp.log2Ml.wr l (lit 0 1) }) mp
  pure { mp with repeat_ := 0, repeatCount := 0, localEnergy := lit 75000 1, amplitudeThreshold := 20480,
                 mutingThreshold := mutingImbe }

/-- The cosine tables of one codec: `struct imbe_dct_cache` (src/imbe/imbe7200x4400.c:38-42),
`struct ambe2450_dct_cache` (src/ambe/ambe3600x2450.c:34-38) and `struct ambe_dct_cache`
(src/ambe/ambe3600x2400.c:34-38). `ri_cos` has 7 or 9 rows, `idct_cos` 11 or 18 planes. -/
@[ext] structure DctCache (F : Type) (r n : Nat) where
  ri : Arr r (Arr r F)
  idct : Arr n (Arr n (Arr n F))

/-- The thread-local FFT plan with its precomputed WOLA weights, `struct mbe_fft_plan`,
src/core/mbe_unvoiced_fft.c:96-125. The `pffft` set-up and work buffers carry no information between calls. -/
@[ext] structure Plan (F : Type) where
  wPrev : Arr 160 F
  wCurr : Arr 160 F
  denom : Arr 160 F
  prevIdx : Arr 160 Int
  currIdx : Arr 160 Int

/-- All thread-local variables of the library: `mbe_rng_state`, `mbe_fft_plan_instance` (src/core/mbelib.c:58-61),
`mbe_comfort_noise_seed48`, `mbe_comfort_noise_seeded`, `mbe_pre_enh_rm0`, `mbe_pre_enh_rm0_valid`,
`mbe_pre_enh_owner` (src/core/mbe_adaptive.c:24-29), `mbe_unvoiced_seed_state`, `mbe_unvoiced_seed_override`
(src/core/mbe_unvoiced_fft.c:28-29) and the three DCT caches. Pointers are abstract addresses; address 0 is `NULL`. -/
@[ext] structure Tls (F : Type) where
  rngState : Nat
  comfortSeed48 : Nat
  comfortSeeded : Bool
  preEnhRm0 : F
  preEnhValid : Bool
  preEnhOwner : Nat
  uvSeedState : Nat
  uvSeedOverride : Bool
  imbeCache : Option (DctCache F 7 11)
  ambe2450Cache : Option (DctCache F 9 18)
  ambe2400Cache : Option (DctCache F 9 18)
  plan : Option (Plan F)

/-- The values the thread-local variables have when a thread starts: their initialisers at the lines cited at `Tls`.
src/core/mbelib.c:58-61; src/core/mbe_adaptive.c:24-29; src/core/mbe_unvoiced_fft.c:28-29; src/imbe/imbe7200x4400.c:44-44; src/ambe/ambe3600x2450.c:40-40; src/ambe/ambe3600x2400.c:40-40. -/
def Tls.start : Tls F where
  rngState := 0x12345678
  comfortSeed48 := 0
  comfortSeeded := false
  preEnhRm0 := lit 0 1
  preEnhValid := false
  preEnhOwner := 0
  uvSeedState := 3147
  uvSeedOverride := false
  imbeCache := none
  ambe2450Cache := none
  ambe2400Cache := none
  plan := none

/-- Read of `prev_mp->log2Ml[i]` in the spectral prediction. The C object `log2Ml` has 57 elements, so subscript 57 is
undefined behaviour; it is nevertheless reached (see C16). With `lax` the model gives this one access the value it has
in the actual layout, the adjacent `PHIl[0]`, so that what happens afterwards can be studied too.
src/imbe/imbe7200x4400.c:508-519; src/ambe/ambe3600x2450.c:559-579; src/ambe/ambe3600x2400.c:540-560. -/
def rdLog2 (lax : Bool) (p : Parms F) (i : Int) : Exec F :=
  if i = 57 ∧ lax then p.PHIl.rd 0 else p.log2Ml.rd i

end Verif.Model
