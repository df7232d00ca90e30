import Verif.Model.Ecc

/-!
# Model of the frame-level ECC, demodulation and packing

A frame is a function `row → column → char`. Every access to a local or parameter array carries its C bounds:
`imbe_fr[8][23]`, `imbe_fr[7][24]`, `ambe_fr[4][24]`, `in/out[23]`, `hin/hout[15]`, `imbe_d[88]`, `ambe_d[49]`, `pr[115]`.
-/

namespace Verif.Model
open Verif Verif.Gen

/-- A frame of bit planes. E.g. `char imbe_fr[8][23]`, src/imbe/imbe7200x4400.c:696-696. -/
abbrev Frame := Nat → Nat → Int

/-- Bounds-checked read `fr[i][j]` of a `char fr[R][C]`. E.g. src/imbe/imbe7200x4400.c:191-193. -/
def rdF (R C : Nat) (fr : Frame) (i j : Nat) : Exec Int :=
  if i < R ∧ j < C then .ok (fr i j) else .error .oobRead

/-- Bounds-checked store `fr[i][j] = v` to a `char fr[R][C]`. E.g. src/imbe/imbe7200x4400.c:562-571. -/
def wrF (R C : Nat) (fr : Frame) (i j : Nat) (v : Int) : Exec Frame :=
  if i < R ∧ j < C then .ok (fun i' j' => if i' = i ∧ j' = j then v else fr i' j') else .error .oobWrite

/-- Contents of an uninitialised local `char` array; never read by correct code. E.g. src/imbe/imbe7200x4400.c:293-293 (`tmpstr`). -/
def garbage : Nat → Int := fun _ => -1

/-- `for (j = 0; j < n; j++) in[j] = fr[i][j + off];` into a local array of length `len`.
src/imbe/imbe7200x4400.c:191-193, 219-221, 235-237; src/imbe/imbe7100x4400.c:106-108, 144-146, 155-157, 166-168;
src/ambe/ambe_common.c:25-27, 85-87. -/
def copyIn (R C len : Nat) (fr : Frame) (i off n : Nat) (buf : Nat → Int) : Exec (Nat → Int) :=
  loop n (fun j buf => do
    let v ← rdF R C fr i (j + off)
    wr len buf j v) buf

/-- `for (j = 0; j < n; j++) fr[i][j + off] = out[j];`
src/imbe/imbe7200x4400.c:195-197; src/imbe/imbe7100x4400.c:114-116; src/ambe/ambe_common.c:29-31. -/
def copyBack (R C len : Nat) (fr : Frame) (i off n : Nat) (buf : Nat → Int) : Exec Frame :=
  loop n (fun j fr => do
    let v ← rd len buf j
    wrF R C fr i (j + off) v) fr

/-- `for (j = hi; j > hi - n; j--) { *p = src[j]; p++; }` where the source is a frame row.
The output cursor is the second component; the output array has `len` elements.
src/imbe/imbe7200x4400.c:228-231, 249-252; src/imbe/imbe7100x4400.c:138-141, 182-185;
src/ambe/ambe_common.c:80-83, 94-102. -/
def emitRow (R C len : Nat) (fr : Frame) (i hi n : Nat) (s : (Nat → Int) × Nat) : Exec ((Nat → Int) × Nat) :=
  loop n (fun k (s : (Nat → Int) × Nat) => do
    let v ← rdF R C fr i (hi - k)
    let d ← wr len s.1 s.2 v
    .ok (d, s.2 + 1)) s

/-- The same loop where the source is a local array of length `blen`.
src/imbe/imbe7200x4400.c:223-226, 244-247; src/imbe/imbe7100x4400.c:148-151, 159-162, 175-178;
src/ambe/ambe_common.c:89-92. -/
def emitBuf (blen len : Nat) (buf : Nat → Int) (hi n : Nat) (s : (Nat → Int) × Nat) : Exec ((Nat → Int) × Nat) :=
  loop n (fun k (s : (Nat → Int) × Nat) => do
    let v ← rd blen buf (hi - k)
    let d ← wr len s.1 s.2 v
    .ok (d, s.2 + 1)) s

/-! ## IMBE 7200x4400 -/

/-- `mbe_eccImbe7200x4400C0`, src/imbe/imbe7200x4400.c:185-200. -/
def eccImbe7200C0 (fr : Frame) : Exec (Frame × Nat) := do
  let inp ← copyIn 8 23 23 fr 0 0 23 garbage
  let (out, errs) ← golay2312 inp garbage
  let fr ← copyBack 8 23 23 fr 0 0 23 out
  .ok (fr, errs)

/-- Body of the Golay rows loop for one `i ≥ 1`: copy row in, decode, emit data bits, add errors.
src/imbe/imbe7200x4400.c:218-226. `off` is the column offset (0 here, 1 for row 1 of 7100x4400). -/
def golayRow (R C len : Nat) (fr : Frame) (i off : Nat) (s : ((Nat → Int) × Nat) × Nat) :
    Exec (((Nat → Int) × Nat) × Nat) := do
  let gin ← copyIn R C 23 fr i off 23 garbage
  let (gout, e) ← golay2312 gin garbage
  let d ← emitBuf 23 len gout 22 12 s.1
  .ok (d, s.2 + e)

/-- Body of the Hamming rows loop; also returns this row's error count.
src/imbe/imbe7200x4400.c:235-247, src/imbe/imbe7100x4400.c:166-178. -/
def hammingRow (R C len : Nat) (dec : (Nat → Int) → (Nat → Int) → Exec ((Nat → Int) × Nat)) (fr : Frame) (i : Nat)
    (s : ((Nat → Int) × Nat) × Nat) : Exec ((((Nat → Int) × Nat) × Nat) × Nat) := do
  let hin ← copyIn R C 15 fr i 0 15 garbage
  let (hout, e) ← dec hin garbage
  let d ← emitBuf 15 len hout 14 11 s.1
  .ok ((d, s.2 + e), e)

/-- `mbe_eccImbe7200x4400DataInternal`: returns the 88 parameter bits, the error count and the row-4 count
(`*errs_c4`). src/imbe/imbe7200x4400.c:209-255. -/
def eccImbe7200Data (fr : Frame) (imbe_d : Nat → Int) : Exec ((Nat → Int) × Nat × Nat) := do
  let s ← emitRow 8 23 88 fr 0 22 12 (imbe_d, 0)
  let s ← golayRow 8 23 88 fr 1 0 (s, 0)
  let s ← golayRow 8 23 88 fr 2 0 s
  let s ← golayRow 8 23 88 fr 3 0 s
  let (s, c4) ← hammingRow 8 23 88 hamming1511 fr 4 s
  let (s, _) ← hammingRow 8 23 88 hamming1511 fr 5 s
  let (s, _) ← hammingRow 8 23 88 hamming1511 fr 6 s
  let d ← emitRow 8 23 88 fr 7 6 7 s.1
  .ok (d.1, s.2, c4)

/-! ## Pseudo-random modulation -/

/-- Range check of a C `int` intermediate result. E.g. the products at src/imbe/imbe7200x4400.c:551-554. -/
def i32 (x : Int) : Exec Int :=
  if -2^31 ≤ x ∧ x < 2^31 then .ok x else .error .signedOverflow

/-- `strtol(tmpstr, NULL, 2)` on digit characters, stopping at the first character that is not `'0'`/`'1'`
(white space and signs, which cannot arise from 0/1 bits, are not treated).
Used at src/imbe/imbe7200x4400.c:551, 311 and src/imbe/imbe7100x4400.c:222, 275. -/
def strtol2 : List Int → Nat → Nat
  | [], acc => acc
  | c :: cs, acc => if c = 48 then strtol2 cs (2 * acc) else if c = 49 then strtol2 cs (2 * acc + 1) else acc

/-- `pr[i] = 173*pr[i-1] + 13849 - 65536*((173*pr[i-1] + 13849)/65536)` with `int` arithmetic and the final
conversion to `unsigned short`. src/imbe/imbe7200x4400.c:554, src/imbe/imbe7100x4400.c:225, src/ambe/ambe_common.c:59. -/
def prStep (p : Nat) : Exec Nat := do
  let m ← i32 (173 * (p : Int))
  let t ← i32 (m + 13849)
  let q ← i32 (65536 * (t / 65536))
  let r ← i32 (t - q)
  .ok (r % 65536).toNat

/-- The array `pr[115]` filled up to index `n - 1` and then normalised to bits (`>> 15`, equivalently `/ 32768`);
entries that are never assigned stay uninitialised.
src/imbe/imbe7200x4400.c:551-557, src/imbe/imbe7100x4400.c:221-228, src/ambe/ambe_common.c:58-64. -/
def prArray (seed n : Nat) : Exec (Nat → Option Nat) := do
  let pr0 : Nat → Option Nat := fun _ => none
  let pr ← wr 115 pr0 0 (some ((16 * seed) % 65536))
  let pr ← loop (n - 1) (fun k pr => do
    let p ← rd 115 pr k
    let p ← init? p
    let v ← prStep p
    wr 115 pr (k + 1) (some v)) pr
  loop (n - 1) (fun k pr => do
    let p ← rd 115 pr (k + 1)
    let p ← init? p
    wr 115 pr (k + 1) (some (p >>> 15))) pr

/-- `c ^ b` for a `char` and a bit: bitwise xor of the two's complement value with 0 or 1. src/imbe/imbe7200x4400.c:562-571. -/
def xorBit (c : Int) (b : Nat) : Int :=
  if b % 2 = 1 then (if c % 2 = 0 then c + 1 else c - 1) else c

/-- `for (j = n-1; j >= 0; j--) { fr[i][j] = fr[i][j] ^ pr[k]; k++; }`
src/imbe/imbe7200x4400.c:562-565, 568-571; src/imbe/imbe7100x4400.c:232-235, 238-241, 245-248; src/ambe/ambe_common.c:68-71. -/
def xorRow (R C : Nat) (pr : Nat → Option Nat) (i n : Nat) (s : Frame × Nat) : Exec (Frame × Nat) :=
  loopDown n (fun j (s : Frame × Nat) => do
    let c ← rdF R C s.1 i j
    let p ← rd 115 pr s.2
    let p ← init? p
    let fr ← wrF R C s.1 i j (xorBit c p)
    .ok (fr, s.2 + 1)) s

/-- Digit string `fr[0][hi] + 48, …, fr[0][hi-n+1] + 48`,
src/imbe/imbe7200x4400.c:544-550, src/imbe/imbe7100x4400.c:214-220. -/
def seedDigits (fr : Frame) (hi n : Nat) : List Int := (List.range n).map fun k => fr 0 (hi - k) + 48

/-- `mbe_demodulateImbe7200x4400Data`, src/imbe/imbe7200x4400.c:535-573. -/
def demodImbe7200 (fr : Frame) : Exec Frame := do
  let foo := strtol2 (seedDigits fr 22 12) 0 % 65536
  let pr ← prArray foo 115
  let s ← xorRow 8 23 pr 1 23 (fr, 1)
  let s ← xorRow 8 23 pr 2 23 s
  let s ← xorRow 8 23 pr 3 23 s
  let s ← xorRow 8 23 pr 4 15 s
  let s ← xorRow 8 23 pr 5 15 s
  let s ← xorRow 8 23 pr 6 15 s
  .ok s.1

/-! ## IMBE 7100x4400 -/

/-- `mbe_eccImbe7100x4400C0`, src/imbe/imbe7100x4400.c:100-119. -/
def eccImbe7100C0 (fr : Frame) : Exec (Frame × Nat) := do
  let inp ← copyIn 7 24 23 fr 0 1 18 garbage
  let inp ← loop 5 (fun k inp => wr 23 inp (18 + k) 0) inp
  let (out, errs) ← golay2312 inp garbage
  let fr ← copyBack 7 24 23 fr 0 1 18 out
  .ok (fr, errs)

/-- `mbe_eccImbe7100x4400DataInternal`, src/imbe/imbe7100x4400.c:128-188. -/
def eccImbe7100Data (fr : Frame) (imbe_d : Nat → Int) : Exec ((Nat → Int) × Nat × Nat) := do
  let s ← emitRow 7 24 88 fr 0 18 7 (imbe_d, 0)
  let s ← golayRow 7 24 88 fr 1 1 (s, 0)
  let s ← golayRow 7 24 88 fr 2 0 s
  let s ← golayRow 7 24 88 fr 3 0 s
  let (s, c4) ← hammingRow 7 24 88 hamming1511_7100 fr 4 s
  let (s, _) ← hammingRow 7 24 88 hamming1511_7100 fr 5 s
  let d ← emitRow 7 24 88 fr 6 22 23 s.1
  .ok (d.1, s.2, c4)

/-- `mbe_demodulateImbe7100x4400Data`, src/imbe/imbe7100x4400.c:205-250. -/
def demodImbe7100 (fr : Frame) : Exec Frame := do
  let seed := strtol2 (seedDigits fr 18 7) 0 % 65536
  let pr ← prArray seed 101
  let s ← xorRow 7 24 pr 1 24 (fr, 1)
  let s ← xorRow 7 24 pr 2 23 s
  let s ← xorRow 7 24 pr 3 23 s
  let s ← xorRow 7 24 pr 4 15 s
  let s ← xorRow 7 24 pr 5 15 s
  .ok s.1

/-- Result of the ECC part of a frame entry point: the frame after correction and descrambling, the parameter bits,
`*errs`, `*errs2` and the coset-4 count. The out parameters at src/imbe/imbe7200x4400.c:696-713. -/
structure FrameEcc where
  fr : Frame
  d : Nat → Int
  errs : Nat
  errs2 : Nat
  c4 : Nat

/-- ECC part of `mbe_processImbe7200x4400Framef`, src/imbe/imbe7200x4400.c:700-707. -/
def frameEcc7200 (fr : Frame) (imbe_d : Nat → Int) : Exec FrameEcc := do
  let (fr, errs) ← eccImbe7200C0 fr
  let fr ← demodImbe7200 fr
  let (d, e, c4) ← eccImbe7200Data fr imbe_d
  .ok ⟨fr, d, errs, errs + e, c4⟩

/-- ECC part of `mbe_processImbe7100x4400Framef` up to (not including) the conversion to 7200x4400 order,
src/imbe/imbe7100x4400.c:335-342. -/
def frameEcc7100 (fr : Frame) (imbe_d : Nat → Int) : Exec FrameEcc := do
  let (fr, errs) ← eccImbe7100C0 fr
  let fr ← demodImbe7100 fr
  let (d, e, c4) ← eccImbe7100Data fr imbe_d
  .ok ⟨fr, d, errs, errs + e, c4⟩

/-! ## AMBE 3600x2400 and 3600x2450 -/

/-- `mbe_eccAmbe3600C0_common`, src/ambe/ambe_common.c:21-45; the entry points
`mbe_eccAmbe3600x2400C0` (src/ambe/ambe3600x2400.c:134-137) and `mbe_eccAmbe3600x2450C0`
(src/ambe/ambe3600x2450.c:151-154) only forward to it. -/
def eccAmbeC0 (fr : Frame) : Exec (Frame × Nat) := do
  let inp ← copyIn 4 24 23 fr 0 1 23 garbage
  let (out, errs) ← golay2312 inp garbage
  let fr ← copyBack 4 24 23 fr 0 1 23 out
  if errs = 0 then do
    let ones ← loop 24 (fun j ones => do
      let v ← rdF 4 24 fr 0 j
      .ok (ones + bitOf v)) 0
    if ones % 2 ≠ 0 then do
      let v ← rdF 4 24 fr 0 0
      let fr ← wrF 4 24 fr 0 0 (xorBit v 1)
      .ok (fr, 1)
    else .ok (fr, errs)
  else .ok (fr, errs)

/-- `mbe_demodulateAmbe3600Data_common`, src/ambe/ambe_common.c:47-72. `foo |= fr[0][i]` converts the
sign-extended `char` to `unsigned short`. -/
def demodAmbe (fr : Frame) : Exec Frame := do
  let foo := ploop 12 (fun k foo => ((foo <<< 1) % 65536) ||| (fr 0 (23 - k) % 65536).toNat) 0
  let pr ← prArray foo 24
  let s ← xorRow 4 24 pr 1 23 (fr, 1)
  .ok s.1

/-- `mbe_eccAmbe3600Data_common`, src/ambe/ambe_common.c:74-104. -/
def eccAmbeData (fr : Frame) (ambe_d : Nat → Int) : Exec ((Nat → Int) × Nat) := do
  let s ← emitRow 4 24 49 fr 0 23 12 (ambe_d, 0)
  let gin ← copyIn 4 24 24 fr 1 0 23 garbage
  let (gout, errs) ← golay2312 gin garbage
  let s ← emitBuf 24 49 gout 22 12 s
  let s ← emitRow 4 24 49 fr 2 10 11 s
  let s ← emitRow 4 24 49 fr 3 13 14 s
  .ok (s.1, errs)

/-- ECC part of `mbe_processAmbe3600x2450Framef` (src/ambe/ambe3600x2450.c:778-783) and of
`mbe_processAmbe3600x2400Framef` (src/ambe/ambe3600x2400.c:710-715); the AMBE codecs have no coset-4 count. -/
def frameEccAmbe (fr : Frame) (ambe_d : Nat → Int) : Exec FrameEcc := do
  let (fr, errs) ← eccAmbeC0 fr
  let fr ← demodAmbe fr
  let (d, e) ← eccAmbeData fr ambe_d
  .ok ⟨fr, d, errs, errs + e, 0⟩

end Verif.Model
