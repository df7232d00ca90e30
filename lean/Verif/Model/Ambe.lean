import Verif.Model.Imbe
import Verif.Gen.Ambe2450
import Verif.Gen.Ambe2400

/-!
# Model of the AMBE 2450 and AMBE 2400 parameter decoders

The two decoders differ in the bit positions, the tables and the classification of special frames; everything after the
fields `b2 .. b8`, `f0` and `L` are known is the same code and is modelled once, with the tables as a parameter.
-/

namespace Verif.Model
open Verif Verif.Gen Arith

variable {F : Type} [Arith F]

/-- A multi-bit field collected with `b |= ambe_d[i] << s` (most significant bit first) or with
`u = u << 1; u = u | (int)ambe_d[i]`. Shifting a negative `char` is undefined (C17 6.5.7p4); the model reports
undefined behaviour for every negative input character, also for the one that is not shifted.
E.g. src/ambe/ambe3600x2400.c:181-187, src/core/mbelib.c:767-785. -/
def orField (d : Nat → Int) (is : List Nat) : Exec Nat :=
  is.foldlM (fun acc i => do
    let c ← rd 49 d i
    if c < 0 then .error .signedOverflow else .ok ((acc <<< 1) ||| c.toNat)) 0

/-- The quantiser tables of one AMBE codec. src/internal/ambe3600x2450_const.h:29-753; src/internal/ambe3600x2400_const.h:26-692. -/
structure AmbeTabs where
  dg : List Int
  dgDen : Nat
  prba24 : List (List Int)
  prba24Den : Nat
  prba58 : List (List Int)
  prba58Den : Nat
  hoc5 : List (List Int)
  hoc5Den : Nat
  hoc6 : List (List Int)
  hoc6Den : Nat
  hoc7 : List (List Int)
  hoc7Den : Nat
  hoc8 : List (List Int)
  hoc8Den : Nat
  lmprbl : List (List Nat)

/-- Tables used by src/ambe/ambe3600x2450.c:343-495. -/
def tabs2450 : AmbeTabs :=
  ⟨AmbeDg, AmbeDg_den, AmbePRBA24, AmbePRBA24_den, AmbePRBA58, AmbePRBA58_den, AmbeHOCb5, AmbeHOCb5_den, AmbeHOCb6,
   AmbeHOCb6_den, AmbeHOCb7, AmbeHOCb7_den, AmbeHOCb8, AmbeHOCb8_den, AmbeLmprbl⟩

/-- Tables used by src/ambe/ambe3600x2400.c:324-476. -/
def tabs2400 : AmbeTabs :=
  ⟨AmbePlusDg, AmbePlusDg_den, AmbePlusPRBA24, AmbePlusPRBA24_den, AmbePlusPRBA58, AmbePlusPRBA58_den, AmbePlusHOCb5,
   AmbePlusHOCb5_den, AmbePlusHOCb6, AmbePlusHOCb6_den, AmbePlusHOCb7, AmbePlusHOCb7_den, AmbePlusHOCb8,
   AmbePlusHOCb8_den, AmbePlusLmprbl⟩

/-- The fields `b2 .. b8`. src/ambe/ambe3600x2450.c:336-446; src/ambe/ambe3600x2400.c:316-427. -/
structure AmbeFields where
  b2 : Nat
  b3 : Nat
  b4 : Nat
  b5 : Nat
  b6 : Nat
  b7 : Nat
  b8 : Nat

/-- `ambe2450_get_dct_cache`, src/ambe/ambe3600x2450.c:50-74. -/
def ambe2450GetCache (t : Tls F) : DctCache F 9 18 × Tls F :=
  match t.ambe2450Cache with
  | some c => (c, t)
  | none => (fillCache 9 18, { t with ambe2450Cache := some (fillCache 9 18) })

/-- `ambe_get_dct_cache`, src/ambe/ambe3600x2400.c:50-74. -/
def ambe2400GetCache (t : Tls F) : DctCache F 9 18 × Tls F :=
  match t.ambe2400Cache with
  | some c => (c, t)
  | none => (fillCache 9 18, { t with ambe2400Cache := some (fillCache 9 18) })

/-- `M_SQRT2`. Used at src/ambe/ambe3600x2450.c:408-408, src/ambe/ambe3600x2400.c:389-389. -/
def msqrt2 : F := dlit 141421356237309504880 100000000000000000000

/-- `Gm`, src/ambe/ambe3600x2450.c:349-379; src/ambe/ambe3600x2400.c:330-360. -/
def ambeGm (T : AmbeTabs) (f : AmbeFields) : Exec (Loc 9 F) := do
  let Gm ← Loc.wr (Loc.fresh 9 F) 1 (fi 0)
  let Gm ← loop 3 (fun c (Gm : Loc 9 F) => do
    Gm.wr ((c : Int) + 2) (ftab (← tab2 T.prba24 f.b3 c) T.prba24Den)) Gm
  loop 4 (fun c (Gm : Loc 9 F) => do
    Gm.wr ((c : Int) + 5) (ftab (← tab2 T.prba58 f.b4 c) T.prba58Den)) Gm

/-- First two elements of each block, src/ambe/ambe3600x2450.c:407-416; src/ambe/ambe3600x2400.c:388-397. -/
def ambeCik12 (Ri : Loc 9 F) : Exec (Arr 5 (Loc 18 F)) :=
  let rconst : F := toF (ofInt 1 /ᵈ (ofInt 2 *ᵈ msqrt2))
  loopFT 1 4 (fun i C => do
    let a ← Ri.rd (2 * (i : Int) - 1)
    let b ← Ri.rd (2 * (i : Int))
    let C ← Loc.wr2 C i 1 (toF (dlit 5 10) *ᶠ (a +ᶠ b))
    Loc.wr2 C i 2 (rconst *ᶠ (a -ᶠ b))) (Loc.fresh2 5 18 F)

/-- One of the four loops filling `Cik[i][3..Ji]` from a HOC table, src/ambe/ambe3600x2450.c:461-500;
src/ambe/ambe3600x2400.c:442-481. -/
def ambeHoc (t : List (List Int)) (den b i Ji : Nat) (C : Arr 5 (Loc 18 F)) : Exec (Arr 5 (Loc 18 F)) :=
  loopFT 3 Ji (fun k C => do
    if k > 6 then Loc.wr2 C i k (fi 0)
    else Loc.wr2 C i k (ftab (← tab2 t b ((k : Int) - 3)) den)) C

/-- Part 1 of the prediction: `intkl`, `deltal` and the sum of eq. 43, src/ambe/ambe3600x2450.c:542-560;
src/ambe/ambe3600x2400.c:523-541. The loop is the same as in `imbePredict1`. -/
def ambePredict1 (lax : Bool) (L : Int) (prev : Parms F) : Exec (Loc 57 Int × Loc 57 F × F) :=
  imbePredict1 lax L prev

/-- Part 2: sum of `Tl`, src/ambe/ambe3600x2450.c:567-571; src/ambe/ambe3600x2400.c:548-552. -/
def ambeSum42 (L : Int) (Tl : Arr 57 F) : Exec F :=
  loopFT 1 L.toNat (fun l s => do .ok (s +ᶠ (← Tl.rd l))) (fi 0)

/-- Part 3, src/ambe/ambe3600x2450.c:576-594; src/ambe/ambe3600x2400.c:557-575. -/
def ambePredict3 (lax : Bool) (L : Int) (prev : Parms F) (intkl : Loc 57 Int) (deltal : Loc 57 F)
    (sum43 bigGamma unvc : F) (Tl : Arr 57 F) (cur : Parms F) : Exec (Parms F) :=
  let r : F := toF (dlit 65 100)
  loopFT 1 L.toNat (fun l cur => do
    let dl ← deltal.rd l
    let ik ← intkl.rd l
    let c1 := (r *ᶠ (ofInt 1 -ᶠ dl)) *ᶠ (← rdLog2 lax prev ik)
    let c2 := (r *ᶠ dl) *ᶠ (← rdLog2 lax prev (ik + 1))
    let v := (((((← Tl.rd l) +ᶠ c1) +ᶠ c2) -ᶠ sum43) +ᶠ bigGamma)
    let cur := { cur with log2Ml := ← cur.log2Ml.wr l v }
    let m := if (← cur.Vl.rd l) = 1 then exp2 v else unvc *ᶠ exp2 v
    .ok { cur with Ml := ← cur.Ml.wr l m }) cur

/-- Everything after the voicing decisions, src/ambe/ambe3600x2450.c:343-596; src/ambe/ambe3600x2400.c:324-577. -/
def ambeBody (lax : Bool) (T : AmbeTabs) (f : AmbeFields) (L : Int) (unvc : F) (cache : DctCache F 9 18)
    (cur prev : Parms F) : Exec (Parms F × Parms F) := do
  let dg : F := ftab (← tab T.dg f.b2) T.dgDen
  let cur := { cur with gamma := dg +ᶠ (toF (dlit 5 10) *ᶠ prev.gamma) }
  let Gm ← ambeGm T f
  let Ri ← idctRi cache 8 Gm
  let C ← ambeCik12 Ri
  let J ← tabI T.lmprbl L
  let J1 ← tab J 0
  let J2 ← tab J 1
  let J3 ← tab J 2
  let J4 ← tab J 3
  let C ← ambeHoc T.hoc5 T.hoc5Den f.b5 1 J1 C
  let C ← ambeHoc T.hoc6 T.hoc6Den f.b6 2 J2 C
  let C ← ambeHoc T.hoc7 T.hoc7Den f.b7 3 J3 C
  let C ← ambeHoc T.hoc8 T.hoc8Den f.b8 4 J4 C
  let s ← idctBlock cache C 1 J1 (Arr.const 57 (fi 0), 1)
  let s ← idctBlock cache C 2 J2 s
  let s ← idctBlock cache C 3 J3 s
  let s ← idctBlock cache C 4 J4 s
  let Tl := s.1
  let prev ← extendPrev L prev
  let prev := { prev with log2Ml := ← prev.log2Ml.wr 0 (← prev.log2Ml.rd 1) }
  let prev := { prev with Ml := ← prev.Ml.wr 0 (← prev.Ml.rd 1) }
  let p ← ambePredict1 lax L prev
  let sum43 := (toF (dlit 65 100) /ᶠ ofInt L) *ᶠ p.2.2
  let s42 ← ambeSum42 L Tl
  let sum42 := s42 /ᶠ ofInt L
  let bigGamma := (cur.gamma -ᶠ (lit 5 10 *ᶠ log2 (ofInt L))) -ᶠ sum42
  let cur ← ambePredict3 lax L prev p.1 p.2.1 sum43 bigGamma unvc Tl cur
  .ok (cur, prev)

/-- `Vl[l] = 0` for `l = 1 .. L`, src/ambe/ambe3600x2450.c:270-272; src/ambe/ambe3600x2400.c:252-254. -/
def clearVl (L : Nat) (Vl : Arr 57 Int) : Exec (Arr 57 Int) := loopFT 1 L (fun l Vl => Vl.wr l 0) Vl

/-- Voicing decisions, src/ambe/ambe3600x2450.c:317-329; src/ambe/ambe3600x2400.c:299-309. The conversion is
evaluated for silence frames too, although its result is not used then. -/
def ambeVoicing (t : List (List Nat)) (b1 : Nat) (f0 : F) (silence : Bool) (L : Int) (Vl : Arr 57 Int) :
    Exec (Arr 57 Int) :=
  loopFT 1 L.toNat (fun l Vl => do
    let jl ← toI32 ((ofInt (l : Int) *ᶠ toF (dlit 16 1)) *ᶠ f0)
    if silence then .ok Vl else do
      let v ← tab2 t b1 jl
      Vl.wr l (v : Int)) Vl

/-- `unvc = (float)0.2046 / sqrtf(w0)`, src/ambe/ambe3600x2450.c:292-292; src/ambe/ambe3600x2400.c:276-276. -/
def ambeUnvc (w0 : F) : F := toF (dlit 2046 10000) /ᶠ sqrt w0

/-- `f0 * (float)2 * M_PI` converted to `float`, src/ambe/ambe3600x2450.c:286-286; src/ambe/ambe3600x2400.c:274-274. -/
def ambeW0 (f0 : F) : F := toF ((f0 *ᶠ ofInt 2) *ᵈ mpi)

/-! ## AMBE 2450 -/

/-- The tone classification `tone_verified`, src/ambe/ambe3600x2450.c:195-222. -/
def toneVerified (d : Nat → Int) : Exec Bool := do
  let u0 ← orField d (List.range' 0 12)
  let u1 ← orField d (List.range' 12 12)
  let _u2 ← orField d (List.range' 24 11)
  let u3 ← orField d (List.range' 35 14)
  let c0 := (u0 >>> 6) &&& 0x3f
  let c3 := u3 &&& 0xf
  let hi := (u1 >>> 8) &&& 0xf
  let lo := u1 &&& 0xf
  .ok (c0 == 63 && (c3 == 0 || hi == lo))

/-- The fields `b2 .. b8` of a 2450 frame, src/ambe/ambe3600x2450.c:336-341, 353-362, 368-375, 421-446. -/
def fields2450 (d : Nat → Int) : Exec AmbeFields := do
  let b2 ← orField d [8, 9, 10, 11, 36]
  let b3 ← orField d [12, 13, 14, 15, 16, 17, 18, 19, 40]
  let b4 ← orField d [20, 21, 22, 23, 41, 42, 43]
  let b5 ← orField d [24, 25, 26, 27, 44]
  let b6 ← orField d [28, 29, 30, 45]
  let b7 ← orField d [31, 32, 33, 46]
  let b8 ← orField d [34, 47, 48]
  .ok ⟨b2, b3, b4, b5, b6, b7, b8⟩

/-- Fundamental and `L` of a silence frame (`b0` = 124 or 125) or a voice frame: `f0`, the parameter set and `L`.
src/ambe/ambe3600x2450.c:259-300. -/
def ambe2450Header (b0 : Nat) (cur : Parms F) : Exec (F × Parms F × Int) :=
  if b0 == 124 || b0 == 125 then do
    let f0 : F := fpi /ᶠ lit 32 1
    let L : Nat := if b0 = 124 then 15 else 14
    let Vl ← clearVl L cur.Vl
    .ok (f0, { cur with w0 := f0 *ᶠ toF (dlit 2 1 *ᵈ mpi), L := (L : Int), Vl := Vl }, (L : Int))
  else do
    let f0 : F := ftab (← tab AmbeW0table b0) AmbeW0table_den
    let L ← toI32 (ofInt (← tab AmbeLtable b0) : F)
    .ok (f0, { cur with w0 := ambeW0 f0, L := L }, L)

/-- The part of the decoder after the classification, for a silence frame (`b0` = 124 or 125) or a voice frame,
src/ambe/ambe3600x2450.c:259-596. -/
def ambe2450Voice (lax : Bool) (d : Nat → Int) (b0 : Nat) (cur prev : Parms F) (t : Tls F) : Exec (DecodeRes F) := do
  let h ← ambe2450Header b0 cur
  let cur := h.2.1
  let unvc := ambeUnvc cur.w0
  let b1 ← orField d [4, 5, 6, 7, 35]
  let cur := { cur with Vl := ← ambeVoicing AmbeVuv b1 h.1 (b0 == 124 || b0 == 125) h.2.2 cur.Vl }
  let f ← fields2450 d
  let (cache, t) := ambe2450GetCache t
  let r ← ambeBody lax tabs2450 f h.2.2 unvc cache cur prev
  .ok ⟨0, r.1, r.2, t⟩

/-- `mbe_decodeAmbe2450ParmsInternal`, src/ambe/ambe3600x2450.c:176-597. -/
def decodeAmbe2450 (lax : Bool) (d : Nat → Int) (totalErrors : Int) (cur prev : Parms F) (t : Tls F) :
    Exec (DecodeRes F) := do
  let tone ← toneVerified d
  let cur := { cur with repeat_ := prev.repeat_ }
  let b0 ← orField d [0, 1, 2, 3, 37, 38, 39]
  if tone && decide (totalErrors < 6) then .ok ⟨7, cur, prev, t⟩
  else if b0 ≥ 120 ∧ b0 ≤ 123 then .ok ⟨2, cur, prev, t⟩
  else if b0 = 126 ∨ b0 = 127 then .ok ⟨2, cur, prev, t⟩
  else ambe2450Voice lax d b0 cur prev t

/-- `mbe_decodeAmbe2450Parms`, src/ambe/ambe3600x2450.c:606-609. -/
def decodeAmbe2450Public (lax : Bool) (d : Nat → Int) (cur prev : Parms F) (t : Tls F) : Exec (DecodeRes F) :=
  decodeAmbe2450 lax d (-1) cur prev t

/-- `ambe2450_is_valid_tone_id`, src/ambe/ambe3600x2450.c:76-91. -/
def validToneId (d : Nat → Int) : Exec Bool := do
  let id ← orField d (List.range' 12 8)
  if id = 5 ∨ id = 6 then .ok true
  else if (id ≥ 7 ∧ id ≤ 122) ∨ (id ≥ 128 ∧ id ≤ 163) then .ok true
  else .ok false

/-! ## AMBE 2400 -/

/-- `t7tab`, src/ambe/ambe3600x2400.c:204-204. -/
def t7tab : List Nat := [1, 0, 0, 0, 0, 1, 1, 1]
/-- `t6tab`, src/ambe/ambe3600x2400.c:205-205. -/
def t6tab : List Nat := [0, 0, 0, 1, 1, 1, 1, 0]
/-- `t5tab`, src/ambe/ambe3600x2400.c:206-206. -/
def t5tab : List Nat := [0, 0, 1, 0, 1, 1, 0, 1]

/-- The tone index, src/ambe/ambe3600x2400.c:208-216. -/
def toneIndex2400 (d : Nat → Int) : Exec Nat := do
  let def_ ← orField d [6, 7, 8]
  let t7 ← tab t7tab def_
  let t6 ← tab t6tab def_
  let t5 ← tab t5tab def_
  let low ← orField d [9, 42, 43, 10, 11]
  .ok ((t7 <<< 7) ||| (t6 <<< 6) ||| (t5 <<< 5) ||| low)

/-- The fields `b2 .. b8` of a 2400 frame, src/ambe/ambe3600x2400.c:316-322, 334-343, 349-356, 402-426. -/
def fields2400 (d : Nat → Int) : Exec AmbeFields := do
  let b2 ← orField d [6, 7, 8, 9, 42, 43]
  let b3 ← orField d [10, 11, 12, 13, 14, 15, 16, 44, 45]
  let b4 ← orField d [17, 18, 19, 20, 21, 46, 47]
  let b5 ← orField d [22, 23, 25, 26]
  let b6 ← orField d [27, 28, 29, 30]
  let b7 ← orField d [31, 32, 33, 34]
  let b8 ← orField d [35, 36, 37]
  .ok ⟨b2, b3, b4, b5, b6, b7, b8 <<< 1⟩

/-- `f0 = exp2f(-4.311767578125f - (2.1336e-2f * ((float)b0 + 0.5f)))`, src/ambe/ambe3600x2400.c:273-273. -/
def f0Of2400 (b0 : Nat) : F :=
  exp2 (neg (lit 4311767578125 1000000000000) -ᶠ (lit 21336 1000000 *ᶠ (ofInt (b0 : Int) +ᶠ lit 5 10)))

/-- The voice part of the 2400 decoder, src/ambe/ambe3600x2400.c:273-577. -/
def ambe2400Voice (lax : Bool) (d : Nat → Int) (b0 : Nat) (cur prev : Parms F) (t : Tls F) : Exec (DecodeRes F) := do
  let f0 : F := f0Of2400 b0
  let cur := { cur with w0 := ambeW0 f0 }
  let unvc := ambeUnvc cur.w0
  let L ← toI32 (ofInt (← tab AmbePlusLtable b0) : F)
  let cur := { cur with L := L }
  let b1 ← orField d [38, 39, 40, 41]
  let cur := { cur with Vl := ← ambeVoicing AmbePlusVuv b1 f0 false L cur.Vl }
  let f ← fields2400 d
  let (cache, t) := ambe2400GetCache t
  let r ← ambeBody lax tabs2400 f L unvc cache cur prev
  .ok ⟨0, r.1, r.2, t⟩

/-- `mbe_decodeAmbe2400Parms`, src/ambe/ambe3600x2400.c:157-578. -/
def decodeAmbe2400 (lax : Bool) (d : Nat → Int) (cur prev : Parms F) (t : Tls F) : Exec (DecodeRes F) := do
  let cur := { cur with repeat_ := prev.repeat_ }
  let b0 ← orField d [0, 1, 2, 3, 4, 5, 48]
  if b0 &&& 0x7E = 0x7E then do
    let b1 ← toneIndex2400 d
    if b1 ≥ 5 ∧ b1 ≤ 122 then .ok ⟨(b1 : Int), cur, prev, t⟩
    else if b1 ≥ 128 ∧ b1 ≤ 163 then .ok ⟨3, cur, prev, t⟩
    else do
      let Vl ← clearVl 14 cur.Vl
      .ok ⟨3, { cur with w0 := toF ((ofInt 2 *ᵈ mpi) /ᵈ ofInt 32), L := 14, Vl := Vl }, prev, t⟩
  else ambe2400Voice lax d b0 cur prev t

end Verif.Model
