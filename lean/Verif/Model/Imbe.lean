import Verif.Model.Parms
import Verif.Gen.Imbe

/-!
# Model of the IMBE 4400 parameter decoder and of the 7100x4400 bit reordering
-/

namespace Verif.Model
open Verif Verif.Gen Arith

variable {F : Type} [Arith F]

/-! ## Shared pieces -/

/-- A `float` table entry `n / d` written without the suffix `f`: a `double` constant converted to `float`.
E.g. src/internal/ambe3600x2450_const.h:447-447. -/
def ftab (n : Int) (d : Nat) : F := toF (dlit n d : F)

/-- Argument `(M_PI * (float)(m-1) * ((float)i - 0.5f)) / den` of the table cosines, converted to `float` for `cosf`.
src/imbe/imbe7200x4400.c:100-100, 108-108; src/ambe/ambe3600x2450.c:59-59, 67-67; src/ambe/ambe3600x2400.c:59-59, 67-67. -/
def dctCos (m i : Nat) (den : F) : F :=
  cos (toF (((mpi *ᵈ ofInt ((m : Int) - 1)) *ᵈ (ofInt (i : Int) -ᶠ lit 5 10)) /ᵈ den))

/-- The tables filled by `imbe_get_dct_cache` (src/imbe/imbe7200x4400.c:97-111, with `r = 7`, `n = 11`),
`ambe2450_get_dct_cache` (src/ambe/ambe3600x2450.c:56-70, `r = 9`, `n = 18`) and `ambe_get_dct_cache`
(src/ambe/ambe3600x2400.c:56-70, `r = 9`, `n = 18`). Each loop iteration assigns one element from its indices only; the
remaining elements keep the value zero of static storage. -/
def fillCache (r n : Nat) : DctCache F r n where
  ri := fun m i => if 1 ≤ m.val ∧ 1 ≤ i.val then dctCos m i (fi ((r : Int) - 1)) else fi 0
  idct := fun ji j k => if 1 ≤ j.val ∧ j.val ≤ ji.val ∧ 1 ≤ k.val ∧ k.val ≤ ji.val then dctCos k j (fi (ji.val : Int))
    else fi 0

/-- `cache->ri_cos[m][i]`. src/imbe/imbe7200x4400.c:418-418. -/
def DctCache.rdRi {r n : Nat} (c : DctCache F r n) (m i : Int) : Exec F := do (← c.ri.rd m).rd i

/-- `cache->idct_cos[ji][j][k]`. src/imbe/imbe7200x4400.c:464-464. -/
def DctCache.rdIdct {r n : Nat} (c : DctCache F r n) (ji j k : Int) : Exec F := do (← (← c.idct.rd ji).rd j).rd k

/-- `imbe_get_dct_cache`, src/imbe/imbe7200x4400.c:91-115. -/
def imbeGetCache (t : Tls F) : DctCache F 7 11 × Tls F :=
  match t.imbeCache with
  | some c => (c, t)
  | none => (fillCache 7 11, { t with imbeCache := some (fillCache 7 11) })

/-- `d[i] + 48`, one character of `tmpstr`. E.g. src/imbe/imbe7200x4400.c:293-298. -/
def dig (n : Nat) (d : Nat → Int) (i : Nat) : Exec Int := do .ok ((← rd n d i) + 48)

/-- The string made of the characters at positions `is`, read by `strtol(tmpstr, NULL, 2)`. E.g. src/imbe/imbe7200x4400.c:293-301. -/
def bitsField (n : Nat) (d : Nat → Int) (is : List Nat) : Exec Nat := do
  let cs ← is.mapM (dig n d)
  .ok (strtol2 cs 0)

/-- `w0 = ((float)(4 * M_PI) / (float)((float)b0 + 39.5))`, src/imbe/imbe7200x4400.c:313-313 and
src/imbe/imbe7100x4400.c:275-275. -/
def imbeW0 (b0 : Nat) : F := toF (dofInt 4 *ᵈ mpi) /ᶠ toF (ofInt (b0 : Int) +ᵈ dlit 395 10)

/-- `K` from `L`, src/imbe/imbe7200x4400.c:327-333 and src/imbe/imbe7100x4400.c:281-285. -/
def imbeKOfL (F : Type) [Arith F] (L : Int) : Exec Int :=
  if L < 37 then do toI32 ((ofInt (← i32 (L + 2)) : F) /ᶠ ofInt 3) else .ok 12

/-! ## `mbe_convertImbe7100to7200` -/

/-- Body of the copying `while` loop, src/imbe/imbe7100x4400.c:303-309; state `(tmp_imbe, j, k)`. -/
def convStep (d : Nat → Int) (K : Int) (s : Loc 88 Int × Int × Int) : Exec (Loc 88 Int × Int × Int) := do
  let tmp ← s.1.wr s.2.1 (← rdI 88 d s.2.2)
  let j := s.2.1 + 1
  let j := if j = 48 then j + (K + 2) else j
  let k := s.2.2 + 1
  let k := if k = 42 then k + (K + 2) else k
  .ok (tmp, j, k)

/-- The reordering for a given `K`, src/imbe/imbe7100x4400.c:288-316. The `while (j < 87)` loop is run for 87 steps, each
of which does nothing once `j >= 87`; `j` increases in every step. -/
def convWithK (d : Nat → Int) (K : Int) : Exec (Nat → Int) := do
  let tmp ← Loc.wr (Loc.fresh 88 Int) 87 (← rd 88 d 0)
  let tmp ← tmp.wr (48 + K) (← rd 88 d 42)
  let tmp ← tmp.wr (49 + K) (← rd 88 d 43)
  let s ← loop K.toNat (fun _ (s : Loc 88 Int × Int × Int) => do
    let tmp ← s.1.wr s.2.1 (← rdI 88 d s.2.2)
    .ok (tmp, s.2.1 + 1, s.2.2 + 1)) (tmp, 48, 44)
  let s ← loop 87 (fun _ s => if s.2.1 < 87 then convStep d K s else .ok s) (s.1, 0, 1)
  loop 88 (fun i d => do wr 88 d i (← s.1.rd i)) d

/-- `mbe_convertImbe7100to7200`, src/imbe/imbe7100x4400.c:256-317. -/
def convert7100to7200 (F : Type) [Arith F] (d : Nat → Int) : Exec (Nat → Int) := do
  let b0 ← bitsField 88 d [1, 2, 3, 4, 5, 6, 86, 87]
  let w0 : F := imbeW0 b0
  let L ← imbeLOfW0 w0
  let K ← imbeKOfL F L
  convWithK d K

/-! ## `mbe_decodeImbe4400Parms` -/

/-- A table entry `t[i][j]`. E.g. `AmbePRBA24`, src/ambe/ambe3600x2450.c:349-379. -/
def tab2 {α : Type} (t : List (List α)) (i j : Int) : Exec α := do tabI (← tabI t i) j

/-- Reading the bits into `bb[58][12]`, src/imbe/imbe7200x4400.c:340-349. -/
def imbeReadBits (L9 : Int) (d : Nat → Int) : Exec (Arr 58 (Loc 12 Int)) := do
  let row ← tabI bo L9
  loop 79 (fun k bb => do
    let e ← tab row k
    let bo1 ← tab e 0
    let bo2 ← tab e 1
    Loc.wr2 bb (bo1 : Int) (bo2 : Int) (← rd 88 d (k + 6))) (Loc.fresh2 58 12 Int)

/-- Voicing decisions, src/imbe/imbe7200x4400.c:352-367; state `(Vl, j, k)`. -/
def imbeVoicing (bb : Arr 58 (Loc 12 Int)) (L K : Int) (Vl : Arr 57 Int) : Exec (Arr 57 Int) := do
  let s ← loopFT 1 L.toNat (fun i (s : Arr 57 Int × Int × Int) => do
    let v ← Loc.rd2 bb 1 s.2.2
    let Vl ← s.1.wr i (v % 256)
    if s.2.1 = 3 then .ok (Vl, 1, if s.2.2 > 0 then s.2.2 - 1 else 0)
    else .ok (Vl, s.2.1 + 1, s.2.2)) (Vl, 1, K - 1)
  .ok s.1

/-- The characters `bb[row][n-1] + 48, ..., bb[row][0] + 48` in `tmpstr[13]`, terminated at `tmpstr[n]`, and their value.
src/imbe/imbe7200x4400.c:370-377, 393-399, 437-445. The check stands for the subscript of the terminator (and
hence of every character) being inside `tmpstr`; a negative `n` would put it before the array. -/
def bbField (bb : Arr 58 (Loc 12 Int)) (row n : Int) : Exec Nat := do
  if 0 ≤ n ∧ n < 13 then do
    let cs ← loopDown n.toNat (fun j cs => do .ok (cs ++ [(← Loc.rd2 bb row j) + 48])) []
    .ok (strtol2 cs 0)
  else .error .oobWrite

/-- `G1 .. G6`, src/imbe/imbe7200x4400.c:370-406. -/
def imbeGm (bb : Arr 58 (Loc 12 Int)) (L9 : Int) : Exec (Loc 7 F) := do
  let b2 ← bbField bb 2 6
  let Gm ← Loc.wr (Loc.fresh 7 F) 1 (ftab (← tabI B2 b2) B2_den)
  let row ← tabI ba L9
  loopFT 2 6 (fun i Gm => do
    let e ← tab row (i - 2)
    let ba1 : F := ftab (← tab e 0) ba_den
    let ba2 : F := ftab (← tab e 1) ba_den
    let n ← toI32 ba1
    let bm ← bbField bb ((i : Int) + 1) n
    Loc.wr Gm i (ba2 *ᶠ ((ofInt (bm : Int) -ᶠ exp2 (ba1 -ᶠ lit 1 1)) +ᶠ lit 5 10))) Gm

/-- The weight `am`/`ak`: 1 for the first coefficient, 2 otherwise. src/imbe/imbe7200x4400.c:413-417, 459-463. -/
def dctWeight (m : Nat) : F := ofInt (if m = 1 then 1 else 2)

/-- `Ri`, src/imbe/imbe7200x4400.c:408-427 (`n = 6`) and the corresponding loops src/ambe/ambe3600x2450.c:386-402,
src/ambe/ambe3600x2400.c:367-383 (`n = 8`). -/
def idctRi {r n : Nat} (cache : DctCache F r n) (N : Nat) (Gm : Loc r F) : Exec (Loc r F) :=
  loopFT 1 N (fun i Ri => do
    let sum ← loopFT 1 N (fun m sum => do
      let g ← Gm.rd m
      let c ← cache.rdRi m i
      .ok (sum +ᶠ ((dctWeight m *ᶠ g) *ᶠ c))) (fi 0)
    Ri.wr i sum) (Loc.fresh r F)

/-- Higher-order coefficients `Ci,k`, src/imbe/imbe7200x4400.c:432-450; state `(Cik, m)`. -/
def imbeCik (bb : Arr 58 (Loc 12 Int)) (L9 : Int) (Ri : Loc 7 F) : Exec (Arr 7 (Loc 11 F)) := do
  let s ← loopFT 1 6 (fun i (s : Arr 7 (Loc 11 F) × Int) => do
    let C ← Loc.wr2 s.1 i 1 (← Ri.rd i)
    let Ji ← tab2 ImbeJi L9 ((i : Int) - 1)
    loopFT 2 Ji (fun k (s : Arr 7 (Loc 11 F) × Int) => do
      let Bm ← tab2 hoba L9 (s.2 - 8)
      if Bm = 0 then do
        .ok (← Loc.wr2 s.1 i k (fi 0), s.2 + 1)
      else do
        let bm ← bbField bb s.2 Bm
        let q : F := ftab (← tabI quantstep ((Bm : Int) - 1)) quantstep_den
        let sd : F := ftab (← tabI standdev ((k : Int) - 2)) standdev_den
        let v : F := (q *ᶠ sd) *ᶠ ((ofInt (bm : Int) -ᶠ exp2 (ofInt (Bm : Int) -ᶠ lit 1 1)) +ᶠ lit 5 10)
        .ok (← Loc.wr2 s.1 i k v, s.2 + 1)) (C, s.2)) (Loc.fresh2 7 11 F, 8)
  .ok s.1

/-- Inverse DCT of one block, with rows `C[i][1..ji]`: fills `Tl[l..]`; state `(Tl, l)`.
src/imbe/imbe7200x4400.c:456-468; src/ambe/ambe3600x2450.c:509-527; src/ambe/ambe3600x2400.c:490-508. -/
def idctBlock {r n a b : Nat} (cache : DctCache F r n) (C : Arr a (Loc b F)) (i ji : Nat) (s : Arr 57 F × Int) :
    Exec (Arr 57 F × Int) :=
  loopFT 1 ji (fun j (s : Arr 57 F × Int) => do
    let sum ← loopFT 1 ji (fun k sum => do
      let c ← Loc.rd2 C i k
      let w ← cache.rdIdct ji j k
      .ok (sum +ᶠ ((dctWeight k *ᶠ c) *ᶠ w))) (fi 0)
    .ok (← s.1.wr s.2 sum, s.2 + 1)) s

/-- `Tl`, src/imbe/imbe7200x4400.c:452-469. -/
def imbeTl (cache : DctCache F 7 11) (L9 : Int) (C : Arr 7 (Loc 11 F)) : Exec (Arr 57 F) := do
  let s ← loopFT 1 6 (fun i s => do
    let ji ← tab2 ImbeJi L9 ((i : Int) - 1)
    idctBlock cache C i ji s) (Arr.const 57 (fi 0), 1)
  .ok s.1

/-- `rho`, src/imbe/imbe7200x4400.c:475-481. -/
def imbeRho (L : Int) : F :=
  if L ≤ 15 then toF (dlit 4 10)
  else if L ≤ 24 then toF ((dlit 3 100 *ᵈ ofInt L) -ᵈ dlit 5 100)
  else toF (dlit 7 10)

/-- Extension of the previous frame when `L > L(-1)`, src/imbe/imbe7200x4400.c:484-489;
src/ambe/ambe3600x2450.c:533-538; src/ambe/ambe3600x2400.c:514-519. A negative `prev_mp->L` would start the loop at a
non-positive subscript; the subscript of the source element is then out of range already. -/
def extendPrev (L : Int) (prev : Parms F) : Exec (Parms F) :=
  if L > prev.L then
    loop (L - prev.L).toNat (fun n prev => do
      let l := prev.L + 1 + n
      let Ml ← prev.Ml.wr l (← prev.Ml.rd prev.L)
      let lg ← prev.log2Ml.wr l (← prev.log2Ml.rd prev.L)
      .ok { prev with Ml := Ml, log2Ml := lg }) prev
  else .ok prev

/-- `flokl[l] = ((float)prev_mp->L / (float)cur_mp->L) * (float)l`, src/imbe/imbe7200x4400.c:496-496;
src/ambe/ambe3600x2450.c:547-547; src/ambe/ambe3600x2400.c:528-528. -/
def flokl (prevL L : Int) (l : Nat) : F := (ofInt prevL /ᶠ ofInt L) *ᶠ ofInt (l : Int)

/-- Part 1 of the prediction: fills `intkl[57]` and `deltal[57]` and accumulates the sum of eq. 77.
src/imbe/imbe7200x4400.c:492-509. -/
def imbePredict1 (lax : Bool) (L : Int) (prev : Parms F) : Exec (Loc 57 Int × Loc 57 F × F) :=
  loopFT 1 L.toNat (fun l (s : Loc 57 Int × Loc 57 F × F) => do
    let kl : F := flokl prev.L L l
    let ik ← toI32 kl
    let intkl ← s.1.wr l ik
    let dl := kl -ᶠ ofInt ik
    let deltal ← s.2.1.wr l dl
    let a ← rdLog2 lax prev ik
    let b ← rdLog2 lax prev (ik + 1)
    .ok (intkl, deltal, s.2.2 +ᶠ (((ofInt 1 -ᶠ dl) *ᶠ a) +ᶠ (dl *ᶠ b)))) (Loc.fresh 57 Int, Loc.fresh 57 F, fi 0)

/-- Part 2 of the prediction, src/imbe/imbe7200x4400.c:517-526. -/
def imbePredict2 (lax : Bool) (L : Int) (prev : Parms F) (intkl : Loc 57 Int) (deltal : Loc 57 F) (rho sum77 : F)
    (Tl : Arr 57 F) (cur : Parms F) : Exec (Parms F) :=
  loopFT 1 L.toNat (fun l cur => do
    let dl ← deltal.rd l
    let ik ← intkl.rd l
    let c1 := (rho *ᶠ (ofInt 1 -ᶠ dl)) *ᶠ (← rdLog2 lax prev ik)
    let c2 := (rho *ᶠ dl) *ᶠ (← rdLog2 lax prev (ik + 1))
    let v := ((((← Tl.rd l) +ᶠ c1) +ᶠ c2) -ᶠ sum77)
    .ok { cur with log2Ml := ← cur.log2Ml.wr l v, Ml := ← cur.Ml.wr l (exp2 v) }) cur

/-- Result of a parameter decoder: its return value and the objects it may modify.
The out parameters at include/mbelib-neo/mbelib.h:187-187, 244-244, 298-298. -/
structure DecodeRes (F : Type) where
  bad : Int
  cur : Parms F
  prev : Parms F
  tls : Tls F

/-- The part of `mbe_decodeImbe4400Parms` after `L` and `K` are known, src/imbe/imbe7200x4400.c:340-528. -/
def imbeDecodeBody (lax : Bool) (d : Nat → Int) (L K : Int) (cur prev : Parms F) (t : Tls F) :
    Exec (DecodeRes F) := do
  let L9 := L - 9
  let bb ← imbeReadBits L9 d
  let cur := { cur with Vl := ← imbeVoicing bb L K cur.Vl }
  let Gm ← imbeGm bb L9
  let (cache, t) := imbeGetCache t
  let Ri ← idctRi cache 6 Gm
  let C ← imbeCik bb L9 Ri
  let Tl ← imbeTl cache L9 C
  let rho : F := imbeRho L
  let prev ← extendPrev L prev
  let p ← imbePredict1 lax L prev
  let sum77 := (rho /ᶠ ofInt L) *ᶠ p.2.2
  let cur ← imbePredict2 lax L prev p.1 p.2.1 rho sum77 Tl cur
  .ok ⟨0, cur, prev, t⟩

/-- `mbe_decodeImbe4400Parms`, src/imbe/imbe7200x4400.c:275-529. -/
def decodeImbe4400 (lax : Bool) (d : Nat → Int) (cur prev : Parms F) (t : Tls F) : Exec (DecodeRes F) := do
  let cur := { cur with repeat_ := prev.repeat_ }
  let b0 ← bitsField 88 d [0, 1, 2, 3, 4, 5, 85, 86]
  if b0 > 207 then .ok ⟨1, cur, prev, t⟩
  else do
    let cur := { cur with w0 := imbeW0 b0 }
    let L ← imbeLOfW0 cur.w0
    if L > 56 ∨ L < 9 then .ok ⟨1, cur, prev, t⟩
    else do
      let K ← imbeKOfL F L
      imbeDecodeBody lax d L K { cur with L := L, K := K } prev t

end Verif.Model
