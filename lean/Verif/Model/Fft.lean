import Verif.Arr
import Verif.Num.Arith

/-!
# Model of the transform of 256 floats

`src/external/pffft/pffft.c` in the build with `PFFFT_SIMD_DISABLE` (the default: CMakeLists.txt:152-154), where `v4sf` is
`float` and `SIMD_SZ` is 1, as far as `src/core/mbe_unvoiced_fft.c` uses it: a real transform of 256 points, ordered, with
three different buffers. 256 has only the factor 4, so the passes for the factors 2, 3 and 5 are left out; reaching one of
them would give the outcome `notModelled`. A failing `assert` gives `assertFail`. The setup of the twiddle factors and the
passes take the sizes of their blocks as arguments: the build with SIMD (`Verif.Model.FftVec`) runs the same text on other
blocks.
-/

namespace Verif.Model
open Verif Arith

variable {F : Type} [Arith F]

/-- `assert(c)`. E.g. src/external/pffft/pffft.c:1116-1116, 1210-1210, 1897-1905. -/
def assertC (c : Bool) : Exec Unit := if c then .ok () else .error .assertFail

/-! ## Setup -/

/-- State of `decompose`: `nl`, `nf`, `ifac`. src/external/pffft/pffft.c:1203-1203. -/
structure Dec where
  nl : Int
  nf : Int
  ifac : Loc 25 Int

/-- The loop that moves the factors up to make room for a 2 at the front, src/external/pffft/pffft.c:1214-1217. -/
def shiftFactors (nf : Int) (ifac : Loc 25 Int) : Exec (Loc 25 Int) :=
  loop (nf - 1).toNat (fun t ifac => do
    let ib := nf - ((t : Int) + 2) + 2
    ifac.wr (ib + 1) (← ifac.rd ib)) ifac

/-- `while (nl != 1)`, src/external/pffft/pffft.c:1206-1223, for at most `fuel` rounds. -/
def tryFactor (ntry : Int) : (fuel : Nat) → Dec → Exec Dec
  | 0, _ => .error .notModelled
  | fuel + 1, s =>
    if s.nl = 1 then .ok s
    else do
      let nq := Int.tdiv s.nl ntry
      let nr := s.nl - ntry * nq
      if nr = 0 then do
        assertC (2 + s.nf < 25)
        let ifac ← s.ifac.wr (2 + s.nf) ntry
        let nf := s.nf + 1
        let ifac ← (if ntry = 2 ∧ nf ≠ 1 then do
          let ifac ← shiftFactors nf ifac
          ifac.wr 2 2
        else .ok ifac)
        tryFactor ntry fuel { nl := nq, nf := nf, ifac := ifac }
      else .ok s

/-- `decompose`, src/external/pffft/pffft.c:1201-1228, with `ntryh` = 4, 2, 3, 5, 0 (line 1232): `nf` and `ifac`. -/
def decompose (n : Int) (ifac : Loc 25 Int) : Exec (Int × Loc 25 Int) := do
  let s : Dec := { nl := n, nf := 0, ifac := ifac }
  let s ← tryFactor 4 64 s
  let s ← tryFactor 2 64 s
  let s ← tryFactor 3 64 s
  let s ← tryFactor 5 64 s
  let ifac ← s.ifac.wr 0 n
  let ifac ← ifac.wr 1 s.nf
  .ok (s.nf, ifac)

/-- State of the loops of `rffti1_ps`. src/external/pffft/pffft.c:1234-1240. -/
structure TwSt (F : Type) (w : Nat := 256) where
  wa : Loc w F
  is : Int
  ld : Int
  l1 : Int

/-- The loop over `ii`, src/external/pffft/pffft.c:1251-1256: one row of twiddle factors from `wa[is]` on. -/
def twiddleRow {w : Nat} (ido is : Int) (argld : F) (wa : Loc w F) : Exec (Loc w F) :=
  loop ((ido - 1) / 2).toNat (fun t wa => do
    let i := is + 2 * ((t : Int) + 1)
    let x : F := ofInt ((t : Int) + 1) *ᶠ argld
    let wa ← wa.wr (i - 2) (toF (cos x))
    wa.wr (i - 1) (toF (sin x))) wa

/-- `rffti1_ps`, src/external/pffft/pffft.c:1230-1261: the factors and the twiddle factors. -/
def rffti1 {w : Nat} (n : Int) (wa : Loc w F) (ifac : Loc 25 Int) : Exec (Loc w F × Loc 25 Int) := do
  let (nf, ifac) ← decompose n ifac
  let argh : F := toF ((dofInt 2 *ᵈ mpi) /ᵈ dofInt n)
  let s ← loop (nf - 1).toNat (fun k (s : TwSt F w) => do
    let ip ← ifac.rd ((k : Int) + 2)
    let l2 := s.l1 * ip
    let ido := Int.tdiv n l2
    let s ← loop (ip - 1).toNat (fun _ (s : TwSt F w) => do
      let ld := s.ld + s.l1
      let argld : F := ofInt ld *ᶠ argh
      let wa ← twiddleRow ido s.is argld s.wa
      .ok { s with wa := wa, ld := ld, is := s.is + ido }) { s with ld := 0 }
    .ok { s with l1 := l2 }) { wa := wa, is := 0, ld := 0, l1 := 1 }
  .ok (s.wa, ifac)

/-- `struct PFFFT_Setup`, src/external/pffft/pffft.c:1349-1358, for a real transform; `e` is not used without SIMD. -/
structure Setup (F : Type) where
  N : Int
  Ncvec : Int
  ifac : Loc 25 Int
  twiddle : Loc 256 F

/-- `pffft_new_setup(256, PFFFT_REAL)` with both allocations granted, src/external/pffft/pffft.c:1360-1417; `none` is the
null pointer. The blocks come uninitialised; the loop over `m` (1394-1398) is empty since `SIMD_SZ - 1` is 0, and
`twiddle` starts at `data` (1389), which has room for 256 floats (1387). -/
def newSetup256 : Exec (Option (Setup F)) := do
  assertC ((256 : Int) % 2 = 0)
  let r ← rffti1 256 (Loc.fresh 256 F) (Loc.fresh 25 Int)
  let nf ← r.2.rd 1
  let m ← loop nf.toNat (fun k (m : Int) => do .ok (m * (← r.2.rd (2 + (k : Int))))) 1
  if m ≠ 256 then .ok none else .ok (some { N := 256, Ncvec := 128, ifac := r.2, twiddle := r.1 })

/-! ## Forward -/

/-- `minus_hsqt2`, src/external/pffft/pffft.c:751-751. -/
def minusHsqt2 : F := toF (dlit (-7071067811865475) 10000000000000000)

/-- `minus_sqrt2`, src/external/pffft/pffft.c:839-839. -/
def minusSqrt2 : F := toF (dlit (-1414213562373095) 1000000000000000)

/-- `VCPLXMULCONJ`, src/external/pffft/pffft.c:264-272: the new `ar` and `ai`. -/
def mulConj (ar ai br bi : F) : F × F :=
  let tmp := ar *ᶠ bi
  let ar := ar *ᶠ br
  let ar := ar +ᶠ (ai *ᶠ bi)
  let ai := ai *ᶠ br
  (ar, ai -ᶠ tmp)

/-- `VCPLXMUL`, src/external/pffft/pffft.c:255-263: the new `ar` and `ai`. -/
def mulCplx (ar ai br bi : F) : F × F :=
  let tmp := ar *ᶠ bi
  let ar := ar *ᶠ br
  let ar := ar -ᶠ (ai *ᶠ bi)
  let ai := ai *ᶠ br
  (ar, ai +ᶠ tmp)

/-- One round of the first loop of `radf4_ps`, src/external/pffft/pffft.c:756-768; `c0` and `h0` are the offsets of the
moving pointers `cc` and `ch`. -/
def radf4Ends {n : Nat} (ido l1ido : Int) (cc : Loc n F) (c0 h0 : Int) (ch : Loc n F) : Exec (Loc n F) := do
  let a0 ← cc.rd c0
  let a1 ← cc.rd (c0 + l1ido)
  let a2 ← cc.rd (c0 + 2 * l1ido)
  let a3 ← cc.rd (c0 + 3 * l1ido)
  let tr1 := a1 +ᶠ a3
  let tr2 := a0 +ᶠ a2
  let ch ← ch.wr (h0 + (2 * ido - 1)) (a0 -ᶠ a2)
  let ch ← ch.wr (h0 + 2 * ido) (a3 -ᶠ a1)
  let ch ← ch.wr h0 (tr1 +ᶠ tr2)
  ch.wr (h0 + (4 * ido - 1)) (tr2 -ᶠ tr1)

/-- One round of the inner loop over `i` of `radf4_ps`, src/external/pffft/pffft.c:778-819; `p` is the offset of `pc`,
`w1`, `w2`, `w3` those of `wa1`, `wa2`, `wa3`. -/
def radf4Mid {n w : Nat} (ido l1ido : Int) (cc : Loc n F) (wa : Loc w F) (w1 w2 w3 k i p : Int) (ch : Loc n F) : Exec (Loc n F) := do
  let ic := ido - i
  let c2 := mulConj (← cc.rd (p + (1 * l1ido + 0))) (← cc.rd (p + (1 * l1ido + 1))) (← wa.rd (w1 + (i - 2))) (← wa.rd (w1 + (i - 1)))
  let c3 := mulConj (← cc.rd (p + (2 * l1ido + 0))) (← cc.rd (p + (2 * l1ido + 1))) (← wa.rd (w2 + (i - 2))) (← wa.rd (w2 + (i - 1)))
  let c4 := mulConj (← cc.rd (p + 3 * l1ido)) (← cc.rd (p + (3 * l1ido + 1))) (← wa.rd (w3 + (i - 2))) (← wa.rd (w3 + (i - 1)))
  let pc0 ← cc.rd (p + 0)
  let tr1 := c2.1 +ᶠ c4.1
  let tr4 := c4.1 -ᶠ c2.1
  let tr2 := pc0 +ᶠ c3.1
  let tr3 := pc0 -ᶠ c3.1
  let ch ← ch.wr (i - 1 + 4 * k) (tr1 +ᶠ tr2)
  let ch ← ch.wr (ic - 1 + 4 * k + 3 * ido) (tr2 -ᶠ tr1)
  let ti1 := c2.2 +ᶠ c4.2
  let ti4 := c2.2 -ᶠ c4.2
  let ch ← ch.wr (i - 1 + 4 * k + 2 * ido) (ti4 +ᶠ tr3)
  let ch ← ch.wr (ic - 1 + 4 * k + 1 * ido) (tr3 -ᶠ ti4)
  let pc1 ← cc.rd (p + 1)
  let ti2 := pc1 +ᶠ c3.2
  let ti3 := pc1 -ᶠ c3.2
  let ch ← ch.wr (i + 4 * k) (ti1 +ᶠ ti2)
  let ch ← ch.wr (ic + 4 * k + 3 * ido) (ti1 -ᶠ ti2)
  let ch ← ch.wr (i + 4 * k + 2 * ido) (tr4 +ᶠ ti3)
  ch.wr (ic + 4 * k + 1 * ido) (tr4 -ᶠ ti3)

/-- One round of the last loop of `radf4_ps`, src/external/pffft/pffft.c:825-834. -/
def radf4Half {n : Nat} (ido l1ido : Int) (cc : Loc n F) (k : Int) (ch : Loc n F) : Exec (Loc n F) := do
  let a ← cc.rd (ido - 1 + k + l1ido)
  let b ← cc.rd (ido - 1 + k + 3 * l1ido)
  let c ← cc.rd (ido - 1 + k)
  let d ← cc.rd (ido - 1 + k + 2 * l1ido)
  let ti1 := minusHsqt2 *ᶠ (a +ᶠ b)
  let tr1 := minusHsqt2 *ᶠ (b -ᶠ a)
  let ch ← ch.wr (ido - 1 + 4 * k) (tr1 +ᶠ c)
  let ch ← ch.wr (ido - 1 + 4 * k + 2 * ido) (c -ᶠ tr1)
  let ch ← ch.wr (4 * k + 1 * ido) (ti1 -ᶠ d)
  ch.wr (4 * k + 3 * ido) (ti1 +ᶠ d)

/-- `radf4_ps`, src/external/pffft/pffft.c:749-835: the new contents of `ch`. The loop `while (cc < cc_end)` steps by `ido`
up to `l1 * ido`, so it has `l1` rounds, like the loops over `k`; `ido` and `l1` are positive. -/
def radf4 {n w : Nat} (ido l1 : Int) (cc : Loc n F) (wa : Loc w F) (w1 w2 w3 : Int) (ch : Loc n F) : Exec (Loc n F) := do
  let l1ido := l1 * ido
  let ch ← loop l1.toNat (fun t ch => radf4Ends ido l1ido cc ((t : Int) * ido) ((t : Int) * (4 * ido)) ch) ch
  if ido < 2 then .ok ch
  else do
    let ch ← (if ido ≠ 2 then
      loop l1.toNat (fun t ch => do
        let k := (t : Int) * ido
        loop ((ido - 1) / 2).toNat (fun u ch =>
          radf4Mid ido l1ido cc wa w1 w2 w3 k (2 * (u : Int) + 2) (1 + k + 2 * (u : Int)) ch) ch) ch
    else .ok ch)
    if ido ≠ 2 ∧ ido % 2 = 1 then .ok ch
    else loop l1.toNat (fun t ch => radf4Half ido l1ido cc ((t : Int) * ido) ch) ch

/-! ## Backward -/

/-- One round of the first loop of `radb4_ps`, src/external/pffft/pffft.c:846-860; `c0` and `h0` are the offsets of the
moving pointers. -/
def radb4Ends {n : Nat} (ido l1ido : Int) (cc : Loc n F) (c0 h0 : Int) (ch : Loc n F) : Exec (Loc n F) := do
  let a ← cc.rd c0
  let b ← cc.rd (c0 + (4 * ido - 1))
  let c ← cc.rd (c0 + 2 * ido)
  let d ← cc.rd (c0 + (2 * ido - 1))
  let tr3 := fi 2 *ᶠ d
  let tr2 := a +ᶠ b
  let tr1 := a -ᶠ b
  let tr4 := fi 2 *ᶠ c
  let ch ← ch.wr (h0 + 0 * l1ido) (tr2 +ᶠ tr3)
  let ch ← ch.wr (h0 + 2 * l1ido) (tr2 -ᶠ tr3)
  let ch ← ch.wr (h0 + 1 * l1ido) (tr1 -ᶠ tr4)
  ch.wr (h0 + 3 * l1ido) (tr1 +ᶠ tr4)

/-- One round of the inner loop over `i` of `radb4_ps`, src/external/pffft/pffft.c:871-905; `p` and `h` are the offsets of
`pc` and of `ph` at the start of the round, which ends with `ph` two further. The pointer `pc` itself is formed as
`cc - 1 + 4 * k` (869), before the start of the block for `k = 0`; only accesses are checked here. -/
def radb4Mid {n w : Nat} (ido l1ido : Int) (cc : Loc n F) (wa : Loc w F) (w1 w2 w3 i p h : Int) (ch : Loc n F) : Exec (Loc n F) := do
  let x1 ← cc.rd (p + i)
  let x2 ← cc.rd (p + (4 * ido - i))
  let tr1 := x1 -ᶠ x2
  let tr2 := x1 +ᶠ x2
  let x3 ← cc.rd (p + (2 * ido + i))
  let x4 ← cc.rd (p + (2 * ido - i))
  let ti4 := x3 -ᶠ x4
  let tr3 := x3 +ᶠ x4
  let ch ← ch.wr (h + 0) (tr2 +ᶠ tr3)
  let cr3 := tr2 -ᶠ tr3
  let y3 ← cc.rd (p + (2 * ido + i + 1))
  let y4 ← cc.rd (p + (2 * ido - i + 1))
  let ti3 := y3 -ᶠ y4
  let tr4 := y3 +ᶠ y4
  let cr2 := tr1 -ᶠ tr4
  let cr4 := tr1 +ᶠ tr4
  let y1 ← cc.rd (p + (i + 1))
  let y2 ← cc.rd (p + (4 * ido - i + 1))
  let ti1 := y1 +ᶠ y2
  let ti2 := y1 -ᶠ y2
  let ch ← ch.wr (h + 1) (ti2 +ᶠ ti3)
  let h1 := h + l1ido
  let ci3 := ti2 -ᶠ ti3
  let ci2 := ti1 +ᶠ ti4
  let ci4 := ti1 -ᶠ ti4
  let c2 := mulCplx cr2 ci2 (← wa.rd (w1 + (i - 2))) (← wa.rd (w1 + (i - 1)))
  let ch ← ch.wr (h1 + 0) c2.1
  let ch ← ch.wr (h1 + 1) c2.2
  let h2 := h1 + l1ido
  let c3 := mulCplx cr3 ci3 (← wa.rd (w2 + (i - 2))) (← wa.rd (w2 + (i - 1)))
  let ch ← ch.wr (h2 + 0) c3.1
  let ch ← ch.wr (h2 + 1) c3.2
  let h3 := h2 + l1ido
  let c4 := mulCplx cr4 ci4 (← wa.rd (w3 + (i - 2))) (← wa.rd (w3 + (i - 1)))
  let ch ← ch.wr (h3 + 0) c4.1
  ch.wr (h3 + 1) c4.2

/-- One round of the last loop of `radb4_ps`, src/external/pffft/pffft.c:911-923. -/
def radb4Half {n : Nat} (ido l1ido : Int) (cc : Loc n F) (k : Int) (ch : Loc n F) : Exec (Loc n F) := do
  let i0 := 4 * k + ido
  let c ← cc.rd (i0 - 1)
  let d ← cc.rd (i0 + 2 * ido - 1)
  let a ← cc.rd (i0 + 0)
  let b ← cc.rd (i0 + 2 * ido + 0)
  let tr1 := c -ᶠ d
  let tr2 := c +ᶠ d
  let ti1 := b +ᶠ a
  let ti2 := b -ᶠ a
  let ch ← ch.wr (ido - 1 + k + 0 * l1ido) (tr2 +ᶠ tr2)
  let ch ← ch.wr (ido - 1 + k + 1 * l1ido) (minusSqrt2 *ᶠ (ti1 -ᶠ tr1))
  let ch ← ch.wr (ido - 1 + k + 2 * l1ido) (ti2 +ᶠ ti2)
  ch.wr (ido - 1 + k + 3 * l1ido) (minusSqrt2 *ᶠ (ti1 +ᶠ tr1))

/-- `radb4_ps`, src/external/pffft/pffft.c:837-924: the new contents of `ch`. -/
def radb4 {n w : Nat} (ido l1 : Int) (cc : Loc n F) (wa : Loc w F) (w1 w2 w3 : Int) (ch : Loc n F) : Exec (Loc n F) := do
  let l1ido := l1 * ido
  let ch ← loop l1.toNat (fun t ch => radb4Ends ido l1ido cc ((t : Int) * (4 * ido)) ((t : Int) * ido) ch) ch
  if ido < 2 then .ok ch
  else do
    let ch ← (if ido ≠ 2 then
      loop l1.toNat (fun t ch => do
        let k := (t : Int) * ido
        loop ((ido - 1) / 2).toNat (fun u ch =>
          radb4Mid ido l1ido cc wa w1 w2 w3 (2 * (u : Int) + 2) (-1 + 4 * k) (k + 1 + 2 * (u : Int)) ch) ch) ch
    else .ok ch)
    if ido ≠ 2 ∧ ido % 2 = 1 then .ok ch
    else loop l1.toNat (fun t ch => radb4Half ido l1ido cc ((t : Int) * ido) ch) ch

/-! ## Passes over three buffers -/

/-- The buffers of one transform; different tags are different blocks of memory (`plan->Uw`, `plan->Uw_fft` and
`plan->work` forward, `plan->Uw_fft`, `plan->Uw_out` and `plan->work` backward, src/core/mbe_unvoiced_fft.c:702-702 and
src/core/mbe_unvoiced_fft.c:748-748). -/
inductive Buf
  | input
  | output
  | scratch
  deriving DecidableEq, Repr

/-- Contents of the buffers. The blocks that src/external/pffft/pffft.c:2046-2103 works on. -/
abbrev Mem (F : Type) (n : Nat := 256) := Buf → Loc n F

/-- The memory after the block `b` got new contents. Every store of src/external/pffft/pffft.c:2046-2103. -/
def Mem.put {n : Nat} (μ : Mem F n) (b : Buf) (v : Loc n F) : Mem F n := fun c => if c = b then v else μ c

/-- State of the loop over the factors. src/external/pffft/pffft.c:1112-1120, 1157-1165. -/
structure PassSt (F : Type) (n : Nat := 256) where
  μ : Mem F n
  inp : Buf
  out : Buf
  l : Int
  iw : Int

/-- One round of the loop of `rfftf1_ps`, src/external/pffft/pffft.c:1117-1150, with `k1 = t + 1`. -/
def rfftf1Step {sz w : Nat} (n : Int) (work1 work2 : Buf) (wa : Loc w F) (ifac : Loc 25 Int) (nf : Int) (t : Nat) (s : PassSt F sz) :
    Exec (PassSt F sz) := do
  let kh := nf - ((t : Int) + 1)
  let ip ← ifac.rd (kh + 2)
  let l1 := Int.tdiv s.l ip
  let ido := Int.tdiv n s.l
  let iw := s.iw - (ip - 1) * ido
  let μ ← (if ip = 4 then do
      let ix2 := iw + ido
      let ix3 := ix2 + ido
      .ok (s.μ.put s.out (← radf4 ido l1 (s.μ s.inp) wa iw ix2 ix3 (s.μ s.out)))
    else .error .notModelled)
  if s.out = work2 then .ok { μ := μ, inp := work2, out := work1, l := l1, iw := iw }
  else .ok { μ := μ, inp := work1, out := work2, l := l1, iw := iw }

/-- `rfftf1_ps`, src/external/pffft/pffft.c:1109-1152: the memory and the block that holds the result. -/
def rfftf1 {sz w : Nat} (n : Int) (input work1 work2 : Buf) (wa : Loc w F) (ifac : Loc 25 Int) (μ : Mem F sz) : Exec (Mem F sz × Buf) := do
  let out := if input = work2 then work1 else work2
  let nf ← ifac.rd 1
  assertC (input ≠ out && work1 ≠ work2)
  let s ← loop nf.toNat (rfftf1Step n work1 work2 wa ifac nf) { μ := μ, inp := input, out := out, l := n, iw := n - 1 }
  .ok (s.μ, s.inp)

/-- One round of the loop of `rfftb1_ps`, src/external/pffft/pffft.c:1162-1195, with `k1 = t + 1`. -/
def rfftb1Step {sz w : Nat} (n : Int) (work1 work2 : Buf) (wa : Loc w F) (ifac : Loc 25 Int) (t : Nat) (s : PassSt F sz) :
    Exec (PassSt F sz) := do
  let ip ← ifac.rd ((t : Int) + 1 + 1)
  let l2 := ip * s.l
  let ido := Int.tdiv n l2
  let μ ← (if ip = 4 then do
      let ix2 := s.iw + ido
      let ix3 := ix2 + ido
      .ok (s.μ.put s.out (← radb4 ido s.l (s.μ s.inp) wa s.iw ix2 ix3 (s.μ s.out)))
    else .error .notModelled)
  let iw := s.iw + (ip - 1) * ido
  if s.out = work2 then .ok { μ := μ, inp := work2, out := work1, l := l2, iw := iw }
  else .ok { μ := μ, inp := work1, out := work2, l := l2, iw := iw }

/-- `rfftb1_ps`, src/external/pffft/pffft.c:1154-1197: the memory and the block that holds the result. -/
def rfftb1 {sz w : Nat} (n : Int) (input work1 work2 : Buf) (wa : Loc w F) (ifac : Loc 25 Int) (μ : Mem F sz) : Exec (Mem F sz × Buf) := do
  let out := if input = work2 then work1 else work2
  let nf ← ifac.rd 1
  assertC (input ≠ out)
  let s ← loop nf.toNat (rfftb1Step n work1 work2 wa ifac) { μ := μ, inp := input, out := out, l := 1, iw := 0 }
  .ok (s.μ, s.inp)

/-- `pffft_zreorder` forward, src/external/pffft/pffft.c:2026-2032: the new contents of `out`. -/
def zreorderFwd (N : Int) (inp out : Loc 256 F) : Exec (Loc 256 F) := do
  let xN ← inp.rd (N - 1)
  let out ← loop (N - 2).toNat (fun t out => do
    let k := N - 1 - (t : Int)
    out.wr k (← inp.rd (k - 1))) out
  let out ← out.wr 0 (← inp.rd 0)
  out.wr 1 xN

/-- `pffft_zreorder` backward, src/external/pffft/pffft.c:2033-2040: the new contents of `out`. -/
def zreorderBwd (N : Int) (inp out : Loc 256 F) : Exec (Loc 256 F) := do
  let xN ← inp.rd 1
  let out ← loop (N - 2).toNat (fun t out => do
    let k := (t : Int) + 1
    out.wr k (← inp.rd (k + 1))) out
  let out ← out.wr 0 (← inp.rd 0)
  out.wr (N - 1) xN

/-- The block `buff[ib]`, src/external/pffft/pffft.c:2059-2060. -/
def buff (ib : Bool) : Buf := if ib then .scratch else .output

/-- The copy at the end, src/external/pffft/pffft.c:2091-2101, and the `assert` after it. -/
def finishTransform (Ncvec : Int) (input : Buf) (ib : Bool) (μ : Mem F) : Exec (Mem F) := do
  if buff ib ≠ .output then do
    assertC (input = .output)
    let out ← loop Ncvec.toNat (fun k out => do
      let a ← (μ (buff ib)).rd (2 * (k : Int))
      let b ← (μ (buff ib)).rd (2 * (k : Int) + 1)
      let out ← out.wr (2 * (k : Int)) a
      out.wr (2 * (k : Int) + 1) b) (μ .output)
    assertC (buff (!ib) = .output)
    .ok (μ.put .output out)
  else do
    assertC (buff ib = .output)
    .ok μ

/-- `pffft_transform_ordered(.., PFFFT_FORWARD)` with a scratch buffer, src/external/pffft/pffft.c:2139-2143 and
src/external/pffft/pffft.c:2045-2103. -/
def transformFwd (s : Setup F) (μ : Mem F) : Exec (Mem F) := do
  let nf ← s.ifac.rd 1
  let ib : Bool := if nf % 2 = 1 then false else true
  let r ← rfftf1 (s.Ncvec * 2) .input (buff ib) (buff (!ib)) s.twiddle s.ifac μ
  let ib : Bool := if r.2 = buff false then false else true
  let μ := r.1
  let out ← zreorderFwd s.N (μ (buff ib)) (μ (buff (!ib)))
  let μ := μ.put (buff (!ib)) out
  finishTransform s.Ncvec .input (!ib) μ

/-- `pffft_transform_ordered(.., PFFFT_BACKWARD)` with a scratch buffer, src/external/pffft/pffft.c:2139-2143 and
src/external/pffft/pffft.c:2045-2103. The test `input == buff[ib]` (2078) fails since the blocks differ. -/
def transformBwd (s : Setup F) (μ : Mem F) : Exec (Mem F) := do
  let nf ← s.ifac.rd 1
  let ib : Bool := if nf % 2 = 1 then false else true
  let out ← zreorderBwd s.N (μ .input) (μ (buff (!ib)))
  let μ := μ.put (buff (!ib)) out
  let input := buff (!ib)
  let r ← rfftb1 (s.Ncvec * 2) input (buff ib) (buff (!ib)) s.twiddle s.ifac μ
  let ib : Bool := if r.2 = buff false then false else true
  finishTransform s.Ncvec input ib r.1

end Verif.Model
