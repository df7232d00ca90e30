import Verif.Model.Fft

/-!
# Model of the transform of 256 floats on vectors

`src/external/pffft/pffft.c` in the builds with `MBELIB_ENABLE_SIMD` (CMakeLists.txt:148-150), where `v4sf` holds four
floats and `SIMD_SZ` is 4: SSE (src/external/pffft/pffft.c:166-192) and NEON (src/external/pffft/pffft.c:197-233). The
setup of the twiddle factors and the radix-4 passes are the definitions of `Verif.Model.Fft`, run on vectors: every
operation of the passes acts on each lane (`VADD`, `VSUB`, `VMUL`), and every twiddle factor is loaded into all lanes
(`LD_PS1`). A vector in memory counts as initialised when all its lanes are.
-/

namespace Verif.Model
open Verif Arith

/-- `v4sf`, src/external/pffft/pffft.c:169-169 and src/external/pffft/pffft.c:199-199. -/
abbrev Vec4 (F : Type) := Fin 4 → F

/-- The vector with these lanes, lowest first. As the union at src/external/pffft/pffft.c:279-282. -/
def v4 {F : Type} (a b c d : F) : Vec4 F := fun i => if i = 0 then a else if i = 1 then b else if i = 2 then c else d

/-- Operations on vectors act on each lane, constants are the same in all lanes (`VADD`, `VSUB`, `VMUL`, `LD_PS1`,
src/external/pffft/pffft.c:173-177 and src/external/pffft/pffft.c:202-206). Of the remaining operations none is applied to
vectors; the comparisons look at the lowest lane. -/
instance v4Arith {F : Type} [Arith F] : Arith (Vec4 F) where
  add a b := fun i => a i +ᶠ b i
  sub a b := fun i => a i -ᶠ b i
  mul a b := fun i => a i *ᶠ b i
  div a b := fun i => a i /ᶠ b i
  sqrt a := fun i => sqrt (a i)
  dadd a b := fun i => a i +ᵈ b i
  dsub a b := fun i => a i -ᵈ b i
  dmul a b := fun i => a i *ᵈ b i
  ddiv a b := fun i => a i /ᵈ b i
  toF a := fun i => toF (a i)
  lit n d := fun _ => lit n d
  dlit n d := fun _ => dlit n d
  ofInt n := fun _ => ofInt n
  dofInt n := fun _ => dofInt n
  lt a b := lt (a 0) (b 0)
  le a b := le (a 0) (b 0)
  eq a b := eq (a 0) (b 0)
  neg a := fun i => neg (a i)
  abs a := fun i => abs (a i)
  floor a := fun i => floor (a i)
  ceil a := fun i => ceil (a i)
  fmod a b := fun i => fmod (a i) (b i)
  trunc a := trunc (a 0)
  cos a := fun i => cos (a i)
  sin a := fun i => sin (a i)
  exp2 a := fun i => exp2 (a i)
  log2 a := fun i => log2 (a i)
  exp a := fun i => exp (a i)

section
variable {F : Type}

/-- `INTERLEAVE2`, src/external/pffft/pffft.c:178-183 and src/external/pffft/pffft.c:207-212: `out1` and `out2`. -/
def interleave (a b : Vec4 F) : Vec4 F × Vec4 F := (v4 (a 0) (b 0) (a 1) (b 1), v4 (a 2) (b 2) (a 3) (b 3))

/-- `UNINTERLEAVE2`, src/external/pffft/pffft.c:184-189 and src/external/pffft/pffft.c:213-218: `out1` and `out2`. -/
def uninterleave (a b : Vec4 F) : Vec4 F × Vec4 F := (v4 (a 0) (a 2) (b 0) (b 2), v4 (a 1) (a 3) (b 1) (b 3))

/-- `VSWAPHL`, src/external/pffft/pffft.c:191-191 and src/external/pffft/pffft.c:232-232. -/
def swapHL (a b : Vec4 F) : Vec4 F := v4 (b 0) (b 1) (a 2) (a 3)

/-- `VTRANSPOSE4` of SSE, src/external/pffft/pffft.c:190-190: the new `x0`, `x1`, `x2`, `x3`, that is row `i` of the
transposed matrix. -/
def transpose4 (x0 x1 x2 x3 : Vec4 F) (i : Fin 4) : Vec4 F := v4 (x0 i) (x1 i) (x2 i) (x3 i)

/-- `VTRANSPOSE4` of NEON, src/external/pffft/pffft.c:219-229, where `vzipq_f32` is `interleave`. -/
def transposeNeon (x0 x1 x2 x3 : Vec4 F) (i : Fin 4) : Vec4 F :=
  let t0 := interleave x0 x2
  let t1 := interleave x1 x3
  let u0 := interleave t0.1 t1.1
  let u1 := interleave t0.2 t1.2
  if i = 0 then u0.1 else if i = 1 then u0.2 else if i = 2 then u1.1 else u1.2

/-- Floats read as vectors: `(const v4sf*)p` for a block of `4 * n` floats. src/external/pffft/pffft.c:1846-1848. -/
def asVec {n : Nat} (a : Loc (4 * n) F) : Loc n (Vec4 F) := fun i => do
  let x0 ← a ⟨4 * i.val, by omega⟩
  let x1 ← a ⟨4 * i.val + 1, by omega⟩
  let x2 ← a ⟨4 * i.val + 2, by omega⟩
  let x3 ← a ⟨4 * i.val + 3, by omega⟩
  some (v4 x0 x1 x2 x3)

/-- Vectors read as floats. src/external/pffft/pffft.c:1846-1848. -/
def asFloats {n : Nat} (v : Loc n (Vec4 F)) : Loc (4 * n) F := fun i =>
  (v ⟨i.val / 4, by omega⟩).map fun x => x ⟨i.val % 4, by omega⟩

/-- `LD_PS1` of every element, as the passes load the twiddle factors. src/external/pffft/pffft.c:177-177, 206-206, 275-275. -/
def bcast {n : Nat} (w : Loc n F) : Loc n (Vec4 F) := fun i => (w i).map fun x _ => x

end

variable {F : Type} [Arith F]

/-! ## Setup -/

/-- `struct PFFFT_Setup`, src/external/pffft/pffft.c:1349-1358, for a real transform on vectors. `e` and `twiddle` are
the first 192 and the last 64 floats of the block `data`. -/
structure SetupV (F : Type) where
  N : Int
  Ncvec : Int
  ifac : Loc 25 Int
  e : Loc 192 F
  twiddle : Loc 64 F

/-- One entry of the table `e`, src/external/pffft/pffft.c:1395-1397. -/
def eEntry (k m : Int) (e : Loc 192 F) : Exec (Loc 192 F) := do
  let i := Int.tdiv k 4
  let j := Int.tmod k 4
  let A : F := toF ((((dofInt (-2) *ᵈ mpi) *ᵈ dofInt (m + 1)) *ᵈ dofInt k) /ᵈ dofInt 256)
  let e ← e.wr ((2 * (i * 3 + m) + 0) * 4 + j) (toF (cos A))
  e.wr ((2 * (i * 3 + m) + 1) * 4 + j) (toF (sin A))

/-- `pffft_new_setup(256, PFFFT_REAL)` with both allocations granted, src/external/pffft/pffft.c:1360-1417. The block
`data` has `2 * Ncvec` vectors (1387); `twiddle` starts at vector `2 * Ncvec * 3 / 4 = 48` (1389). -/
def newSetupV : Exec (Option (SetupV F)) := do
  assertC ((256 : Int) % (2 * 4 * 4) = 0)
  let e ← loop 32 (fun k e => loop 3 (fun m e => eEntry (k : Int) (m : Int) e) e) (Loc.fresh 192 F)
  let r ← rffti1 64 (Loc.fresh 64 F) (Loc.fresh 25 Int)
  let nf ← r.2.rd 1
  let m ← loop nf.toNat (fun k (m : Int) => do .ok (m * (← r.2.rd (2 + (k : Int))))) 1
  if m ≠ 64 then .ok none else .ok (some { N := 256, Ncvec := 32, ifac := r.2, e := e, twiddle := r.1 })

/-! ## Between the lanes -/

/-- `(float)(M_SQRT1_2)`, src/external/pffft/pffft.c:1695-1695. -/
def sqrtHalf : F := toF (dlit 70710678118654752440 100000000000000000000)

/-- `(float)M_SQRT2`, src/external/pffft/pffft.c:1793-1793. -/
def sqrtTwo : F := toF (dlit 141421356237309504880 100000000000000000000)

/-- `pffft_real_finalize_4x4`, src/external/pffft/pffft.c:1622-1686: `r0` and `i0` are `*in0` and `*in1`, `p`, `q` and `o`
the offsets of `in`, `e` and `out`. -/
def finalize4x4 (r0 i0 : Vec4 F) (inp : Loc 64 (Vec4 F)) (p : Int) (e : Loc 48 (Vec4 F)) (q : Int) (out : Loc 64 (Vec4 F)) (o : Int) :
    Exec (Loc 64 (Vec4 F)) := do
  let r1 ← inp.rd p
  let i1 ← inp.rd (p + 1)
  let r2 ← inp.rd (p + 2)
  let i2 ← inp.rd (p + 3)
  let r3 ← inp.rd (p + 4)
  let i3 ← inp.rd (p + 5)
  let r := transpose4 r0 r1 r2 r3
  let i := transpose4 i0 i1 i2 i3
  let c1 := mulCplx (r 1) (i 1) (← e.rd q) (← e.rd (q + 1))
  let c2 := mulCplx (r 2) (i 2) (← e.rd (q + 2)) (← e.rd (q + 3))
  let c3 := mulCplx (r 3) (i 3) (← e.rd (q + 4)) (← e.rd (q + 5))
  let sr0 := r 0 +ᶠ c2.1
  let dr0 := r 0 -ᶠ c2.1
  let sr1 := c1.1 +ᶠ c3.1
  let dr1 := c3.1 -ᶠ c1.1
  let si0 := i 0 +ᶠ c2.2
  let di0 := i 0 -ᶠ c2.2
  let si1 := c1.2 +ᶠ c3.2
  let di1 := c3.2 -ᶠ c1.2
  let out ← out.wr o (sr0 +ᶠ sr1)
  let out ← out.wr (o + 1) (si0 +ᶠ si1)
  let out ← out.wr (o + 2) (dr0 +ᶠ di1)
  let out ← out.wr (o + 3) (dr1 -ᶠ di0)
  let out ← out.wr (o + 4) (dr0 -ᶠ di1)
  let out ← out.wr (o + 5) (dr1 +ᶠ di0)
  let out ← out.wr (o + 6) (sr0 -ᶠ sr1)
  out.wr (o + 7) (si1 -ᶠ si0)

/-- `uout[i].f[0] = x`. E.g. src/external/pffft/pffft.c:1716-1730. -/
def setLane0 (out : Loc 64 (Vec4 F)) (i : Int) (x : F) : Exec (Loc 64 (Vec4 F)) := do
  let v ← out.rd i
  out.wr i (v4 x (v 1) (v 2) (v 3))

/-- The eight values for the bins 0, 32, 64, 96 and 128, src/external/pffft/pffft.c:1716-1731. -/
def finalizeEdge (cr ci : Vec4 F) (out : Loc 64 (Vec4 F)) : Exec (Loc 64 (Vec4 F)) := do
  let out ← setLane0 out 0 ((cr 0 +ᶠ cr 2) +ᶠ (cr 1 +ᶠ cr 3))
  let out ← setLane0 out 1 ((cr 0 +ᶠ cr 2) -ᶠ (cr 1 +ᶠ cr 3))
  let out ← setLane0 out 4 (cr 0 -ᶠ cr 2)
  let out ← setLane0 out 5 (cr 3 -ᶠ cr 1)
  let out ← setLane0 out 2 (ci 0 +ᶠ (sqrtHalf *ᶠ (ci 1 -ᶠ ci 3)))
  let out ← setLane0 out 3 (neg (ci 2) -ᶠ (sqrtHalf *ᶠ (ci 1 +ᶠ ci 3)))
  let out ← setLane0 out 6 (ci 0 -ᶠ (sqrtHalf *ᶠ (ci 1 -ᶠ ci 3)))
  setLane0 out 7 (ci 2 -ᶠ (sqrtHalf *ᶠ (ci 1 +ᶠ ci 3)))

/-- `pffft_real_finalize`, src/external/pffft/pffft.c:1688-1737: the new contents of `out`. The `assert` at 1699 is that of
the caller, whose two blocks differ. -/
def realFinalize (Ncvec : Int) (inp : Loc 64 (Vec4 F)) (e : Loc 48 (Vec4 F)) (out : Loc 64 (Vec4 F)) : Exec (Loc 64 (Vec4 F)) := do
  let dk := Int.tdiv Ncvec 4
  let save ← inp.rd 7
  let zero : Vec4 F := fun _ => fi 0
  let cr ← inp.rd 0
  let ci ← inp.rd (Ncvec * 2 - 1)
  let out ← finalize4x4 zero zero inp 1 e 0 out 0
  let out ← finalizeEdge cr ci out
  let r ← loop (dk - 1).toNat (fun t (s : Vec4 F × Loc 64 (Vec4 F)) => do
    let k := (t : Int) + 1
    let next ← inp.rd (8 * k + 7)
    let out ← finalize4x4 s.1 (← inp.rd (8 * k)) inp (8 * k + 1) e (k * 6) s.2 (k * 8)
    .ok (next, out)) (save, out)
  .ok r.2

/-- `pffft_real_preprocess_4x4`, src/external/pffft/pffft.c:1739-1785; `p`, `q` and `o` are the offsets of `in`, `e` and
`out`. -/
def preprocess4x4 (inp : Loc 64 (Vec4 F)) (p : Int) (e : Loc 48 (Vec4 F)) (q : Int) (out : Loc 64 (Vec4 F)) (o : Int) (first : Bool) :
    Exec (Loc 64 (Vec4 F)) := do
  let r0 ← inp.rd p
  let i0 ← inp.rd (p + 1)
  let r1 ← inp.rd (p + 2)
  let i1 ← inp.rd (p + 3)
  let r2 ← inp.rd (p + 4)
  let i2 ← inp.rd (p + 5)
  let r3 ← inp.rd (p + 6)
  let i3 ← inp.rd (p + 7)
  let sr0 := r0 +ᶠ r3
  let dr0 := r0 -ᶠ r3
  let sr1 := r1 +ᶠ r2
  let dr1 := r1 -ᶠ r2
  let si0 := i0 +ᶠ i3
  let di0 := i0 -ᶠ i3
  let si1 := i1 +ᶠ i2
  let di1 := i1 -ᶠ i2
  let c1 := mulConj (dr0 -ᶠ si1) (si0 -ᶠ dr1) (← e.rd q) (← e.rd (q + 1))
  let c2 := mulConj (sr0 -ᶠ sr1) (di0 +ᶠ di1) (← e.rd (q + 2)) (← e.rd (q + 3))
  let c3 := mulConj (dr0 +ᶠ si1) (si0 +ᶠ dr1) (← e.rd (q + 4)) (← e.rd (q + 5))
  let r := transpose4 (sr0 +ᶠ sr1) c1.1 c2.1 c3.1
  let i := transpose4 (di0 -ᶠ di1) c1.2 c2.2 c3.2
  let (out, o) ← (if first then .ok (out, o)
    else do
      let out ← out.wr o (r 0)
      let out ← out.wr (o + 1) (i 0)
      .ok (out, o + 2))
  let out ← out.wr o (r 1)
  let out ← out.wr (o + 1) (i 1)
  let out ← out.wr (o + 2) (r 2)
  let out ← out.wr (o + 3) (i 2)
  let out ← out.wr (o + 4) (r 3)
  out.wr (o + 5) (i 3)

/-- `pffft_real_preprocess`, src/external/pffft/pffft.c:1787-1834: the new contents of `out`. The four stores to the lanes
of `uout[0]`, between which nothing is read, are one store of a vector, likewise those to `uout[2 * Ncvec - 1]`. -/
def realPreprocess (Ncvec : Int) (inp : Loc 64 (Vec4 F)) (e : Loc 48 (Vec4 F)) (out : Loc 64 (Vec4 F)) : Exec (Loc 64 (Vec4 F)) := do
  let dk := Int.tdiv Ncvec 4
  let x0 := (← inp.rd 0) 0
  let y0 := (← inp.rd 1) 0
  let x1 := (← inp.rd 2) 0
  let y1 := (← inp.rd 3) 0
  let x2 := (← inp.rd 4) 0
  let y2 := (← inp.rd 5) 0
  let x3 := (← inp.rd 6) 0
  let y3 := (← inp.rd 7) 0
  let out ← preprocess4x4 inp 0 e 0 out 1 true
  let out ← loop (dk - 1).toNat (fun t out => do
    let k := (t : Int) + 1
    preprocess4x4 inp (8 * k) e (k * 6) out (-1 + k * 8) false) out
  let cr0 := (x0 +ᶠ y0) +ᶠ (fi 2 *ᶠ x2)
  let cr1 := (x0 -ᶠ y0) -ᶠ (fi 2 *ᶠ y2)
  let cr2 := (x0 +ᶠ y0) -ᶠ (fi 2 *ᶠ x2)
  let cr3 := (x0 -ᶠ y0) +ᶠ (fi 2 *ᶠ y2)
  let out ← out.wr 0 (v4 cr0 cr1 cr2 cr3)
  let ci0 := fi 2 *ᶠ (x1 +ᶠ x3)
  let ci1 := (sqrtTwo *ᶠ (x1 -ᶠ x3)) -ᶠ (sqrtTwo *ᶠ (y1 +ᶠ y3))
  let ci2 := fi 2 *ᶠ (y3 -ᶠ y1)
  let ci3 := (neg sqrtTwo *ᶠ (x1 -ᶠ x3)) -ᶠ (sqrtTwo *ᶠ (y1 +ᶠ y3))
  out.wr (2 * Ncvec - 1) (v4 ci0 ci1 ci2 ci3)

/-! ## Order of the bins -/

/-- `reversed_copy`, src/external/pffft/pffft.c:1428-1446: `p` is the offset of `in`, `o` that of `out`, which moves down. -/
def reversedCopy (n : Int) (inp : Loc 64 (Vec4 F)) (p stride : Int) (out : Loc 64 (Vec4 F)) (o : Int) : Exec (Loc 64 (Vec4 F)) := do
  let g := interleave (← inp.rd p) (← inp.rd (p + 1))
  let out ← out.wr (o - 1) (swapHL g.1 g.2)
  let r ← loop (n - 1).toNat (fun t (s : Vec4 F × Loc 64 (Vec4 F)) => do
    let p := p + stride * ((t : Int) + 1)
    let h := interleave (← inp.rd p) (← inp.rd (p + 1))
    let out ← s.2.wr (o - 2 * (t : Int) - 2) (swapHL s.1 h.1)
    let out ← out.wr (o - 2 * (t : Int) - 3) (swapHL h.1 h.2)
    .ok (h.2, out)) (g.2, out)
  r.2.wr (o - 2 * n) (swapHL r.1 g.1)

/-- `unreversed_copy`, src/external/pffft/pffft.c:1447-1468: `p` is the offset of `in`, `o` that of `out`. -/
def unreversedCopy (n : Int) (inp : Loc 64 (Vec4 F)) (p : Int) (out : Loc 64 (Vec4 F)) (o stride : Int) : Exec (Loc 64 (Vec4 F)) := do
  let g0 ← inp.rd p
  let r ← loop (n - 1).toNat (fun t (s : Vec4 F × Loc 64 (Vec4 F)) => do
    let h0 ← inp.rd (p + 1 + 2 * (t : Int))
    let h1 ← inp.rd (p + 2 + 2 * (t : Int))
    let u := uninterleave (swapHL h0 h1) (swapHL s.1 h0)
    let out ← s.2.wr (o + stride * (t : Int)) u.1
    let out ← out.wr (o + stride * (t : Int) + 1) u.2
    .ok (h1, out)) (g0, out)
  let h0 ← inp.rd (p + 2 * n - 1)
  let u := uninterleave (swapHL h0 g0) (swapHL r.1 h0)
  let out ← r.2.wr (o + stride * (n - 1)) u.1
  out.wr (o + stride * (n - 1) + 1) u.2

/-- `pffft_zreorder` forward, src/external/pffft/pffft.c:1477-1483: the new contents of `out`. -/
def zreorderFwdV (N : Int) (inp out : Loc 64 (Vec4 F)) : Exec (Loc 64 (Vec4 F)) := do
  let dk := Int.tdiv N 32
  let out ← loop dk.toNat (fun t out => do
    let k := (t : Int)
    let u := interleave (← inp.rd (k * 8 + 0)) (← inp.rd (k * 8 + 1))
    let out ← out.wr (2 * (0 * dk + k) + 0) u.1
    let out ← out.wr (2 * (0 * dk + k) + 1) u.2
    let u := interleave (← inp.rd (k * 8 + 4)) (← inp.rd (k * 8 + 5))
    let out ← out.wr (2 * (2 * dk + k) + 0) u.1
    out.wr (2 * (2 * dk + k) + 1) u.2) out
  let out ← reversedCopy dk inp 2 8 out (Int.tdiv (Int.tdiv N 2) 4)
  reversedCopy dk inp 6 8 out (Int.tdiv N 4)

/-- `pffft_zreorder` backward, src/external/pffft/pffft.c:1485-1490: the new contents of `out`. -/
def zreorderBwdV (N : Int) (inp out : Loc 64 (Vec4 F)) : Exec (Loc 64 (Vec4 F)) := do
  let dk := Int.tdiv N 32
  let out ← loop dk.toNat (fun t out => do
    let k := (t : Int)
    let u := uninterleave (← inp.rd (2 * (0 * dk + k) + 0)) (← inp.rd (2 * (0 * dk + k) + 1))
    let out ← out.wr (k * 8 + 0) u.1
    let out ← out.wr (k * 8 + 1) u.2
    let u := uninterleave (← inp.rd (2 * (2 * dk + k) + 0)) (← inp.rd (2 * (2 * dk + k) + 1))
    let out ← out.wr (k * 8 + 4) u.1
    out.wr (k * 8 + 5) u.2) out
  let out ← unreversedCopy dk inp (Int.tdiv (Int.tdiv N 4) 4) out (Int.tdiv (N - 6 * 4) 4) (-8)
  unreversedCopy dk inp (Int.tdiv (Int.tdiv (3 * N) 4) 4) out (Int.tdiv (N - 2 * 4) 4) (-8)

/-! ## Transforms -/

/-- The copy at the end, src/external/pffft/pffft.c:1893-1904, and the `assert` after it. -/
def finishV (Ncvec : Int) (input : Buf) (ib : Bool) (μ : Mem (Vec4 F) 64) : Exec (Mem (Vec4 F) 64) := do
  if buff ib ≠ .output then do
    assertC (input = .output)
    let out ← loop Ncvec.toNat (fun k out => do
      let a ← (μ (buff ib)).rd (2 * (k : Int))
      let b ← (μ (buff ib)).rd (2 * (k : Int) + 1)
      let out ← out.wr (2 * (k : Int)) a
      out.wr (2 * (k : Int) + 1) b) (μ .output)
    assertC (buff (!ib) = .output)
    .ok (μ.put .output out)
  else do
    assertC (buff ib = .output)
    .ok μ

/-- The vectors of `pffft_transform_ordered(.., PFFFT_FORWARD)` with a scratch buffer, src/external/pffft/pffft.c:2139-2143
and src/external/pffft/pffft.c:1836-1906. The blocks come from `pffft_aligned_malloc`, so the `assert` at 1851 holds. -/
def transformFwdVec (s : SetupV F) (μ : Mem (Vec4 F) 64) : Exec (Mem (Vec4 F) 64) := do
  let nf ← s.ifac.rd 1
  let ib : Bool := if nf % 2 = 1 then false else true
  let ib := !ib
  let r ← rfftf1 (s.Ncvec * 2) .input (buff ib) (buff (!ib)) (bcast s.twiddle) s.ifac μ
  let ib : Bool := if r.2 = buff false then false else true
  let μ := r.1
  assertC (buff ib ≠ buff (!ib))
  let out ← realFinalize s.Ncvec (μ (buff ib)) (asVec s.e) (μ (buff (!ib)))
  let μ := μ.put (buff (!ib)) out
  assertC (buff (!ib) ≠ buff ib)
  let out ← zreorderFwdV s.N (μ (buff (!ib))) (μ (buff ib))
  finishV s.Ncvec .input ib (μ.put (buff ib) out)

/-- The vectors of `pffft_transform_ordered(.., PFFFT_BACKWARD)` with a scratch buffer, src/external/pffft/pffft.c:2139-2143
and src/external/pffft/pffft.c:1836-1906. The test `vinput == buff[ib]` (1873) fails since the blocks differ. -/
def transformBwdVec (s : SetupV F) (μ : Mem (Vec4 F) 64) : Exec (Mem (Vec4 F) 64) := do
  let nf ← s.ifac.rd 1
  let ib : Bool := if nf % 2 = 1 then false else true
  let out ← zreorderBwdV s.N (μ .input) (μ (buff ib))
  let μ := μ.put (buff ib) out
  let vin := buff ib
  let ib := !ib
  assertC (vin ≠ buff ib)
  let out ← realPreprocess s.Ncvec (μ vin) (asVec s.e) (μ (buff ib))
  let μ := μ.put (buff ib) out
  let r ← rfftb1 (s.Ncvec * 2) (buff ib) (buff false) (buff true) (bcast s.twiddle) s.ifac μ
  let ib : Bool := if r.2 = buff false then false else true
  finishV s.Ncvec .input ib r.1

/-- The float blocks of a transform seen as vectors, and back. The casts at src/external/pffft/pffft.c:1846-1848. -/
def onVec (f : Mem (Vec4 F) 64 → Exec (Mem (Vec4 F) 64)) (μ : Mem F) : Exec (Mem F) := do
  let ν ← f fun b => asVec (n := 64) (μ b)
  .ok fun b => asFloats (n := 64) (ν b)

/-- `pffft_transform_ordered(.., PFFFT_FORWARD)` in the builds with SIMD, src/external/pffft/pffft.c:2139-2143. -/
def transformFwdV (s : SetupV F) : Mem F → Exec (Mem F) := onVec (transformFwdVec s)

/-- `pffft_transform_ordered(.., PFFFT_BACKWARD)` in the builds with SIMD, src/external/pffft/pffft.c:2139-2143. -/
def transformBwdV (s : SetupV F) : Mem F → Exec (Mem F) := onVec (transformBwdVec s)

end Verif.Model
