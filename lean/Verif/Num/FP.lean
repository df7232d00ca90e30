import Verif.Num.Arith
import Verif.Num.Round

/-!
# IEEE-754 binary32/binary64 arithmetic

One carrier holds the values of both formats. Operations round to nearest even, overflow to infinity, propagate NaN and
keep the sign of zero (IEEE-754 clauses 4.3, 5.4, 6.3). NaN payloads and exception flags are not represented.
libm functions are an arbitrary parameter `Libm`.
-/

namespace Verif.Num

/-- A floating-point datum. `fin s q` is the finite value `q`; `s` is the sign bit, significant for `q = 0`. -/
inductive FP
  | nan
  | inf (neg : Bool)
  | fin (neg : Bool) (q : ℚ)
  deriving DecidableEq

namespace FP

/-- Sign bit (meaningless for NaN). -/
def sgn : FP → Bool
  | nan => false
  | inf s => s
  | fin s q => if q = 0 then s else decide (q < 0)

/-- Round the exact result `q` into format `f`; `s` is the sign used if `q` is zero. -/
def round (f : Fmt) (s : Bool) (q : ℚ) : FP :=
  if q = 0 then fin s 0
  else
    let r := rnd f q
    if pow2 f.emax ≤ |r| then inf (decide (q < 0)) else fin (decide (q < 0)) r

def addR (f : Fmt) : FP → FP → FP
  | nan, _ => nan
  | _, nan => nan
  | inf s, inf t => if s = t then inf s else nan
  | inf s, fin _ _ => inf s
  | fin _ _, inf t => inf t
  | fin s a, fin t b => round f (sgn (fin s a) && sgn (fin t b)) (a + b)

def neg : FP → FP
  | nan => nan
  | inf s => inf (!s)
  | fin s q => fin (!(sgn (fin s q))) (-q)

def subR (f : Fmt) (x y : FP) : FP := addR f x (neg y)

def mulR (f : Fmt) : FP → FP → FP
  | nan, _ => nan
  | _, nan => nan
  | inf s, inf t => inf (xor s t)
  | inf s, fin t b => if b = 0 then nan else inf (xor s (sgn (fin t b)))
  | fin s a, inf t => if a = 0 then nan else inf (xor (sgn (fin s a)) t)
  | fin s a, fin t b => round f (xor (sgn (fin s a)) (sgn (fin t b))) (a * b)

def divR (f : Fmt) : FP → FP → FP
  | nan, _ => nan
  | _, nan => nan
  | inf _, inf _ => nan
  | inf s, fin t b => inf (xor s (sgn (fin t b)))
  | fin s a, inf t => fin (xor (sgn (fin s a)) t) 0
  | fin s a, fin t b =>
    if b = 0 then (if a = 0 then nan else inf (xor (sgn (fin s a)) (sgn (fin t b))))
    else round f (xor (sgn (fin s a)) (sgn (fin t b))) (a / b)

/-- Correctly rounded square root of a positive rational: integer square root of the scaled radicand,
rounded by comparing with the midpoint. -/
def sqrtQ (f : Fmt) (q : ℚ) : ℚ :=
  let h : Int := ilog2 q / 2          -- 2^h ≤ sqrt q < 2^(h+1)
  let e : Int := max (h - (f.p - 1)) f.emin
  let s : ℚ := q * pow2 (-(2 * e))    -- sqrt q = sqrt s * 2^e
  let n : Nat := Nat.sqrt (Rat.floor s).toNat
  let m : ℚ := n + 1 / 2
  (if m * m < s then (n + 1 : ℚ) else if s < m * m then (n : ℚ) else if n % 2 = 0 then (n : ℚ) else (n + 1 : ℚ)) * pow2 e

def sqrtR (f : Fmt) : FP → FP
  | nan => nan
  | inf s => if s then nan else inf false
  | fin s q => if q = 0 then fin s 0 else if q < 0 then nan else fin false (sqrtQ f q)

def conv (f : Fmt) : FP → FP
  | nan => nan
  | inf s => inf s
  | fin s q => round f s q

def ltB : FP → FP → Bool
  | nan, _ => false
  | _, nan => false
  | inf s, inf t => s && !t
  | inf s, fin _ _ => s
  | fin _ _, inf t => !t
  | fin _ a, fin _ b => decide (a < b)

def leB : FP → FP → Bool
  | nan, _ => false
  | _, nan => false
  | inf s, inf t => s || !t
  | inf s, fin _ _ => s
  | fin _ _, inf t => !t
  | fin _ a, fin _ b => decide (a ≤ b)

def eqB : FP → FP → Bool
  | nan, _ => false
  | _, nan => false
  | inf s, inf t => s == t
  | inf _, fin _ _ => false
  | fin _ _, inf _ => false
  | fin _ a, fin _ b => decide (a = b)

def abs : FP → FP
  | nan => nan
  | inf _ => inf false
  | fin _ q => fin false |q|

def floorR : FP → FP
  | fin s q => fin (sgn (fin s q)) (Rat.floor q)
  | x => x

def ceilR : FP → FP
  | fin s q => fin (sgn (fin s q)) (-(Rat.floor (-q)))
  | x => x

/-- Truncation of a rational towards zero. -/
def truncQ (q : ℚ) : Int := if 0 ≤ q then Rat.floor q else -(Rat.floor (-q))

/-- `fmodf`: the exact remainder of truncated division, with the sign of `x`. -/
def fmodR : FP → FP → FP
  | nan, _ => nan
  | _, nan => nan
  | inf _, _ => nan
  | fin s a, inf _ => fin s a
  | fin s a, fin _ b => if b = 0 then nan else fin (sgn (fin s a)) (a - truncQ (a / b) * b)

def truncR : FP → Option Int
  | fin _ q => some (truncQ q)
  | _ => none

end FP

/-- The libm functions that are not correctly rounded by IEEE-754. -/
structure Libm where
  cos : FP → FP
  sin : FP → FP
  exp2 : FP → FP
  log2 : FP → FP
  exp : FP → FP

/-- Floating-point data with a fixed libm. -/
def IEEE (_ : Libm) : Type := FP

instance (m : Libm) : DecidableEq (IEEE m) := inferInstanceAs (DecidableEq FP)

/-- Regard a datum as an element of the carrier. -/
def IEEE.mk {m : Libm} (x : FP) : IEEE m := x
/-- The datum of a carrier element. -/
def IEEE.get {m : Libm} (x : IEEE m) : FP := x

instance (m : Libm) : Arith (IEEE m) where
  add := FP.addR F32
  sub := FP.subR F32
  mul := FP.mulR F32
  div := FP.divR F32
  sqrt := FP.sqrtR F32
  dadd := FP.addR F64
  dsub := FP.subR F64
  dmul := FP.mulR F64
  ddiv := FP.divR F64
  toF := FP.conv F32
  lit n d := FP.round F32 false (mkRat n d)
  dlit n d := FP.round F64 false (mkRat n d)
  ofInt n := FP.round F32 false n
  dofInt n := FP.round F64 false n
  lt := FP.ltB
  le := FP.leB
  eq := FP.eqB
  neg := FP.neg
  abs := FP.abs
  floor := FP.floorR
  ceil := FP.ceilR
  fmod := FP.fmodR
  trunc := FP.truncR
  cos := m.cos
  sin := m.sin
  exp2 := m.exp2
  log2 := m.log2
  exp := m.exp

example : FP.sqrtQ F32 2 = 11863283 / 8388608 := by decide +kernel
example : FP.sqrtQ F32 (1/4) = 1/2 := by decide +kernel

end Verif.Num
