import Verif.Basic

/-!
# Arithmetic interface

The C code uses `float` (binary32) and `double` (binary64). A binary32 value is also a binary64 value, so one carrier
`F` serves both; the operations say in which format the result is rounded. Theorems that hold for every instance do not
depend on rounding at all. `Verif.Num.FP` gives the IEEE-754 instance, `Verif.Num.Real` the exact one.
-/

namespace Verif

/-- The floating-point operations used by the code. -/
class Arith (F : Type) where
  /-- `float` operations `+ - * /` and `sqrtf` -/
  add : F → F → F
  sub : F → F → F
  mul : F → F → F
  div : F → F → F
  sqrt : F → F
  /-- `double` operations `+ - * /` -/
  dadd : F → F → F
  dsub : F → F → F
  dmul : F → F → F
  ddiv : F → F → F
  /-- conversion `double` to `float` -/
  toF : F → F
  /-- decimal literal `n/d` with suffix `f` -/
  lit : Int → Nat → F
  /-- decimal literal `n/d` of type `double` -/
  dlit : Int → Nat → F
  /-- conversion of an integer to `float` -/
  ofInt : Int → F
  /-- conversion of an integer to `double` -/
  dofInt : Int → F
  /-- comparisons `<`, `<=`, `==` (false on NaN) -/
  lt : F → F → Bool
  le : F → F → Bool
  eq : F → F → Bool
  neg : F → F
  abs : F → F
  floor : F → F
  ceil : F → F
  fmod : F → F → F
  /-- truncation towards zero; `none` for NaN and infinities -/
  trunc : F → Option Int
  /-- libm -/
  cos : F → F
  sin : F → F
  exp2 : F → F
  log2 : F → F
  exp : F → F

namespace Arith
scoped infixl:65 " +ᶠ " => Arith.add
scoped infixl:65 " -ᶠ " => Arith.sub
scoped infixl:70 " *ᶠ " => Arith.mul
scoped infixl:70 " /ᶠ " => Arith.div
scoped infixl:65 " +ᵈ " => Arith.dadd
scoped infixl:65 " -ᵈ " => Arith.dsub
scoped infixl:70 " *ᵈ " => Arith.dmul
scoped infixl:70 " /ᵈ " => Arith.ddiv
end Arith

open Arith

variable {F : Type} [Arith F]

/-- Conversion to `int` (C17 6.3.1.4): undefined unless the truncated value is representable. -/
def toI32 (x : F) : Exec Int :=
  match Arith.trunc x with
  | some n => if -2147483648 ≤ n ∧ n < 2147483648 then .ok n else .error .floatToInt
  | none => .error .floatToInt

/-- Conversion to `uint32_t`. -/
def toU32 (x : F) : Exec Nat :=
  match Arith.trunc x with
  | some n => if 0 ≤ n ∧ n < 4294967296 then .ok n.toNat else .error .floatToInt
  | none => .error .floatToInt

/-- Conversion to `short`. -/
def toI16 (x : F) : Exec Int :=
  match Arith.trunc x with
  | some n => if -32768 ≤ n ∧ n < 32768 then .ok n else .error .floatToInt
  | none => .error .floatToInt

/-- `M_PI`, a `double` constant (src/core/mbe_unvoiced_fft.c:24 and `<math.h>`). -/
def mpi : F := Arith.dlit 314159265358979323846 100000000000000000000

/-- `(float)M_PI` -/
def fpi : F := Arith.toF (mpi : F)

/-- `float` integer constant such as `2.0f` or `(float)2`. -/
def fi (n : Int) : F := Arith.ofInt n

end Verif
