/-!
# Specification of the channel codes

Words are natural numbers, bit `i` is the coefficient of `x^i`. Nothing here refers to the model.
-/

namespace Verif.Spec

/-- Number of ones among bits `0 .. n-1`. -/
def weight (n e : Nat) : Nat := (List.range n).countP (fun i => e.testBit i)

/-- Hamming distance of two `n`-bit words. -/
def dist (n a b : Nat) : Nat := weight n (a ^^^ b)

/-- Product of the GF(2) polynomials `a` (degree below `n`) and `b`. -/
def clmul (n a b : Nat) : Nat :=
  (List.range n).foldl (fun acc i => if a.testBit i then acc ^^^ (b <<< i) else acc) 0

/-- Generator polynomial of the binary Golay code:
`x^11 + x^10 + x^6 + x^5 + x^4 + x^2 + 1`. -/
def golayPoly : Nat := 0xC75

/-- The (23,12) Golay code is the cyclic code generated by `golayPoly`: the multiples of degree below 23. -/
def IsGolay (c : Nat) : Prop := ∃ q, q < 2^12 ∧ c = clmul 12 q golayPoly

/-- Generator polynomial of the cyclic (15,11) Hamming code used by IMBE 7100x4400: `x^4 + x + 1`. -/
def hammingPoly : Nat := 0x13

/-- The cyclic (15,11) Hamming code: the multiples of `hammingPoly` of degree below 15. -/
def IsHamming7100 (c : Nat) : Prop := ∃ q, q < 2^11 ∧ c = clmul 11 q hammingPoly

/-- The parity equation "the bits of `c` at `ps` sum to zero". -/
def evenAt (c : Nat) (ps : List Nat) : Bool := ps.countP (fun i => c.testBit i) % 2 == 0

/-- The systematic (15,11) Hamming code of IMBE 7200x4400: data bits 14..4, parity bits 3..0,
each parity bit covering the listed data bits. -/
def IsHamming7200 (c : Nat) : Prop :=
  c < 2^15 ∧
  evenAt c [3, 14, 13, 12, 11, 10, 9, 8] ∧
  evenAt c [2, 14, 13, 12, 11, 7, 6, 5] ∧
  evenAt c [1, 14, 13, 10, 9, 7, 6, 4] ∧
  evenAt c [0, 14, 12, 10, 8, 7, 5, 4]

/-- Bit `i` of word `w` as a `char` (0 or 1). -/
def bit (w i : Nat) : Int := if w.testBit i then 1 else 0

end Verif.Spec
