import Verif.Spec.Codes

/-!
# Specification of the transmitted frames

What a transmitter sends for a payload, plus correctable channel errors. A payload is a function from bit index
to 0/1 `char`; each word carries its payload bits most significant first.
-/

namespace Verif.Spec

/-- A `char` bit. -/
def chr (b : Bool) : Int := if b then 1 else 0

/-- State of the pseudo-random sequence: `p(0) = 16·u0`, `p(n) = (173·p(n-1) + 13849) mod 65536`. -/
def pnState (seed : Nat) : Nat → Nat
  | 0 => (16 * seed) % 65536
  | n + 1 => (173 * pnState seed n + 13849) % 65536

/-- Modulation bit `n`: the most significant bit of the 16-bit state. -/
def pnBit (seed n : Nat) : Bool := decide (32768 ≤ pnState seed n)

/-- Payload bits are 0/1. -/
def Bits (n : Nat) (d : Nat → Int) : Prop := ∀ i, i < n → d i = 0 ∨ d i = 1

/-- Word `c` carries payload bits `off .. off+n-1` in its bits `hi .. hi-n+1`, most significant first. -/
def Carries (c hi n off : Nat) (d : Nat → Int) : Prop := ∀ k, k < n → bit c (hi - k) = d (off + k)

/-- A received row: word `c` with error pattern `e`, sent least significant bit in column `off`, each bit optionally
scrambled with the pseudo-random bit of its position (`k0` for the leftmost, most significant bit). -/
def Row (fr : Nat → Nat → Int) (i off n : Nat) (c e : Nat) (pn : Nat → Bool) (k0 : Nat) : Prop :=
  ∀ j, j < n → fr i (off + j) = chr (((c ^^^ e).testBit j) ^^ (pn (k0 + (n - 1 - j))))

/-- No scrambling. -/
def plain : Nat → Bool := fun _ => false

/-- An IMBE 7200x4400 frame for payload `d` after a channel that flips at most three bits of each Golay word and at
most one of each Hamming word. `c i` are the code words and `e i` the error patterns. -/
structure Imbe7200Tx (d : Nat → Int) (c e : Nat → Nat) (fr : Nat → Nat → Int) : Prop where
  golay : ∀ i, i < 4 → IsGolay (c i) ∧ e i < 2^23 ∧ weight 23 (e i) ≤ 3 ∧ Carries (c i) 22 12 (12 * i) d
  hamming : ∀ i, 4 ≤ i → i < 7 → IsHamming7200 (c i) ∧ e i < 2^15 ∧ weight 15 (e i) ≤ 1 ∧
    Carries (c i) 14 11 (48 + 11 * (i - 4)) d
  row0 : Row fr 0 0 23 (c 0) (e 0) plain 0
  rows13 : ∀ i, 1 ≤ i → i < 4 → Row fr i 0 23 (c i) (e i) (pnBit (c 0 >>> 11)) (1 + 23 * (i - 1))
  rows46 : ∀ i, 4 ≤ i → i < 7 → Row fr i 0 15 (c i) (e i) (pnBit (c 0 >>> 11)) (70 + 15 * (i - 4))
  row7 : ∀ k, k < 7 → fr 7 (6 - k) = d (81 + k)

/-- An IMBE 7100x4400 frame. The first word is a (19,7) word: the data part of the Golay word has five leading zero bits
and column 0 holds an extra bit that is not used by the receiver. Row 1 has 24 columns, column 0 being an extra
scrambled bit. -/
structure Imbe7100Tx (d : Nat → Int) (c e : Nat → Nat) (fr : Nat → Nat → Int) : Prop where
  golay0 : IsGolay (c 0) ∧ c 0 < 2^18 ∧ e 0 < 2^18 ∧ weight 23 (e 0) ≤ 3 ∧ Carries (c 0) 17 7 0 d
  golay : ∀ i, 1 ≤ i → i < 4 → IsGolay (c i) ∧ e i < 2^23 ∧ weight 23 (e i) ≤ 3 ∧
    Carries (c i) 22 12 (7 + 12 * (i - 1)) d
  hamming : ∀ i, 4 ≤ i → i < 6 → IsHamming7100 (c i) ∧ e i < 2^15 ∧ weight 15 (e i) ≤ 1 ∧
    Carries (c i) 14 11 (43 + 11 * (i - 4)) d
  row0 : Row fr 0 1 18 (c 0) (e 0) plain 0
  row1 : Row fr 1 1 23 (c 1) (e 1) (pnBit (c 0 >>> 11)) 1
  rows23 : ∀ i, 2 ≤ i → i < 4 → Row fr i 0 23 (c i) (e i) (pnBit (c 0 >>> 11)) (25 + 23 * (i - 2))
  rows45 : ∀ i, 4 ≤ i → i < 6 → Row fr i 0 15 (c i) (e i) (pnBit (c 0 >>> 11)) (71 + 15 * (i - 4))
  row6 : ∀ k, k < 23 → fr 6 (22 - k) = d (65 + k)

/-- An AMBE 3600x2400 / 3600x2450 frame: C0 is a Golay(24,12) word (23-bit word in columns 1..23, overall even parity in
column 0) with at most three flipped bits among all 24, C1 a scrambled Golay(23,12) word with at most three flipped
bits, C2 and C3 unprotected. `pe` says whether the parity bit in column 0 was flipped. -/
structure AmbeTx (d : Nat → Int) (c e : Nat → Nat) (pe : Bool) (fr : Nat → Nat → Int) : Prop where
  golay0 : IsGolay (c 0) ∧ e 0 < 2^23 ∧ weight 23 (e 0) + pe.toNat ≤ 3 ∧ Carries (c 0) 22 12 0 d
  golay1 : IsGolay (c 1) ∧ e 1 < 2^23 ∧ weight 23 (e 1) ≤ 3 ∧ Carries (c 1) 22 12 12 d
  parity : fr 0 0 = chr (decide (weight 23 (c 0) % 2 = 1) ^^ pe)
  row0 : Row fr 0 1 23 (c 0) (e 0) plain 0
  row1 : Row fr 1 0 23 (c 1) (e 1) (pnBit (c 0 >>> 11)) 1
  row2 : ∀ k, k < 11 → fr 2 (10 - k) = d (24 + k)
  row3 : ∀ k, k < 14 → fr 3 (13 - k) = d (35 + k)

/-- Error count reported for C0 of an AMBE frame: the flipped data bits or, if there is none, the parity of the flipped check bits. -/
def ambeC0Count (e : Nat) (pe : Bool) : Nat :=
  if weight 12 (e >>> 11) = 0 then (weight 23 e + pe.toNat) % 2 else weight 12 (e >>> 11)

/-- A `char fr[R][C]` whose elements are all 0 or 1. -/
def BitFrame (R C : Nat) (fr : Nat → Nat → Int) : Prop := ∀ i j, i < R → j < C → fr i j = 0 ∨ fr i j = 1

end Verif.Spec
