import Verif.Spec.Frames
import Verif.Gen.Imbe
import Verif.Gen.Ambe2450
import Verif.Gen.Ambe2400
import Mathlib.Data.Rat.Floor

/-!
# Specification vocabulary for the parameter decoders
-/

namespace Verif.Spec
open Verif.Gen

/-- The number whose binary digits, most significant first, are the payload bits at the positions `is`. -/
def fieldVal (d : Nat → Int) (is : List Nat) : Nat := is.foldl (fun a i => 2 * a + (d i).toNat) 0

/-- IMBE fundamental: bits 0-5, 85 and 86 of the payload. -/
def imbeFund (d : Nat → Int) : Nat := fieldVal d [0, 1, 2, 3, 4, 5, 85, 86]

/-- Number of voicing decisions for `L` harmonics: one per three harmonics, at most 12. -/
def imbeBands (L : Nat) : Nat := min 12 ((L + 2) / 3)

/-- Number of bits of gain field `i` (2..6) for `L` harmonics; first column of `ba`, which holds integers. -/
def gainBits (L i : Nat) : Nat := ((((ba.getD (L - 9) []).getD (i - 2) []).getD 0 0) / (ba_den : Int)).toNat

/-- Number of bits of the higher-order coefficient in row `m` (8 .. L+1). -/
def hocBits (L m : Nat) : Nat := (hoba.getD (L - 9) []).getD (m - 8) 0

/-- Number of bits of quantiser row `r` for `L` harmonics. Row 1 holds the voicing decisions, row 2 the gain, rows 3-7
the gain vector, rows 8 to `L+1` the higher-order coefficients. -/
def rowBits (L r : Nat) : Nat :=
  if r = 0 then 0 else if r = 1 then imbeBands L else if r = 2 then 6
  else if r ≤ 7 then gainBits L (r - 1) else if r ≤ L + 1 then hocBits L r else 0

/-- Bit `c` of row `r`, as one number. -/
def code (r c : Nat) : Nat := 12 * r + c

/-- All quantiser bits for `L` harmonics. -/
def fieldCodes (L : Nat) : List Nat := (List.range 58).flatMap fun r => (List.range (rowBits L r)).map (code r)

/-- The destinations of the payload bits 6, 7, ..., 84, in this order, according to table `bo`. -/
def boCodes (L : Nat) : List Nat := (bo.getD (L - 9) []).map fun e => code (e.getD 0 0) (e.getD 1 0)

/-- Block lengths. -/
def blockLens (L : Nat) : List Nat := ImbeJi.getD (L - 9) []

/-- The payload bit at 7100x4400 position `convSrc K i` goes to position `i` of the 7200x4400 order, for `K` voicing
decisions. -/
def convSrc (K i : Nat) : Nat :=
  if i = 87 then 0
  else if i < 41 then i + 1
  else if i < 48 then i + K + 3
  else if i < 48 + K then i - 4
  else if i = 48 + K then 42
  else if i = 49 + K then 43
  else i + 1

/-- IMBE fundamental in 7100x4400 order: bits 1-6, 86 and 87 of the payload. -/
def imbeFund7100 (d : Nat → Int) : Nat := fieldVal d [1, 2, 3, 4, 5, 6, 86, 87]

/-- Number of harmonics for fundamental `b0`: `⌊0.9254 ⌊π/w0 + 0.25⌋⌋` with `w0 = 4π/(b0 + 39.5)`. -/
def imbeHarmonics (b0 : Nat) : Int := ⌊(9254 / 10000 : ℚ) * ⌊((b0 : ℚ) + 39.5) / 4 + 0.25⌋⌋

/-- First field of an AMBE 2450 frame. -/
def ambeFund2450 (d : Nat → Int) : Nat := fieldVal d [0, 1, 2, 3, 37, 38, 39]

/-- Tone signature of an AMBE 2450 frame: six leading ones, and either the last four bits are zero or bits 12-15 are
repeated at 20-23. -/
def ToneSig (d : Nat → Int) : Prop :=
  (∀ i, i < 6 → d i = 1) ∧ ((∀ i, i < 4 → d (45 + i) = 0) ∨ ∀ i, i < 4 → d (12 + i) = d (20 + i))

instance (d : Nat → Int) : Decidable (ToneSig d) := by unfold ToneSig; infer_instance

/-- Number of harmonics of an AMBE 2450 frame: the table of the standard, and two fixed values for silence. -/
def ambeHarmonics2450 (b0 : Nat) : Int := if b0 = 124 then 15 else if b0 = 125 then 14 else AmbeLtable.getD b0 0

/-- First field of an AMBE 2400 frame. -/
def ambeFund2400 (d : Nat → Int) : Nat := fieldVal d [0, 1, 2, 3, 4, 5, 48]

/-- Three bits that select the upper part of a D-STAR tone index. -/
def toneHigh2400 (d : Nat → Int) : Nat := [4, 0, 1, 2, 3, 7, 6, 5].getD (fieldVal d [6, 7, 8]) 0

/-- Tone index of an AMBE 2400 frame. -/
def toneIdx2400 (d : Nat → Int) : Nat := 32 * toneHigh2400 d + fieldVal d [9, 42, 43, 10, 11]

end Verif.Spec
