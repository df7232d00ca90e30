import Verif.Spec.Frames

/-!
# What the printing functions print

Bits are printed as `0` and `1`, fields are separated by one blank.
-/

namespace Verif.Spec
open Verif

def bitChar (v : Int) : Char := if v = 1 then '1' else '0'

/-- `n` payload bits from `off` on. -/
def field (d : Nat → Int) (off n : Nat) : List Char := (List.range n).map fun k => bitChar (d (off + k))

/-- Bits `hi, hi-1, ..` of a codeword, `n` of them. -/
def rowField (fr : Nat → Nat → Int) (i hi n : Nat) : List Char := (List.range n).map fun k => bitChar (fr i (hi - k))

/-- The fields with blanks between them. -/
def spaced (fs : List (List Char)) : List Char := List.intercalate [' '] fs

/-- The eight fields u0 .. u7 of IMBE 7200x4400. -/
def imbe7200DataText (d : Nat → Int) : List Char :=
  spaced [field d 0 12, field d 12 12, field d 24 12, field d 36 12, field d 48 11, field d 59 11, field d 70 11, field d 81 7]

/-- The seven fields of IMBE 7100x4400. -/
def imbe7100DataText (d : Nat → Int) : List Char :=
  spaced [field d 0 7, field d 7 12, field d 19 12, field d 31 12, field d 43 11, field d 54 11, field d 65 23]

/-- The eight codewords of an IMBE 7200x4400 frame. -/
def imbe7200FrameText (fr : Nat → Nat → Int) : List Char :=
  spaced [rowField fr 0 22 23, rowField fr 1 22 23, rowField fr 2 22 23, rowField fr 3 22 23, rowField fr 4 14 15,
    rowField fr 5 14 15, rowField fr 6 14 15, rowField fr 7 6 7]

/-- The codewords of an IMBE 7100x4400 frame, data and check bits as separate fields. -/
def imbe7100FrameText (fr : Nat → Nat → Int) : List Char :=
  spaced [rowField fr 0 18 7, rowField fr 0 11 12, rowField fr 1 23 12, rowField fr 1 11 12, rowField fr 2 22 12,
    rowField fr 2 10 11, rowField fr 3 22 12, rowField fr 3 10 11, rowField fr 4 14 11, rowField fr 4 3 4,
    rowField fr 5 14 11, rowField fr 5 3 4, rowField fr 6 22 23]

/-- The codewords of an AMBE frame with labels. -/
def ambeFrameText (fr : Nat → Nat → Int) : List Char :=
  "ambe_fr c0: ".toList ++ rowField fr 0 23 24 ++ " ambe_fr c1: ".toList ++ rowField fr 1 22 23 ++
    " ambe_fr c2: ".toList ++ rowField fr 2 10 11 ++ " ambe_fr c3: ".toList ++ rowField fr 3 13 14 ++ " ".toList

/-- Lengths of the codewords of the three frame layouts, row by row. -/
def rows7200 : List Nat := [23, 23, 23, 23, 15, 15, 15, 7]
def rows7100 : List Nat := [19, 24, 23, 23, 15, 15, 23]
def rowsAmbe : List Nat := [24, 23, 11, 14]

/-- The codewords of the frame consist of bits. -/
def RowBits (rows : List Nat) (fr : Nat → Nat → Int) : Prop := ∀ i (h : i < rows.length), Bits rows[i] (fr i)

/-- Two frames agree in all bits of their codewords. -/
def SameRows (rows : List Nat) (fr fr' : Nat → Nat → Int) : Prop :=
  ∀ i (h : i < rows.length), ∀ j < rows[i], fr i j = fr' i j

end Verif.Spec
