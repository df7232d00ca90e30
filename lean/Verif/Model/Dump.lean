import Verif.Model.Frames

/-!
# Model of the functions that print bits to `stderr`

The printed text is a list of characters.
-/

namespace Verif.Model
open Verif

/-- `fprintf(stderr, "%i", v)` for a `char`. E.g. src/imbe/imbe7200x4400.c:129-129. -/
def intText (v : Int) : List Char := if v < 0 then '-' :: Nat.toDigits 10 (-v).toNat else Nat.toDigits 10 v.toNat

/-- `for (i = 0; i < n; i++) { if (i == s1 || ..) fprintf(" "); fprintf("%i", *p); p++; }` over a payload of `n` chars,
src/imbe/imbe7200x4400.c:127-131, 144-151; src/imbe/imbe7100x4400.c:37-44; src/ambe/ambe3600x2450.c:103-107;
src/ambe/ambe3600x2400.c:86-90. -/
def printData (n : Nat) (seps : List Nat) (d : Nat → Int) (o : List Char) : Exec (List Char) :=
  loop n (fun i o => do
    let o := if i ∈ seps then o ++ [' '] else o
    .ok (o ++ intText (← rd n d i))) o

/-- `for (j = n-1; j >= 0; j--) { if (j == s) fprintf(" "); fprintf("%i", fr[i][j]); }`,
src/imbe/imbe7200x4400.c:163-177; src/imbe/imbe7100x4400.c:56-92; src/ambe/ambe3600x2450.c:120-143;
src/ambe/ambe3600x2400.c:103-126. -/
def printRow (R C : Nat) (fr : Frame) (i n : Nat) (sep : Option Nat) (o : List Char) : Exec (List Char) :=
  loopDown n (fun j o => do
    let o := if sep = some j then o ++ [' '] else o
    .ok (o ++ intText (← rdF R C fr i j))) o

/-- `mbe_dumpImbe4400Data`, src/imbe/imbe7200x4400.c:121-132. -/
def dumpImbe4400Data (d : Nat → Int) : Exec (List Char) := printData 88 [] d []

/-- `mbe_dumpImbe7200x4400Data`, src/imbe/imbe7200x4400.c:138-152. -/
def dumpImbe7200Data (d : Nat → Int) : Exec (List Char) := printData 88 [12, 24, 36, 48, 59, 70, 81] d []

/-- `mbe_dumpImbe7200x4400Frame`, src/imbe/imbe7200x4400.c:158-178. -/
def dumpImbe7200Frame (fr : Frame) : Exec (List Char) := do
  let o ← loop 4 (fun i o => do .ok ((← printRow 8 23 fr i 23 none o) ++ [' '])) []
  let o ← loop 3 (fun i o => do .ok ((← printRow 8 23 fr (4 + i) 15 none o) ++ [' '])) o
  printRow 8 23 fr 7 7 none o

/-- `mbe_dumpImbe7100x4400Data`, src/imbe/imbe7100x4400.c:31-45. -/
def dumpImbe7100Data (d : Nat → Int) : Exec (List Char) := printData 88 [7, 19, 31, 43, 54, 65] d []

/-- `mbe_dumpImbe7100x4400Frame`, src/imbe/imbe7100x4400.c:51-93. -/
def dumpImbe7100Frame (fr : Frame) : Exec (List Char) := do
  let o ← printRow 7 24 fr 0 19 (some 11) []
  let o := o ++ [' ']
  let o ← printRow 7 24 fr 1 24 (some 11) o
  let o := o ++ [' ']
  let o ← loop 2 (fun i o => do .ok ((← printRow 7 24 fr (2 + i) 23 (some 10) o) ++ [' '])) o
  let o ← loop 2 (fun i o => do .ok ((← printRow 7 24 fr (4 + i) 15 (some 3) o) ++ [' '])) o
  printRow 7 24 fr 6 23 none o

/-- `mbe_dumpAmbe2450Data`, src/ambe/ambe3600x2450.c:97-109, and `mbe_dumpAmbe2400Data`,
src/ambe/ambe3600x2400.c:80-92. -/
def dumpAmbeData (d : Nat → Int) : Exec (List Char) := do .ok ((← printData 49 [] d []) ++ [' '])

/-- `mbe_dumpAmbe3600x2450Frame`, src/ambe/ambe3600x2450.c:115-144, and `mbe_dumpAmbe3600x2400Frame`,
src/ambe/ambe3600x2400.c:98-127. -/
def dumpAmbeFrame (fr : Frame) : Exec (List Char) := do
  let o := "ambe_fr c0: ".toList
  let o ← printRow 4 24 fr 0 24 none o
  let o := o ++ " ".toList
  let o := o ++ "ambe_fr c1: ".toList
  let o ← printRow 4 24 fr 1 23 none o
  let o := o ++ " ".toList
  let o := o ++ "ambe_fr c2: ".toList
  let o ← printRow 4 24 fr 2 11 none o
  let o := o ++ " ".toList
  let o := o ++ "ambe_fr c3: ".toList
  let o ← printRow 4 24 fr 3 14 none o
  .ok (o ++ " ".toList)

end Verif.Model
