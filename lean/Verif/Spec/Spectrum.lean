import Verif.Spec.Params
import Verif.Model.Parms
import Mathlib.Analysis.SpecialFunctions.Trigonometric.Basic
import Mathlib.Analysis.SpecialFunctions.Pow.Real
import Mathlib.Algebra.BigOperators.Intervals

/-!
# What a frame says about the spectrum

The encoder of the standard subtracts a prediction from the log amplitudes, cuts the residual into blocks, takes the
cosine transform of every block, and transforms the vector of block means once more. The decoder is specified here by
running this analysis on its output: it has to give the quantiser values that the payload selects.
-/

namespace Verif.Spec
open Verif Verif.Gen Verif.Model

/-- Coefficient `k` (counted from 1) of the cosine transform of `x 1 .. x N`. Coefficient 1 is the mean. -/
noncomputable def dct (N : Nat) (x : Nat → ℝ) (k : Nat) : ℝ :=
  (∑ j ∈ Finset.Icc 1 N, x j * Real.cos (Real.pi * ((k : ℝ) - 1) * ((j : ℝ) - 1 / 2) / N)) / N

/-- Number of elements before block `i` (counted from 1) for block lengths `J`. -/
def before (J : List Nat) (i : Nat) : Nat := (J.take (i - 1)).sum

/-- Length of block `i`. -/
def len (J : List Nat) (i : Nat) : Nat := J.getD (i - 1) 0

/-- Cosine transform of block `i` of `x`. -/
noncomputable def blockDct (J : List Nat) (x : Nat → ℝ) (i k : Nat) : ℝ := dct (len J i) (fun j => x (before J i + j)) k

/-- Linear interpolation of `a 0, a 1, ...` at a real position. -/
noncomputable def interp (a : Nat → ℝ) (x : ℝ) : ℝ := (1 - Int.fract x) * a ⌊x⌋.toNat + Int.fract x * a (⌊x⌋.toNat + 1)

/-- The values `a 1 .. a M`, stretched to `L` values. -/
noncomputable def stretched (a : Nat → ℝ) (M L l : Nat) : ℝ := interp a ((M : ℝ) / L * l)

/-- Prediction from the previous frame: the stretched previous log amplitudes without their mean, times `rho`. -/
noncomputable def prediction (rho : ℝ) (a : Nat → ℝ) (M L l : Nat) : ℝ :=
  rho * (stretched a M L l - (∑ k ∈ Finset.Icc 1 L, stretched a M L k) / L)

/-- Centre of cell `b` of a symmetric uniform quantiser with `n` bits and cells of width 1. -/
noncomputable def centre (n b : Nat) : ℝ := (b : ℝ) + 1 / 2 - 2 ^ n / 2

/-- Log amplitude of harmonic `l`. -/
noncomputable def logAmp (p : Parms ℝ) (l : Nat) : ℝ := p.log2Ml.getD l 0

/-! ## IMBE -/

/-- Prediction coefficient for `L` harmonics. -/
noncomputable def imbeRhoSpec (L : Nat) : ℝ := if L ≤ 15 then 0.4 else if L ≤ 24 then 0.03 * L - 0.05 else 0.7

/-- Payload positions of the bits of quantiser row `r`, most significant first. -/
def rowPos (L r : Nat) : List Nat := (List.range (rowBits L r)).reverse.map fun c => (boCodes L).idxOf (code r c) + 6

/-- Quantiser value of row `r`. -/
def rowValue (d : Nat → Int) (L r : Nat) : Nat := fieldVal d (rowPos L r)

/-- Gain vector selected by the payload: element 1 from the gain table, elements 2 to 6 from uniform quantisers. -/
noncomputable def imbeGain (d : Nat → Int) (L m : Nat) : ℝ :=
  if m = 1 then (B2.getD (rowValue d L 2) 0 : ℝ) / B2_den
  else (((ba.getD (L - 9) []).getD (m - 2) []).getD 1 0 : ℝ) / ba_den * centre (gainBits L m) (rowValue d L (m + 1))

/-- Quantiser row of higher-order coefficient `k` (from 2) of block `i`: all coefficients of the earlier blocks first. -/
def hocRow (L i k : Nat) : Nat := 8 + (((blockLens L).take (i - 1)).map (· - 1)).sum + (k - 2)

/-- Higher-order coefficient selected by the payload; a coefficient without bits is zero. -/
noncomputable def imbeHigher (d : Nat → Int) (L i k : Nat) : ℝ :=
  if rowBits L (hocRow L i k) = 0 then 0
  else (quantstep.getD (rowBits L (hocRow L i k) - 1) 0 : ℝ) / quantstep_den * ((standdev.getD (k - 2) 0 : ℝ) / standdev_den) *
    centre (rowBits L (hocRow L i k)) (rowValue d L (hocRow L i k))

/-- The part of the IMBE log amplitudes `cur` that is not predicted from `prev`. -/
noncomputable def imbeResidual (cur prev : Parms ℝ) (l : Nat) : ℝ :=
  logAmp cur l - prediction (imbeRhoSpec cur.L.toNat) (logAmp prev) prev.L.toNat cur.L.toNat l

/-! ## AMBE

Both AMBE codecs code the residual in four blocks. The first two coefficients of the blocks are coded together, as a
vector of eight values of which the mean is sent as the gain; the coefficients 3 to 6 of each block come from a table. -/

/-- The contents of a voice payload that describe the spectral shape. -/
structure Shape where
  /-- Coefficients 2 to 8 of the vector of eight. -/
  vector : Nat → ℝ
  /-- Coefficient `k` (from 3) of block `i` (from 1). -/
  higher : Nat → Nat → ℝ
  /-- Block lengths by number of harmonics. -/
  lens : List (List Nat)

/-- A table entry; all tables are given in millionths. -/
noncomputable def entry (t : List (List Int)) (i j : Nat) : ℝ := ((t.getD i []).getD j 0 : ℝ) / 1000000

/-- Coefficients 2 to 4 from one table, 5 to 8 from another. -/
noncomputable def vectorOf (t24 t58 : List (List Int)) (b3 b4 m : Nat) : ℝ :=
  if m ≤ 4 then entry t24 b3 (m - 2) else entry t58 b4 (m - 5)

/-- Coefficients 3 to 6 from the table of the block, zero beyond. -/
noncomputable def higherOf (t : Nat → List (List Int)) (b : Nat → Nat) (i k : Nat) : ℝ :=
  if k ≤ 6 then entry (t i) (b i) (k - 3) else 0

/-- The shape in an AMBE 2450 payload. -/
noncomputable def shape2450Of (d : Nat → Int) : Shape where
  vector := vectorOf AmbePRBA24 AmbePRBA58 (fieldVal d [12, 13, 14, 15, 16, 17, 18, 19, 40])
    (fieldVal d [20, 21, 22, 23, 41, 42, 43])
  higher := higherOf (fun i => if i = 1 then AmbeHOCb5 else if i = 2 then AmbeHOCb6 else if i = 3 then AmbeHOCb7 else AmbeHOCb8)
    fun i => if i = 1 then fieldVal d [24, 25, 26, 27, 44] else if i = 2 then fieldVal d [28, 29, 30, 45]
      else if i = 3 then fieldVal d [31, 32, 33, 46] else fieldVal d [34, 47, 48]
  lens := AmbeLmprbl

/-- The shape in an AMBE 2400 payload. The last table has only even rows in use. -/
noncomputable def shape2400Of (d : Nat → Int) : Shape where
  vector := vectorOf AmbePlusPRBA24 AmbePlusPRBA58 (fieldVal d [10, 11, 12, 13, 14, 15, 16, 44, 45])
    (fieldVal d [17, 18, 19, 20, 21, 46, 47])
  higher := higherOf (fun i => if i = 1 then AmbePlusHOCb5 else if i = 2 then AmbePlusHOCb6 else if i = 3 then AmbePlusHOCb7
      else AmbePlusHOCb8)
    fun i => if i = 1 then fieldVal d [22, 23, 25, 26] else if i = 2 then fieldVal d [27, 28, 29, 30]
      else if i = 3 then fieldVal d [31, 32, 33, 34] else 2 * fieldVal d [35, 36, 37]
  lens := AmbePlusLmprbl

/-- The part of the AMBE log amplitudes `cur` that is not predicted from `prev`. The stretched previous spectrum starts
with its first harmonic. -/
noncomputable def ambeResidual (cur prev : Parms ℝ) (l : Nat) : ℝ :=
  logAmp cur l - prediction 0.65 (fun i => logAmp prev (max 1 i)) prev.L.toNat cur.L.toNat l

/-- Fundamental of AMBE 2450, in cycles per sample: from a table for a voice frame, `π / 32` for a silence frame. -/
noncomputable def ambeF0_2450 (b0 : Nat) : ℝ :=
  if b0 = 124 ∨ b0 = 125 then Real.pi / 32 else (AmbeW0table.getD b0 0 : ℝ) / AmbeW0table_den

/-- Fundamental of AMBE 2400, in cycles per sample. -/
noncomputable def ambeF0_2400 (b0 : Nat) : ℝ := (2 : ℝ) ^ (-4.311767578125 - 0.021336 * ((b0 : ℝ) + 0.5))

/-- The vector of eight, from the first two coefficients of each block: elements `2i-1` and `2i` are their sum and
difference after scaling the second one. -/
noncomputable def vector8 (J : List Nat) (x : Nat → ℝ) (n : Nat) : ℝ :=
  if n % 2 = 1 then blockDct J x ((n + 1) / 2) 1 + Real.sqrt 2 * blockDct J x ((n + 1) / 2) 2
  else blockDct J x (n / 2) 1 - Real.sqrt 2 * blockDct J x (n / 2) 2

/-- The residual `x` has the shape `S`. -/
def HasShape (S : Shape) (L : Nat) (x : Nat → ℝ) : Prop :=
  (∀ m, 2 ≤ m → m ≤ 8 → dct 8 (vector8 (S.lens.getD L []) x) m = S.vector m) ∧
  ∀ i, 1 ≤ i → i ≤ 4 → ∀ k, 3 ≤ k → k ≤ len (S.lens.getD L []) i → blockDct (S.lens.getD L []) x i k = S.higher i k

end Verif.Spec
