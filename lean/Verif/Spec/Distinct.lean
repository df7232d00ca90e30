import Verif.Spec.Spectrum

/-!
# What the synthesis sees of a frame, and what two payloads must share to give the same
-/

namespace Verif.Spec
open Verif Verif.Model Verif.Gen

/-- The same fundamental, and the same voicing decision and amplitude for every harmonic. -/
def SameFrame (p q : Parms ℝ) : Prop :=
  q.w0 = p.w0 ∧ q.L = p.L ∧ ∀ l, 1 ≤ l → l ≤ p.L.toNat → q.Vl.getD l 0 = p.Vl.getD l 0 ∧ q.Ml.getD l 0 = p.Ml.getD l 0

/-! ## AMBE 2450 -/

/-- Payload positions of the field with the higher coefficients of block `i`. -/
def higherPos2450 (i : Nat) : List Nat :=
  if i = 1 then [24, 25, 26, 27, 44] else if i = 2 then [28, 29, 30, 45] else if i = 3 then [31, 32, 33, 46] else [34, 47, 48]

/-- The highest of the eight voicing bands that has a harmonic. -/
def topBand2450 (b0 : Nat) : Nat := (16 * AmbeLtable.getD b0 0 * AmbeW0table.getD b0 0 / (AmbeW0table_den : Int)).toNat

/-- What two 2450 payloads must share to be the same frame: the fundamental, the gain, both vectors, the higher coefficients of
the blocks that are longer than 2, and for a voice frame the voicing decisions of the bands that have a harmonic. -/
structure Same2450 (d d' : Nat → Int) : Prop where
  fund : ambeFund2450 d' = ambeFund2450 d
  gain : fieldVal d' [8, 9, 10, 11, 36] = fieldVal d [8, 9, 10, 11, 36]
  vec24 : fieldVal d' [12, 13, 14, 15, 16, 17, 18, 19, 40] = fieldVal d [12, 13, 14, 15, 16, 17, 18, 19, 40]
  vec58 : fieldVal d' [20, 21, 22, 23, 41, 42, 43] = fieldVal d [20, 21, 22, 23, 41, 42, 43]
  higher : ∀ i, 1 ≤ i → i ≤ 4 → 3 ≤ len (AmbeLmprbl.getD (ambeHarmonics2450 (ambeFund2450 d)).toNat []) i →
    fieldVal d' (higherPos2450 i) = fieldVal d (higherPos2450 i)
  voicing : ambeFund2450 d < 120 → ∀ j, j ≤ topBand2450 (ambeFund2450 d) →
    (AmbeVuv.getD (fieldVal d' [4, 5, 6, 7, 35]) []).getD j 0 = (AmbeVuv.getD (fieldVal d [4, 5, 6, 7, 35]) []).getD j 0

/-! ## AMBE 2400 -/

/-- Payload positions of the field with the higher coefficients of block `i`. -/
def higherPos2400 (i : Nat) : List Nat :=
  if i = 1 then [22, 23, 25, 26] else if i = 2 then [27, 28, 29, 30] else if i = 3 then [31, 32, 33, 34] else [35, 36, 37]

/-- The rows that a field selects from the table of block `i`; of the last table only every other row is used. -/
def higherRow2400 (i b : Nat) : List Int :=
  if i = 1 then AmbePlusHOCb5.getD b [] else if i = 2 then AmbePlusHOCb6.getD b [] else if i = 3 then AmbePlusHOCb7.getD b []
  else AmbePlusHOCb8.getD (2 * b) []

/-- The same for 2400 voice frames. The gain and the first vector need only be equal, not their fields; of the higher coefficients
those that the block has room for. -/
structure Same2400 (d d' : Nat → Int) : Prop where
  fund : ambeFund2400 d' = ambeFund2400 d
  voicing : fieldVal d' [38, 39, 40, 41] = fieldVal d [38, 39, 40, 41]
  gain : AmbePlusDg.getD (fieldVal d' [6, 7, 8, 9, 42, 43]) 0 = AmbePlusDg.getD (fieldVal d [6, 7, 8, 9, 42, 43]) 0
  vec24 : AmbePlusPRBA24.getD (fieldVal d' [10, 11, 12, 13, 14, 15, 16, 44, 45]) [] =
    AmbePlusPRBA24.getD (fieldVal d [10, 11, 12, 13, 14, 15, 16, 44, 45]) []
  vec58 : fieldVal d' [17, 18, 19, 20, 21, 46, 47] = fieldVal d [17, 18, 19, 20, 21, 46, 47]
  higher : ∀ i, 1 ≤ i → i ≤ 4 → ∀ k, 3 ≤ k → k ≤ 6 →
    k ≤ len (AmbePlusLmprbl.getD (AmbePlusLtable.getD (ambeFund2400 d) 0).toNat []) i →
    (higherRow2400 i (fieldVal d' (higherPos2400 i))).getD (k - 3) 0 = (higherRow2400 i (fieldVal d (higherPos2400 i))).getD (k - 3) 0

end Verif.Spec
