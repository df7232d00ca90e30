import Verif.Spec.Voiced
import Verif.Spec.Finite

/-!
# Vocabulary for the accuracy of the synthesis in binary32

The exact description of a frame (`Verif.Spec.Voiced`) with two thresholds widened. Binary32 compares the change of the
fundamental with a rounded tenth, and it counts full turns from a rounded phase. Within a few units in the last place of
the two thresholds either outcome is allowed.
-/

namespace Verif.Spec
open Verif Verif.Model Verif.Num Arith

variable {m : Libm}

/-- The value of a number, 0 for infinities and NaN. -/
noncomputable def number : FP → ℝ
  | .fin _ q => (q : ℝ)
  | _ => 0

/-- The values in a parameter set. -/
noncomputable def valuesOf (p : Parms (IEEE m)) : Parms ℝ where
  w0 := number p.w0
  L := p.L
  K := p.K
  Vl := p.Vl
  Ml := fun l => number (p.Ml l)
  log2Ml := fun l => number (p.log2Ml l)
  PHIl := fun l => number (p.PHIl l)
  PSIl := fun l => number (p.PSIl l)
  gamma := number p.gamma
  un := p.un
  repeat_ := p.repeat_
  swn := p.swn
  localEnergy := number p.localEnergy
  amplitudeThreshold := p.amplitudeThreshold
  errorRate := number p.errorRate
  errorCountTotal := p.errorCountTotal
  errorCount4 := p.errorCount4
  repeatCount := p.repeatCount
  mutingThreshold := number p.mutingThreshold
  previousUw := fun i => number (p.previousUw i)
  noiseSeed := number p.noiseSeed
  noiseOverlap := fun i => number (p.noiseOverlap i)

/-- `Track` with a correction of at most half a turn and `η` radians per frame. -/
structure TrackWithin (η φ0 φ1 ω0 ω1 : ℝ) (θ : ℝ → ℝ) : Prop where
  start : θ 0 = φ0
  stop : SameAngle (θ 160) φ1
  glide : ∃ δ : ℝ, |δ| ≤ (Real.pi + η) / 160 ∧ ∀ t, HasDerivAt θ (ω0 + δ + (ω1 - ω0) * t / 160) t

/-- `Glides` with the fraction `κ` in place of a tenth. -/
def GlidesAt (κ : ℝ) (cur prev : Parms ℝ) (l : Fin 57) : Prop :=
  cur.Vl l = 1 ∧ prev.Vl l = 1 ∧ l.val < 8 ∧ |cur.w0 - prev.w0| < κ * cur.w0

/-- `Contribution` where a change of the fundamental between `1/10 - ε` and `1/10 + ε` may be taken either way and the
correction of the frequency may exceed half a turn by `η` radians. -/
def ContributionWithin (ε η : ℝ) (cur prev : Parms ℝ) (l : Fin 57) (x : Fin 160 → ℝ) : Prop :=
  (GlidesAt (1 / 10 + ε) cur prev l ∧ ∃ θ, TrackWithin η (prev.PHIl l) (cur.PHIl l) (l.val * prev.w0) (l.val * cur.w0) θ ∧
    ∀ n : Fin 160, x n = 2 * ((1 - (n.val : ℝ) / 160) * prev.Ml l + (n.val : ℝ) / 160 * cur.Ml l) * Real.cos (θ n.val)) ∨
  (¬ GlidesAt (1 / 10 - ε) cur prev l ∧ ∀ n : Fin 160, x n =
    (if prev.Vl l = 1 then
      2 * trapezoid (n.val + 160) * prev.Ml l * Real.cos (prev.PHIl l + l.val * prev.w0 * n.val) else 0) +
    (if cur.Vl l = 1 then
      2 * trapezoid n.val * cur.Ml l * Real.cos (cur.PHIl l + l.val * cur.w0 * (n.val - 160)) else 0))

/-- The sum of the magnitudes of the voiced harmonics `1 .. n`. -/
noncomputable def voicedSum (n : Int) (p : Parms ℝ) : ℝ :=
  ∑ l : Fin 57, if 1 ≤ l.val ∧ (l.val : Int) ≤ n ∧ p.Vl l = 1 then |p.Ml l| else 0

/-- The numbers of a parameter set that decoding determines are of ordinary size: a fundamental between `1/64` and `5/8`
radians per sample (or 0, as in an erasure), amplitudes of the voiced harmonics of at most `2^32`, noise samples of at most `2^16`. -/
structure OrdinarySet (p : Parms (IEEE m)) : Prop where
  w0 : ∃ q : ℚ, Val p.w0 q ∧ (q = 0 ∨ 1 / 64 ≤ q) ∧ q ≤ 5 / 8
  ml : ∀ l : Fin 57, 1 ≤ l.val → (l.val : Int) ≤ p.L → p.Vl l = 1 → Bnd (p.Ml l) (2 ^ 32)
  noise : ∀ i, Bnd (p.noiseOverlap i) (2 ^ 16)

/-- The phases of a parameter set are of ordinary size: at most `32 + 100 l` radians for harmonic `l`. -/
def PhasesOk (p : Parms (IEEE m)) : Prop :=
  ∀ l : Fin 57, 1 ≤ l.val → Bnd (p.PHIl l) (32 + 100 * l.val) ∧ Bnd (p.PSIl l) (32 + 100 * l.val)

/-- The angles `a` and `b` differ by at most `ε`, up to full turns. -/
def AngleWithin (ε a b : ℝ) : Prop := ∃ k : ℤ, |a - (b + 2 * Real.pi * k)| ≤ ε

end Verif.Spec
