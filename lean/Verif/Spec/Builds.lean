import Verif.Spec.Simd

/-!
# What two builds have in common

Members of the state that only the synthesis computes, and the rest.
-/

namespace Verif.Spec
open Verif Verif.Model Arith

variable {F : Type} [Arith F]

/-- Parameter sets that agree in all members except those that enhancement, smoothing and synthesis compute: amplitudes, voicing,
phases with the noise in them, local energy and unvoiced block. -/
structure ParamEq (p q : Parms F) : Prop where
  rest : q = { p with Ml := q.Ml, Vl := q.Vl, PHIl := q.PHIl, localEnergy := q.localEnergy,
                      previousUw := q.previousUw }
  phi0 : q.PHIl 0 = p.PHIl 0

/-- Parameter sets as decoded: amplitudes and voicing of the bands agree too. -/
structure DecodedEq (p q : Parms F) : Prop extends ParamEq p q where
  band : ∀ l : Fin 57, 1 ≤ l.val → (l.val : Int) ≤ p.L → q.Ml l = p.Ml l ∧ q.Vl l = p.Vl l

/-- Thread-local variables that agree in all members except the energy handed to the smoothing and the transform tables. -/
def ThreadEq (t u : Tls F) : Prop :=
  u = { t with preEnhRm0 := u.preEnhRm0, preEnhValid := u.preEnhValid, preEnhOwner := u.preEnhOwner, plan := u.plan }

/-- Decoder states that agree in everything decoded: the last decoded parameter set completely. -/
structure StateEq (s s' : St F) : Prop where
  cur : ParamEq s.cur s'.cur
  prev : DecodedEq s.prev s'.prev
  enh : ParamEq s.enh s'.enh
  tls : ThreadEq s.tls s'.tls

/-- Deliveries that agree but for the samples. -/
def SameStatus : Option (Arr 160 F × List Char) → Option (Arr 160 F × List Char) → Prop
  | none, none => True
  | some x, some y => x.2 = y.2
  | _, _ => False

/-- A parameter set for which the synthesis plays comfort noise instead of speech: four repeats in a row, or an error rate above the
threshold, unless that is the threshold of AMBE. -/
def NoiseInstead (p : Parms F) : Prop :=
  4 ≤ p.repeatCount ∨ (lt (lit 1 1000000) (abs (p.mutingThreshold -ᶠ mutingAmbe)) = true ∧ lt p.mutingThreshold p.errorRate = true)

end Verif.Spec
