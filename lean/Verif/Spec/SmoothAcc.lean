import Verif.Spec.Energy
import Verif.Spec.VoicedAcc

/-!
# Vocabulary for the accuracy of the adaptive smoothing in binary32
-/

namespace Verif.Num

/-- `expf` is accurate to the fraction `2^-20` for arguments from 0 to 4. -/
def ExpAcc (m : Libm) : Prop :=
  ∀ (x : FP) (q : ℚ), Val x q → 0 ≤ q → q ≤ 4 → ∃ r : ℚ, Val (m.exp x) r ∧ |(r : ℝ) - Real.exp q| ≤ Real.exp q / 1048576

end Verif.Num

namespace Verif.Spec
open Verif Verif.Model Verif.Num Arith

variable {m : Libm}

/-- The amplitudes of a frame are numbers from 0 to `A`, for at most 56 harmonics. -/
def AmpsTo (A : ℚ) (p : Parms (IEEE m)) : Prop :=
  p.L ≤ 56 ∧ ∀ l : Fin 57, 1 ≤ l.val → (l.val : Int) ≤ p.L → ∃ a : ℚ, Val (p.Ml l) a ∧ 0 ≤ a ∧ a ≤ A

/-- The sum of the amplitudes. -/
noncomputable def ampTotal (M : Nat → ℝ) (L : Nat) : ℝ := ∑ l ∈ Finset.Icc 1 L, M l

/-- The energy smoothing takes for a frame: the one handed over by the enhancement of the same parameter set, if there is one. -/
def frameEnergy {F : Type} [Arith F] (addr : Nat) (cur : Parms F) (t : Tls F) : F :=
  if t.preEnhValid ∧ t.preEnhOwner = addr then t.preEnhRm0 else sqSum cur.Ml cur.L

/-- The local energy after `n` frames of energies `r 0, …, r (n - 1)`, in exact arithmetic. -/
noncomputable def energyTrack (e : ℝ) (r : Nat → ℝ) : Nat → ℝ
  | 0 => e
  | n + 1 => max 10000 (0.95 * (if energyTrack e r n < 10000 then 75000 else energyTrack e r n) + 0.05 * r n)

end Verif.Spec
