import Verif.Spec.Spectrum
import Verif.Spec.Process

/-!
# Two decoders that receive the same frames
-/

namespace Verif.Spec
open Verif Verif.Model

/-- Difference of the log amplitudes of two parameter sets. -/
noncomputable def logDiff (p q : Parms ℝ) (l : Nat) : ℝ := logAmp p l - logAmp q l

/-- The same IMBE payload; buffers and error counts may differ. -/
def ImbeOp.SameFrame (a b : ImbeOp ℝ) : Prop := a.d = b.d

/-- A frame that an IMBE decoder uses: bits as payload, a valid fundamental, and few errors. -/
def ImbeOp.Good (op : ImbeOp ℝ) : Prop :=
  Bits 88 op.d ∧ imbeFund op.d ≤ 207 ∧ op.errs2 ≤ 5 ∧ ∀ c ∈ op.counts, c.1 < 2

/-- The same AMBE payload for the same codec; buffers and error counts may differ. -/
def AmbeOp.SameFrame : AmbeOp ℝ → AmbeOp ℝ → Prop
  | .v2450 _ _ _ d, .v2450 _ _ _ d' => d = d'
  | .v2400 _ _ _ d, .v2400 _ _ _ d' => d = d'
  | _, _ => False

/-- A frame that an AMBE decoder uses as speech: bits as payload, and neither a tone nor an erasure nor a repeat. -/
def AmbeOp.Good (op : AmbeOp ℝ) : Prop := Bits 49 op.payload ∧ op.kind = .voice

end Verif.Spec
