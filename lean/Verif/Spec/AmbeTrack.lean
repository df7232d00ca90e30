import Verif.Spec.Process
import Verif.Num.Real

/-!
# The exact log amplitudes of a history of AMBE frames

The reference for the binary32 decoders: the same sequence of frames, decoded in exact arithmetic. What happens with a frame
is determined by its kind (`AmbeOp.kind` in `Verif/Spec/Process.lean`) and the number of repeats before it.
-/

namespace Verif.Spec
open Verif Verif.Model Arith

/-- The parameters of a frame decoded in exact arithmetic after a frame with parameters `p`. -/
noncomputable def exactAmbe {F : Type} [Arith F] (op : AmbeOp F) (p : Parms ℝ) : Parms ℝ :=
  match op with
  | .v2450 _ _ e d =>
    match decodeAmbe2450 true d e p p Tls.start with
    | .ok r => r.cur
    | .error _ => p
  | .v2400 _ _ _ d =>
    match decodeAmbe2400 true d p p Tls.start with
    | .ok r => r.cur
    | .error _ => p

/-- `L` unvoiced bands of amplitude 1, with gain 0 and the fundamental `w`. -/
noncomputable def flat (L : Int) (w : ℝ) (p : Parms ℝ) : Parms ℝ :=
  { p with L := L, w0 := w, Vl := Arr.const 57 0, Ml := Arr.const 57 1, log2Ml := Arr.const 57 0, gamma := 0 }

/-- One frame. A voice frame is decoded; a tone keeps the parameters, as does a repeat, unless it is the fourth: then, and
after noise, the parameters are those of a new decoder. An erasure leaves 9 flat bands. -/
noncomputable def ambeTrackNext {F : Type} [Arith F] (x : Nat × Parms ℝ) (op : AmbeOp F) : Nat × Parms ℝ :=
  (ambeNext x.1 op.kind,
    match op.kind with
    | .voice => exactAmbe op x.2
    | .repeat_ => if x.1 = 3 then flat 15 (Real.pi ^ 2 / 16) x.2 else x.2
    | .tone => x.2
    | .erasure => flat 9 0 x.2
    | .noise => flat 15 (Real.pi ^ 2 / 16) x.2)

/-- The exact parameters after the frames `ops`, starting with 15 flat bands. -/
noncomputable def ambeTrack {F : Type} [Arith F] (p : Parms ℝ) (ops : List (AmbeOp F)) : Parms ℝ :=
  (ops.foldl ambeTrackNext (0, flat 15 (Real.pi ^ 2 / 16) p)).2

/-- The log amplitudes of the bands lie between -15.9 and 26.9, and one of the amplitudes is at least 0.0011. -/
def ModerateA (p : Parms ℝ) : Prop :=
  (∀ l : Fin 57, 1 ≤ l.val → (l.val : Int) ≤ p.L → -15.9 ≤ p.log2Ml l ∧ p.log2Ml l ≤ 26.9) ∧
  ∃ l : Fin 57, 1 ≤ l.val ∧ (l.val : Int) ≤ p.L ∧ 0.0011 ≤ p.Ml l

end Verif.Spec
