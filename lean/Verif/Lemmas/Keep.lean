import Verif.Lemmas.Decode

/-!
# The decoders keep the previous amplitudes of the bands `1 .. prev.L`

They only extend the previous frame's arrays beyond its last band (and refresh element 0).
-/

namespace Verif.Model
open Verif Verif.Gen Arith
variable {F : Type} [Arith F]
set_option linter.unusedSectionVars false

/-- The amplitudes of the bands `1 .. p.L` of `p` are those of `q`. -/
def KeepAmps (p q : Parms F) : Prop :=
  ∀ l : Fin 57, 1 ≤ l.val → (l.val : Int) ≤ p.L → q.Ml l = p.Ml l ∧ q.log2Ml l = p.log2Ml l

theorem KeepAmps.refl (p : Parms F) : KeepAmps p p := fun _ _ _ => ⟨rfl, rfl⟩

theorem extendPrev_keep (L : Int) (prev : Parms F) : Post (extendPrev L prev) (KeepAmps prev) := by
  unfold extendPrev
  refine Post.ite (fun _ => ?_) (fun _ => Post.pure (KeepAmps.refl _))
  refine (loop_post' (fun q => KeepAmps prev q ∧ q.L = prev.L) ⟨KeepAmps.refl _, rfl⟩ fun i p hp => ?_).mono fun _ h => h.1
  refine Post.bind Post.true fun _ _ => Post.bind Arr.wr_post fun M hM => Post.bind Post.true fun _ _ =>
    Post.bind Arr.wr_post fun G hG => Post.pure ⟨fun l h1 h2 => ?_, hp.2⟩
  obtain ⟨a0, _, rfl⟩ := hM
  obtain ⟨_, _, rfl⟩ := hG
  have := hp.2
  have hne : l.val ≠ (p.L + 1 + i).toNat := by omega
  dsimp only
  rw [Arr.set_ne hne, Arr.set_ne hne]
  exact hp.1 l h1 h2

theorem ambeBody_keep (lax : Bool) (T : AmbeTabs) (f : AmbeFields) (L : Int) (unvc : F) (cache : DctCache F 9 18)
    (cur prev : Parms F) : Post (ambeBody lax T f L unvc cache cur prev) fun r => KeepAmps prev r.2 := by
  unfold ambeBody
  refine Post.bind Post.true fun dg _ => ?_
  iterate 16 refine Post.bind Post.true fun _ _ => ?_
  refine Post.bind (extendPrev_keep _ _) fun p hp => ?_
  refine Post.bind Post.true fun _ _ => Post.bind Arr.wr_post fun G hG => ?_
  refine Post.bind Post.true fun _ _ => Post.bind Arr.wr_post fun M hM => ?_
  iterate 2 refine Post.bind Post.true fun _ _ => ?_
  refine Post.bind Post.true fun c _ => Post.pure fun l h1 h2 => ?_
  obtain ⟨_, _, rfl⟩ := hM
  obtain ⟨_, _, rfl⟩ := hG
  have hne : l.val ≠ (0 : Int).toNat := by show l.val ≠ 0; omega
  dsimp only
  rw [Arr.set_ne hne, Arr.set_ne hne]
  exact hp l h1 h2

theorem decodeImbe4400_keep (lax : Bool) (d : Nat → Int) (cur prev : Parms F) (t : Tls F) :
    Post (decodeImbe4400 lax d cur prev t) fun r => KeepAmps prev r.prev := by
  unfold decodeImbe4400
  refine Post.bind Post.true fun b0 _ => ?_
  refine Post.ite (fun _ => Post.pure (KeepAmps.refl _)) fun _ => ?_
  refine Post.bind Post.true fun L _ => ?_
  refine Post.ite (fun _ => Post.pure (KeepAmps.refl _)) fun _ => ?_
  refine Post.bind Post.true fun K _ => ?_
  unfold imbeDecodeBody
  iterate 6 refine Post.bind Post.true fun _ _ => ?_
  refine Post.bind (extendPrev_keep _ _) fun p hp => ?_
  refine Post.bind Post.true fun _ _ => ?_
  exact Post.bind Post.true fun c _ => Post.pure hp

theorem decodeAmbe2450_keep (lax : Bool) (d : Nat → Int) (e : Int) (cur prev : Parms F) (t : Tls F) :
    Post (decodeAmbe2450 lax d e cur prev t) fun r => KeepAmps prev r.prev := by
  unfold decodeAmbe2450
  refine Post.bind Post.true fun tone _ => Post.bind Post.true fun b0 _ => ?_
  refine Post.ite (fun _ => Post.pure (KeepAmps.refl _)) fun _ => ?_
  refine Post.ite (fun _ => Post.pure (KeepAmps.refl _)) fun _ => ?_
  refine Post.ite (fun _ => Post.pure (KeepAmps.refl _)) fun _ => ?_
  unfold ambe2450Voice
  iterate 4 refine Post.bind Post.true fun _ _ => ?_
  exact Post.bind (ambeBody_keep _ _ _ _ _ _ _ _) fun q hq => Post.pure hq

theorem decodeAmbe2400_keep (lax : Bool) (d : Nat → Int) (cur prev : Parms F) (t : Tls F) :
    Post (decodeAmbe2400 lax d cur prev t) fun r => KeepAmps prev r.prev := by
  unfold decodeAmbe2400
  refine Post.bind Post.true fun b0 _ => ?_
  refine Post.ite (fun _ => Post.bind Post.true fun b1 _ => ?_) fun _ => ?_
  · refine Post.ite (fun h => Post.pure (KeepAmps.refl _)) fun _ => ?_
    refine Post.ite (fun _ => Post.pure (KeepAmps.refl _)) fun _ => ?_
    exact Post.bind Post.true fun _ _ => Post.pure (KeepAmps.refl _)
  unfold ambe2400Voice
  iterate 5 refine Post.bind Post.true fun _ _ => ?_
  exact Post.bind (ambeBody_keep _ _ _ _ _ _ _ _) fun q hq => Post.pure hq

end Verif.Model
