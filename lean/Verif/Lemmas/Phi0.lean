import Verif.Lemmas.Process
import Verif.Lemmas.PredictReal

/-!
# Synthesis leaves phase 0 alone
-/

set_option linter.unusedSectionVars false

namespace Verif.Model
open Verif Verif.Gen Verif.Spec Arith
variable {F : Type} [Arith F]

theorem phaseUpdate_phi0 (noise : Arr 256 F) (n : Int) (cw pw : F) (cur prev : Parms F) :
    Post (phaseUpdate noise n cw pw cur prev) fun q => q.1.PHIl 0 = cur.PHIl 0 := by
  unfold phaseUpdate
  refine loopFT_post (fun _ (q : Parms F × Parms F) => q.1.PHIl 0 = cur.PHIl 0) (by decide) rfl fun l l1 l2 q hq => ?_
  have hne : (0 : Fin 57).val ≠ ((l : Int)).toNat := by show 0 ≠ _; omega
  iterate 3 refine Post.bind Post.true fun _ _ => ?_
  refine Post.ite (fun _ => ?_) fun _ => ?_
  · refine Post.bind Post.true fun _ _ => Post.bind Arr.wr_post fun G hG => Post.pure ?_
    obtain ⟨_, _, rfl⟩ := hG
    dsimp only
    rw [Arr.set_ne hne]
    exact hq
  · refine Post.bind Post.true fun _ _ => Post.bind Post.true fun _ _ => Post.bind Arr.wr_post fun G hG => Post.pure ?_
    obtain ⟨_, _, rfl⟩ := hG
    dsimp only
    rw [Arr.set_ne hne]
    exact hq

theorem synthUnmuted_phi0 (E : Env F) (cur prev : Parms F) (t : Tls F) :
    Post (synthUnmuted E cur prev t) fun r => r.cur.PHIl 0 = cur.PHIl 0 := by
  unfold synthUnmuted
  refine Post.bind Post.true fun nr _ => ?_
  refine Post.bind Post.true fun nuv _ => ?_
  refine Post.bind (P := fun q : Parms F × Parms F × Int => q.1.PHIl = cur.PHIl) ?_ fun q hq => ?_
  · refine Post.ite (fun _ => ?_) fun _ => ?_
    · exact Post.bind Post.true fun p _ => Post.pure rfl
    · refine Post.bind (extendBands_frame _ _ _) fun p hp => Post.pure ?_
      dsimp only
      rw [hp]
  obtain ⟨c, p, ml⟩ := q
  dsimp only at hq ⊢
  refine Post.bind (phaseUpdate_phi0 _ _ _ _ _ _) fun q hq' => ?_
  obtain ⟨c', p'⟩ := q
  dsimp only at hq' ⊢
  rw [hq] at hq'
  refine Post.bind Post.true fun out _ => ?_
  refine Post.bind Post.true fun q _ => ?_
  obtain ⟨pl, t'⟩ := q
  dsimp only
  cases pl with
  | some P => exact Post.bind Post.true fun u _ => Post.bind Post.true fun _ _ => Post.pure hq'
  | none => exact Post.bind Post.true fun _ _ => Post.pure hq'

theorem speak_phi0 (E : Env F) (C : Call F) (s : St F) : Post (speak E C s) fun o => o.2.cur.PHIl 0 = s.cur.PHIl 0 := by
  unfold speak
  refine Post.bind (spectralAmpEnhance_frame _ _ _) fun q hq => ?_
  obtain ⟨c, t⟩ := q
  obtain ⟨hc, ht⟩ := hq
  dsimp only at hc ht ⊢
  refine Post.bind (P := fun r : SynthRes F => r.cur.PHIl 0 = s.cur.PHIl 0) ?_ fun r hr => Post.pure hr
  unfold synthesizeSpeechf
  refine Post.bind (applySmoothing_frame _ _ _ _) fun q hq => ?_
  obtain ⟨c', t'⟩ := q
  obtain ⟨hc', _⟩ := hq
  dsimp only at hc' ⊢
  have e : c'.PHIl = s.cur.PHIl := by rw [hc', hc]
  refine Post.ite (fun _ => ?_) fun _ => ?_
  · exact Post.bind Post.true fun _ _ => Post.pure (by rw [e])
  · exact (synthUnmuted_phi0 _ _ _ _).mono fun r hr => by rw [hr, e]

end Verif.Model
