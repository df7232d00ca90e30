import Verif.Spec.Energy
import Verif.Lemmas.Enhance
import Verif.Lemmas.Smooth
import Verif.Lemmas.Process
import Verif.Spec.History

/-!
# The hand-off of the energy from enhancement to smoothing
-/

namespace Verif.Model
open Verif Verif.Gen Verif.Spec Arith
variable {F : Type} [Arith F]
set_option linter.unusedSectionVars false

theorem smoothEnergy_spec (p r : F) : smoothEnergy p r = energyNext p r := rfl

/-- The first component of `rm01` is the sum of squares. -/
theorem rm01_fst {L : Int} (hL : L ≤ 56) (Ml : Arr 57 F) (ct : Loc 57 F) :
    Post (rm01 L Ml ct) fun r => r.1 = sqSum Ml L := by
  unfold rm01 sqSum loopTo loopFT
  have key : ∀ n : Nat, (n : Int) ≤ max L 0 → Post (loop n (fun i (s : F × F) => do
      let m ← Ml.rd ((1 + i : Nat) : Int)
      let m2 := m *ᶠ m
      Except.ok (s.1 +ᶠ m2, s.2 +ᶠ (m2 *ᶠ (← ct.rd ((1 + i : Nat) : Int))))) (lit 0 1, lit 0 1)) fun r => r.1 =
        (List.range n).foldl (fun s i => s +ᶠ (Ml.getD (i + 1) (lit 0 1) *ᶠ Ml.getD (i + 1) (lit 0 1))) (lit 0 1) := by
    intro n
    induction n with
    | zero => exact fun _ => Post.pure rfl
    | succ n ih =>
      intro hn
      rw [loop_succ, List.range_succ, List.foldl_append]
      refine Post.bind (ih (by omega)) fun q hq => ?_
      rw [rd_getD Ml (l := 1 + n) (by omega) (lit 0 1), ok_bind]
      refine Post.bind Post.true fun c _ => Post.pure ?_
      dsimp only
      rw [hq, Nat.add_comm 1 n]
      rfl
  have := key (L.toNat + 1 - 1) (by omega)
  exact this

theorem spectralAmpEnhance_rm0 (a : Nat) (cur : Parms F) (t : Tls F) (hL : cur.L ≤ 56) :
    Post (spectralAmpEnhance a cur t) fun r => r.2 = setPreEnhRm0 a (sqSum cur.Ml cur.L) t := by
  unfold spectralAmpEnhance
  refine Post.bind Post.true fun ct _ => Post.bind (rm01_fst hL _ _) fun q hq => ?_
  iterate 3 refine Post.bind Post.true fun _ _ => ?_
  refine Post.pure ?_
  dsimp only
  rw [hq]

theorem spectralAmpEnhance_set (a : Nat) (cur : Parms F) (t : Tls F) :
    Post (spectralAmpEnhance a cur t) fun r => ∃ x, r.2 = setPreEnhRm0 a x t := by
  unfold spectralAmpEnhance
  iterate 5 refine Post.bind Post.true fun _ _ => ?_
  exact Post.pure ⟨_, rfl⟩

/-- Smoothing: the hand-off and the local energy. -/
theorem applySmoothing_handoff (a : Nat) (cur prev : Parms F) (t : Tls F) :
    Post (applySmoothing a cur prev t) fun r =>
      (r.2.preEnhValid = if t.preEnhValid = true ∧ t.preEnhOwner = a then false else t.preEnhValid) ∧
      (t.preEnhValid = true ∧ t.preEnhOwner = a → r.1.localEnergy = energyNext prev.localEnergy t.preEnhRm0) := by
  unfold applySmoothing
  refine Post.bind (P := fun q : F × Tls F =>
    (q.2.preEnhValid = if t.preEnhValid = true ∧ t.preEnhOwner = a then false else t.preEnhValid) ∧
    (t.preEnhValid = true ∧ t.preEnhOwner = a → q.1 = t.preEnhRm0)) ?_ fun q hq => ?_
  · unfold smoothRm0
    refine Post.ite (fun h => Post.pure ⟨by rw [if_pos h], fun _ => rfl⟩) fun h => ?_
    exact Post.bind Post.true fun _ _ => Post.pure ⟨by rw [if_neg h], fun h' => absurd h' h⟩
  · obtain ⟨rm, t'⟩ := q
    dsimp only at hq ⊢
    iterate 4 refine Post.bind Post.true fun _ _ => ?_
    refine Post.pure ⟨hq.1, fun h => ?_⟩
    dsimp only
    rw [hq.2 h]
    rfl

/-- The synthesis keeps the hand-off and the local energy that smoothing made. -/
theorem synthesizeSpeechf_smoothed (E : Env F) (a : Nat) (out : Arr 160 F) (cur prev : Parms F) (t : Tls F) (uvq : Int) :
    Post (synthesizeSpeechf E a out cur prev t uvq) fun r => ∃ q, applySmoothing a cur prev t = .ok q ∧
      r.cur.localEnergy = q.1.localEnergy ∧ r.tls.preEnhValid = q.2.preEnhValid := by
  unfold synthesizeSpeechf
  refine Post.bind (P := fun q => applySmoothing a cur prev t = .ok q) (fun q hq => hq) fun q hq => ?_
  obtain ⟨c, t'⟩ := q
  dsimp only
  refine Post.ite (fun _ => ?_) fun _ => ?_
  · refine Post.bind (comfortNoisef_frame _ _) fun r hr => Post.pure ⟨(c, t'), hq, rfl, ?_⟩
    dsimp only
    rw [hr]
  · intro r hr
    have f := synthUnmuted_frame _ _ _ _ _ hr
    exact ⟨(c, t'), hq, by rw [f.cur_eq], by rw [f.tls_eq]⟩

theorem speak_handoff (E : Env F) (C : Call F) (s : St F) : Post (speak E C s) fun o => o.2.tls.preEnhValid = false := by
  unfold speak
  refine Post.bind (spectralAmpEnhance_set _ _ _) fun q hq => ?_
  obtain ⟨c, t⟩ := q
  obtain ⟨x, rfl⟩ := hq
  dsimp only
  refine Post.bind (synthesizeSpeechf_smoothed E _ _ _ _ _ _) fun r hr => Post.pure ?_
  obtain ⟨q, h1, _, h2⟩ := hr
  have := (applySmoothing_handoff _ _ _ _ _ h1).1
  dsimp only
  rw [h2, this]
  unfold setPreEnhRm0
  split
  · exact if_pos ⟨rfl, rfl⟩
  · exact ite_self _

/-- No hand-off is pending. -/
def Idle (s : St F) : Prop := s.tls.preEnhValid = false

theorem noiseAndReset_idle (C : Call F) (s : St F) (h : Idle s) : Post (noiseAndReset C s) fun o => Idle o.2 := by
  unfold noiseAndReset
  refine Post.bind (comfortNoisef_frame _ _) fun q hq => ?_
  rw [initAmbeState_eq, ok_bind]
  refine Post.pure ?_
  show q.2.preEnhValid = false
  rw [hq]
  exact h

theorem replayEnhanced_idle (E : Env F) (C : Call F) (s : St F) (h : Idle s) :
    Post (replayEnhanced E C s) fun o => Idle o.2 := by
  unfold replayEnhanced
  refine Post.bind (synthesizeSpeechf_smoothed E _ _ _ _ _ _) fun r hr => Post.pure ?_
  obtain ⟨q, h1, _, h2⟩ := hr
  show r.tls.preEnhValid = false
  rw [h2, (applySmoothing_handoff _ _ _ _ _ h1).1, h]
  exact ite_self _

theorem processImbe4400_idle (E : Env F) (C : Call F) (c0 : Option Int) (e : Int) (d : Nat → Int) (s : St F) :
    Post (processImbe4400 E C c0 e d s) fun o => Idle o.st := by
  intro o h
  obtain ⟨r, cur, sp, P⟩ := processImbe4400_parts h
  rw [P.st]
  exact speak_handoff _ _ _ _ P.spoken

theorem ambePrepare_tls {e : Int} {s s1 : St F} (h : ambePrepare e s = .ok s1) : s1.tls = s.tls := by
  unfold ambePrepare ensureAmbeDefaults at h
  rw [initAmbeState_eq] at h
  split at h
  · rw [ok_bind] at h
    rw [← ok_inj h]
  · rw [ok_bind] at h
    rw [← ok_inj h]

theorem processAmbe2450_idle (E : Env F) (C : Call F) (c0 : Option Int) (e : Int) (d : Nat → Int) (s : St F) (hs : Idle s) :
    Post (processAmbe2450 E C c0 e d s) fun o => Idle o.st := by
  intro o h
  obtain ⟨s1, r, v, p, P⟩ := processAmbe2450_parts h
  rw [P.st]
  have ht : r.tls.preEnhValid = false := by
    rw [(decodeAmbe2450_frame _ _ _ _ _ _ _ P.decode).1.tls_eq, ambePrepare_tls P.prepare]
    exact hs
  have hi : Idle (⟨v.1, r.prev, s1.enh, r.tls⟩ : St F) := ht
  have key : Post (ambe2450Render E C r.bad d ⟨v.1, r.prev, s1.enh, r.tls⟩) fun o => Idle o.2.2 := by
    unfold ambe2450Render
    refine Post.ite (fun _ => ?_) fun _ => Post.ite (fun _ => ?_) fun _ => Post.ite (fun _ => ?_) fun _ => ?_
    · refine Post.ite (fun _ => ?_) fun _ => ?_
      · exact Post.bind (speak_handoff _ _ _) fun q hq => Post.pure hq
      · exact Post.bind (noiseAndReset_idle _ _ hi) fun q hq => Post.pure hq
    · refine Post.bind Post.true fun b _ => Post.ite (fun _ => ?_) fun _ => Post.ite (fun _ => ?_) fun _ => ?_
      · exact Post.bind Post.true fun q _ => Post.pure hi
      · exact Post.bind (noiseAndReset_idle _ _ hi) fun q hq => Post.pure hq
      · exact Post.bind (replayEnhanced_idle _ _ _ hi) fun q hq => Post.pure hq
    · refine Post.bind (comfortNoisef_frame _ _) fun q hq => Post.pure ?_
      show q.2.preEnhValid = false
      rw [hq]
      exact ht
    · exact Post.bind (noiseAndReset_idle _ _ hi) fun q hq => Post.pure hq
  exact key _ P.render

theorem processAmbe2400_idle (E : Env F) (C : Call F) (e e2 : Int) (d : Nat → Int) (s : St F) (hs : Idle s) :
    Post (processAmbe2400 E C e e2 d s) fun o => Idle o.st := by
  intro o h
  obtain ⟨s1, r, v, p, P⟩ := processAmbe2400_parts h
  rw [P.st]
  have ht : r.tls.preEnhValid = false := by
    rw [(decodeAmbe2400_frame _ _ _ _ _ _ P.decode).1.tls_eq, ambePrepare_tls P.prepare]
    exact hs
  have hi : Idle (⟨v.cur, v.prev, s1.enh, r.tls⟩ : St F) := ht
  have key : Post (ambe2400Render E { C with buf := v.buf } r.bad ⟨v.cur, v.prev, s1.enh, r.tls⟩) fun o => Idle o.2.2 := by
    unfold ambe2400Render
    refine Post.ite (fun _ => ?_) fun _ => Post.ite (fun _ => ?_) fun _ => ?_
    · refine Post.ite (fun _ => ?_) fun _ => ?_
      · exact Post.bind (speak_handoff _ _ _) fun q hq => Post.pure hq
      · exact Post.bind (noiseAndReset_idle _ _ hi) fun q hq => Post.pure hq
    · refine Post.bind (comfortNoisef_frame _ _) fun q hq => Post.pure ?_
      show q.2.preEnhValid = false
      rw [hq]
      exact ht
    · exact Post.bind (noiseAndReset_idle _ _ hi) fun q hq => Post.pure hq
  exact key _ P.render

theorem op_idle (E : Env F) (op : Op F) (s : St F) (hs : Idle s) : Post (op.run E s) Idle := by
  cases op with
  | imbe op =>
    refine Post.bind (P := fun o => Idle o.st) ?_ fun o ho => Post.pure ho
    unfold ImbeOp.run
    split
    · exact processImbe4400_idle _ _ _ _ _ _
    · exact processImbe4400_idle _ _ _ _ _ _
  | ambe op =>
    refine Post.bind (P := fun o => Idle o.st) ?_ fun o ho => Post.pure ho
    cases op with
    | v2450 C c0 e d => exact processAmbe2450_idle _ _ _ _ _ _ hs
    | v2400 C e e2 d => exact processAmbe2400_idle _ _ _ _ _ _ hs
  | initMbe =>
    show Post (initMbeState s) Idle
    unfold initMbeState
    exact Post.bind Post.true fun _ _ => Post.pure hs
  | initAmbe =>
    show Post (initAmbeState s) Idle
    rw [initAmbeState_eq]
    exact Post.pure hs
  | seed n => exact Post.pure hs

theorem hist_idle (E : Env F) (ops : List (Op F)) (s : St F) (hs : Idle s) : Post (runHist E ops s) Idle := by
  induction ops generalizing s with
  | nil => exact Post.pure hs
  | cons op ops ih => exact Post.bind (op_idle E op s hs) fun s' h' => ih s' h'

end Verif.Model
