import Verif.Lemmas.Decode
import Verif.Model.Process

/-!
# What enhancement, smoothing, synthesis and tones may change

For every arithmetic: whenever one of these functions returns, only the listed members differ.
-/

namespace Verif.Model
open Verif Verif.Gen Arith
variable {F : Type} [Arith F]
set_option linter.unusedSectionVars false

theorem setPreEnhRm0_frame (a : Nat) (x : F) (t : Tls F) : setPreEnhRm0 a x t =
    { t with preEnhRm0 := (setPreEnhRm0 a x t).preEnhRm0, preEnhValid := (setPreEnhRm0 a x t).preEnhValid,
             preEnhOwner := (setPreEnhRm0 a x t).preEnhOwner } := by
  unfold setPreEnhRm0
  split <;> rfl

theorem spectralAmpEnhance_frame (a : Nat) (cur : Parms F) (t : Tls F) : Post (spectralAmpEnhance a cur t) fun r =>
    r.1 = { cur with Ml := r.1.Ml } ∧
    r.2 = { t with preEnhRm0 := r.2.preEnhRm0, preEnhValid := r.2.preEnhValid, preEnhOwner := r.2.preEnhOwner } := by
  unfold spectralAmpEnhance
  iterate 5 refine Post.bind Post.true fun _ _ => ?_
  exact Post.pure ⟨rfl, setPreEnhRm0_frame _ _ _⟩

theorem smoothRm0_frame (a : Nat) (cur : Parms F) (t : Tls F) : Post (smoothRm0 a cur t) fun r =>
    r.2 = { t with preEnhValid := r.2.preEnhValid, preEnhOwner := r.2.preEnhOwner } := by
  unfold smoothRm0
  refine Post.ite (fun _ => Post.pure rfl) fun _ => Post.bind Post.true fun _ _ => Post.pure rfl

theorem applySmoothing_frame (a : Nat) (cur prev : Parms F) (t : Tls F) : Post (applySmoothing a cur prev t) fun r =>
    r.1 = { cur with localEnergy := r.1.localEnergy, Vl := r.1.Vl, Ml := r.1.Ml,
                     amplitudeThreshold := r.1.amplitudeThreshold } ∧
    r.2 = { t with preEnhValid := r.2.preEnhValid, preEnhOwner := r.2.preEnhOwner } := by
  unfold applySmoothing
  refine Post.bind (smoothRm0_frame a cur t) fun q hq => ?_
  obtain ⟨rm, t'⟩ := q
  dsimp only at hq ⊢
  iterate 4 refine Post.bind Post.true fun _ _ => ?_
  exact Post.pure ⟨rfl, hq⟩

theorem noiseOverlap_frame (buf : Arr 256 F) (seed : F) (ov : Arr 96 F) (t : Tls F) :
    Post (noiseOverlap buf seed ov t) fun r => r.tls = { t with uvSeedOverride := r.tls.uvSeedOverride } := by
  unfold noiseOverlap
  refine Post.ite (fun _ => Post.ite (fun _ => Post.pure rfl) fun _ => Post.pure rfl) fun _ => ?_
  iterate 4 refine Post.bind Post.true fun _ _ => ?_
  exact Post.pure rfl

theorem extendBands_frame (lo hi : Int) (p : Parms F) : Post (extendBands lo hi p) fun q =>
    q = { p with Ml := q.Ml, Vl := q.Vl } := by
  unfold extendBands
  refine loop_post' (fun q : Parms F => q = { p with Ml := q.Ml, Vl := q.Vl }) rfl fun k q hq => ?_
  iterate 2 refine Post.bind Post.true fun _ _ => ?_
  refine Post.pure ?_
  rw [hq]

theorem phaseUpdate_frame (noise : Arr 256 F) (n : Int) (cw pw : F) (cur prev : Parms F) :
    Post (phaseUpdate noise n cw pw cur prev) fun q =>
      q.1 = { cur with PHIl := q.1.PHIl, PSIl := q.1.PSIl } ∧ q.2 = { prev with PSIl := q.2.PSIl } := by
  unfold phaseUpdate
  refine loopFT_post' (fun q : Parms F × Parms F =>
    q.1 = { cur with PHIl := q.1.PHIl, PSIl := q.1.PSIl } ∧ q.2 = { prev with PSIl := q.2.PSIl })
    ⟨rfl, rfl⟩ fun l q hq => ?_
  obtain ⟨h1, h2⟩ := hq
  iterate 3 refine Post.bind Post.true fun _ _ => ?_
  refine Post.ite (fun _ => ?_) fun _ => ?_
  · iterate 2 refine Post.bind Post.true fun _ _ => ?_
    refine Post.pure ⟨?_, ?_⟩
    · dsimp only; rw [h1]
    · dsimp only; rw [h2]
  · iterate 3 refine Post.bind Post.true fun _ _ => ?_
    refine Post.pure ⟨?_, ?_⟩
    · dsimp only; rw [h1]
    · dsimp only; rw [h2]

theorem getPlan_frame (E : Env F) (t : Tls F) : Post (getPlan E t) fun r => r.2 = { t with plan := r.2.plan } := by
  unfold getPlan
  cases h : t.plan with
  | some p => refine Post.pure ?_; dsimp only
  | none => exact Post.ite (fun _ => Post.bind Post.true fun _ _ => Post.pure rfl) fun _ => Post.pure rfl

theorem javaNext24_frame (t : Tls F) : (javaNext24 t).2 =
    { t with comfortSeed48 := (javaNext24 t).2.comfortSeed48, comfortSeeded := (javaNext24 t).2.comfortSeeded } := rfl

theorem comfortNoisef_frame (out : Arr 160 F) (t : Tls F) : Post (comfortNoisef out t) fun r =>
    r.2 = { t with comfortSeed48 := r.2.comfortSeed48, comfortSeeded := r.2.comfortSeeded } := by
  unfold comfortNoisef
  refine loop_post' (fun r : Arr 160 F × Tls F =>
    r.2 = { t with comfortSeed48 := r.2.comfortSeed48, comfortSeeded := r.2.comfortSeeded }) rfl fun i s hs => ?_
  refine Post.bind Post.true fun _ _ => Post.pure ?_
  dsimp only
  rw [hs]

/-- What the unmuted synthesis may change. -/
structure SynthFrame (cur prev : Parms F) (t : Tls F) (r : SynthRes F) : Prop where
  cur_eq : r.cur = { cur with noiseSeed := r.cur.noiseSeed, noiseOverlap := r.cur.noiseOverlap, Ml := r.cur.Ml,
                              Vl := r.cur.Vl, PHIl := r.cur.PHIl, PSIl := r.cur.PSIl, previousUw := r.cur.previousUw }
  prev_eq : r.prev = { prev with Ml := r.prev.Ml, Vl := r.prev.Vl, PSIl := r.prev.PSIl }
  tls_eq : r.tls = { t with uvSeedOverride := r.tls.uvSeedOverride, plan := r.tls.plan }

theorem synthUnmuted_frame (E : Env F) (cur prev : Parms F) (t : Tls F) :
    Post (synthUnmuted E cur prev t) (SynthFrame cur prev t) := by
  unfold synthUnmuted
  refine Post.bind (noiseOverlap_frame _ _ _ _) fun nr hnr => ?_
  refine Post.bind Post.true fun nuv _ => ?_
  refine Post.bind (P := fun q : Parms F × Parms F × Int =>
    q.1 = { cur with noiseSeed := nr.seed, noiseOverlap := nr.overlap, Ml := q.1.Ml, Vl := q.1.Vl } ∧
    q.2.1 = { prev with Ml := q.2.1.Ml, Vl := q.2.1.Vl }) ?_ fun q hq => ?_
  · refine Post.ite (fun _ => ?_) fun _ => ?_
    · exact Post.bind (extendBands_frame _ _ _) fun p hp => Post.pure ⟨rfl, hp⟩
    · exact Post.bind (extendBands_frame _ _ _) fun p hp => Post.pure ⟨hp, rfl⟩
  obtain ⟨c, p, ml⟩ := q
  dsimp only at hq ⊢
  refine Post.bind (phaseUpdate_frame _ _ _ _ _ _) fun q hq' => ?_
  obtain ⟨c', p'⟩ := q
  dsimp only at hq' ⊢
  refine Post.bind Post.true fun out _ => ?_
  refine Post.bind (getPlan_frame _ _) fun q hq'' => ?_
  obtain ⟨pl, t'⟩ := q
  dsimp only at hq'' ⊢
  cases pl with
  | some P =>
    refine Post.bind Post.true fun u _ => Post.bind Post.true fun _ _ => Post.pure ⟨?_, ?_, ?_⟩
    · dsimp only; rw [hq'.1, hq.1]
    · dsimp only; rw [hq'.2, hq.2]
    · dsimp only; rw [hq'', hnr]
  | none =>
    refine Post.bind Post.true fun _ _ => Post.pure ⟨?_, ?_, ?_⟩
    · dsimp only; rw [hq'.1, hq.1]
    · dsimp only; rw [hq'.2, hq.2]
    · dsimp only; rw [hq'', hnr]

/-- What synthesis may change, muted or not, and which of the two happens. -/
structure SpeechFrame (E : Env F) (a : Nat) (out : Arr 160 F) (cur prev : Parms F) (t : Tls F) (r : SynthRes F) : Prop where
  cur_eq : r.cur = { cur with localEnergy := r.cur.localEnergy, amplitudeThreshold := r.cur.amplitudeThreshold,
                              noiseSeed := r.cur.noiseSeed, noiseOverlap := r.cur.noiseOverlap, Ml := r.cur.Ml,
                              Vl := r.cur.Vl, PHIl := r.cur.PHIl, PSIl := r.cur.PSIl, previousUw := r.cur.previousUw }
  prev_eq : r.prev = { prev with Ml := r.prev.Ml, Vl := r.prev.Vl, PSIl := r.prev.PSIl }
  tls_eq : r.tls = { t with preEnhValid := r.tls.preEnhValid, preEnhOwner := r.tls.preEnhOwner,
                            uvSeedOverride := r.tls.uvSeedOverride, plan := r.tls.plan,
                            comfortSeed48 := r.tls.comfortSeed48, comfortSeeded := r.tls.comfortSeeded }
  muted : synthMuted cur = true → comfortNoisef out t = .ok (r.out, { t with
    comfortSeed48 := r.tls.comfortSeed48, comfortSeeded := r.tls.comfortSeeded })
  unmuted : synthMuted cur = false → r.tls.comfortSeed48 = t.comfortSeed48 ∧ r.tls.comfortSeeded = t.comfortSeeded ∧
    ∃ c t' r', applySmoothing a cur prev t = .ok (c, t') ∧ synthUnmuted E c prev t' = .ok r' ∧ r = r'

/-- The generator of the comfort noise reads nothing but its own two variables. -/
theorem comfortNoisef_tls (out : Arr 160 F) (t u : Tls F) (h1 : t.comfortSeed48 = u.comfortSeed48)
    (h2 : t.comfortSeeded = u.comfortSeeded) (o : Arr 160 F) (t' : Tls F) (h : comfortNoisef out t = .ok (o, t')) :
    comfortNoisef out u = .ok (o, { u with comfortSeed48 := t'.comfortSeed48, comfortSeeded := t'.comfortSeeded }) := by
  have key : ∀ n o t', loop n (fun i (s : Arr 160 F × Tls F) => do
      let (v, t) := javaNext24 s.2
      .ok (← s.1.wr i (comfortSample v), t)) (out, t) = .ok (o, t') →
      loop n (fun i (s : Arr 160 F × Tls F) => do
      let (v, t) := javaNext24 s.2
      .ok (← s.1.wr i (comfortSample v), t)) (out, u) =
        .ok (o, { u with comfortSeed48 := t'.comfortSeed48, comfortSeeded := t'.comfortSeeded }) := by
    intro n
    induction n with
    | zero =>
      intro o t' h
      cases h
      rw [h1, h2]; rfl
    | succ n ih =>
      intro o t' h
      rw [loop_succ] at h ⊢
      obtain ⟨⟨o1, t1⟩, h3, h4⟩ := bind_ok h
      rw [ih o1 t1 h3, ok_bind]
      dsimp only at h4 ⊢
      obtain ⟨o2, h5, h6⟩ := bind_ok h4
      have e : (javaNext24 { u with comfortSeed48 := t1.comfortSeed48, comfortSeeded := t1.comfortSeeded }).1 =
        (javaNext24 t1).1 := rfl
      rw [e, h5, ok_bind]
      cases h6
      rfl
  exact key 160 o t' h

theorem synthMuted_congr {c d : Parms F} (h1 : d.repeatCount = c.repeatCount) (h2 : d.mutingThreshold = c.mutingThreshold)
    (h3 : d.errorRate = c.errorRate) : synthMuted d = synthMuted c := by
  unfold synthMuted isMaxFrameRepeat requiresMuting
  rw [h1, h2, h3]

theorem synthesizeSpeechf_frame (E : Env F) (a : Nat) (out : Arr 160 F) (cur prev : Parms F) (t : Tls F) (uvq : Int) :
    Post (synthesizeSpeechf E a out cur prev t uvq) (SpeechFrame E a out cur prev t) := by
  unfold synthesizeSpeechf
  refine Post.bind (P := fun q : Parms F × Tls F =>
    (q.1 = { cur with localEnergy := q.1.localEnergy, Vl := q.1.Vl, Ml := q.1.Ml,
                      amplitudeThreshold := q.1.amplitudeThreshold } ∧
     q.2 = { t with preEnhValid := q.2.preEnhValid, preEnhOwner := q.2.preEnhOwner }) ∧
    applySmoothing a cur prev t = .ok q)
    (fun q hq => ⟨applySmoothing_frame a cur prev t q hq, hq⟩) fun q hq => ?_
  obtain ⟨c, t'⟩ := q
  obtain ⟨⟨hc, ht⟩, he⟩ := hq
  dsimp only at hc ht ⊢
  have hm : synthMuted c = synthMuted cur := by rw [hc]; rfl
  refine Post.ite (fun h => ?_) fun h => ?_
  · refine Post.bind (P := fun q : Arr 160 F × Tls F => q.2 = { t' with comfortSeed48 := q.2.comfortSeed48, comfortSeeded := q.2.comfortSeeded } ∧
      comfortNoisef out t' = .ok q) (fun q hq => ⟨comfortNoisef_frame _ _ q hq, hq⟩) fun q hq => ?_
    obtain ⟨o, t''⟩ := q
    obtain ⟨h1, h2⟩ := hq
    dsimp only at h1 ⊢
    refine Post.pure ⟨?_, rfl, ?_, ?_, ?_⟩
    · dsimp only; rw [hc]
    · dsimp only; rw [h1, ht]
    · intro _
      exact comfortNoisef_tls out t' t (by rw [ht]) (by rw [ht]) o t'' h2
    · intro h'
      rw [hm, h'] at h
      cases h
  · intro r hr
    obtain ⟨h1, h2, h3⟩ := synthUnmuted_frame _ _ _ _ r hr
    refine ⟨?_, h2, ?_, ?_, ?_⟩
    · rw [h1, hc]
    · rw [h3, ht]
    · intro h'
      rw [hm, h'] at h
      exact absurd rfl h
    · intro _
      refine ⟨by rw [h3, ht], by rw [h3, ht], c, t', r, he, hr, rfl⟩

theorem renderTonef_frame (out : Arr 160 F) (cur : Parms F) (f1 f2 : F) (amp : Int) :
    Post (renderTonef out cur f1 f2 amp) fun r => r.2 = { cur with swn := r.2.swn, un := r.2.un } := by
  unfold renderTonef
  refine Post.ite (fun _ => Post.pure rfl) fun _ => ?_
  refine Post.bind Post.true fun _ _ => ?_
  refine Post.bind Post.true fun _ _ => ?_
  exact Post.bind Post.true fun _ _ => Post.pure rfl

theorem synthesizeTonef_frame (out : Arr 160 F) (d : Nat → Int) (cur : Parms F) :
    Post (synthesizeTonef out d cur) fun r => r.2 = { cur with swn := r.2.swn, un := r.2.un } := by
  unfold synthesizeTonef
  iterate 4 refine Post.bind Post.true fun _ _ => ?_
  exact Post.ite (fun _ => renderTonef_frame _ _ _ _ _) fun _ => Post.pure rfl

theorem synthesizeTonefdstar_frame (out : Arr 160 F) (d : Nat → Int) (cur : Parms F) (id : Int) :
    Post (synthesizeTonefdstar out d cur id) fun r => r.2 = { cur with swn := r.2.swn, un := r.2.un } := by
  unfold synthesizeTonefdstar
  exact Post.ite (fun _ => Post.pure rfl) fun _ => renderTonef_frame _ _ _ _ _

end Verif.Model
