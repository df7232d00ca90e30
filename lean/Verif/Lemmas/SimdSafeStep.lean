import Verif.Lemmas.SimdSafe
import Verif.Lemmas.History

/-!
# One call on a build with vector code, relative to permitted undefined operations

The counterparts of `Verif.Lemmas.Safe` and `Verif.Lemmas.SafeStep`.
-/

namespace Verif.Model
open Verif Verif.Gen Verif.Spec Verif.Num Arith
set_option linter.unusedSectionVars false

section
variable {F : Type} [Arith F]

/-- The stored transform plan, if there is one, has the contents that the allocation gives it. -/
def PlanOk (t : Tls F) : Prop := ∀ P, t.plan = some P → P = thePlan

theorem PlanOk.of_eq {t u : Tls F} (h : PlanOk t) (e : u.plan = t.plan) : PlanOk u := by
  unfold PlanOk
  rw [e]
  exact h

theorem getPlan_planOk {E : Env F} {t : Tls F} (h : PlanOk t) :
    Post (getPlan E t) fun r => (∀ P, r.1 = some P → P = thePlan) ∧ PlanOk r.2 := by
  unfold getPlan
  cases ht : t.plan with
  | some p =>
    refine Post.pure ⟨fun P hP => ?_, h⟩
    cases hP
    exact h _ ht
  | none =>
    dsimp only
    refine Post.ite (fun _ => ?_) fun _ => Post.pure ⟨nofun, h⟩
    rw [planFill_eq, ok_bind]
    refine Post.pure ⟨fun P hP => ?_, fun P hP => ?_⟩
    · cases hP
      rfl
    · cases hP
      rfl

theorem synthUnmutedSimd_frame (isa : Isa) (E : Env F) (cur prev : Parms F) (t : Tls F) :
    Post (synthUnmutedSimd isa E cur prev t) (SynthFrame cur prev t) := by
  unfold synthUnmutedSimd
  refine Post.bind (noiseOverlap_frame _ _ _ _) fun nr hnr => ?_
  refine Post.bind Post.true fun nuv _ => ?_
  refine Post.bind (P := fun q : Parms F × Parms F × Int =>
    q.1 = { cur with noiseSeed := nr.seed, noiseOverlap := nr.overlap, Ml := q.1.Ml, Vl := q.1.Vl } ∧
    q.2.1 = { prev with Ml := q.2.1.Ml, Vl := q.2.1.Vl }) ?_ fun q hq => ?_
  · refine Post.ite (fun _ => ?_) fun _ => ?_
    · exact Post.bind (extendBands_frame _ _ _) fun p hp => Post.pure ⟨rfl, hp⟩
    · exact Post.bind (extendBands_frame _ _ _) fun p hp => Post.pure ⟨hp, rfl⟩
  obtain ⟨c, p, ml⟩ := q
  dsimp only at hq ⊢
  refine Post.bind (phaseUpdate_frame _ _ _ _ _ _) fun q hq' => ?_
  obtain ⟨c', p'⟩ := q
  dsimp only at hq' ⊢
  refine Post.bind Post.true fun out _ => ?_
  refine Post.bind (getPlan_frame _ _) fun q hq'' => ?_
  obtain ⟨pl, t'⟩ := q
  dsimp only at hq'' ⊢
  cases pl with
  | some P =>
    refine Post.bind Post.true fun u _ => Post.bind Post.true fun _ _ => Post.pure ⟨?_, ?_, ?_⟩
    · dsimp only; rw [hq'.1, hq.1]
    · dsimp only; rw [hq'.2, hq.2]
    · dsimp only; rw [hq'', hnr]
  | none =>
    refine Post.bind Post.true fun _ _ => Post.pure ⟨?_, ?_, ?_⟩
    · dsimp only; rw [hq'.1, hq.1]
    · dsimp only; rw [hq'.2, hq.2]
    · dsimp only; rw [hq'', hnr]

theorem synthUnmutedSimd_vl (isa : Isa) (E : Env F) {cur : Parms F} (prev : Parms F) (t : Tls F) (h : Vl01 cur.Vl) :
    Post (synthUnmutedSimd isa E cur prev t) fun r => Vl01 r.cur.Vl := by
  unfold synthUnmutedSimd
  refine Post.bind Post.true fun nr _ => Post.bind Post.true fun _ _ => ?_
  refine Post.bind (P := fun q : Parms F × Parms F × Int => Vl01 q.1.Vl) ?_ fun q hq => ?_
  · refine Post.ite (fun _ => Post.bind Post.true fun _ _ => Post.pure h) fun _ => ?_
    exact Post.bind (extendBands_vl (p := { cur with noiseSeed := nr.seed, noiseOverlap := nr.overlap }) _ _ h) fun p hp => Post.pure hp
  obtain ⟨c, p, ml⟩ := q
  dsimp only at hq ⊢
  refine Post.bind (phaseUpdate_frame _ _ _ _ _ _) fun q hq' => ?_
  obtain ⟨c', p'⟩ := q
  dsimp only at hq' ⊢
  have hc : Vl01 c'.Vl := by rw [hq'.1]; exact hq
  refine Post.bind Post.true fun out _ => Post.bind Post.true fun q _ => ?_
  obtain ⟨pl, t'⟩ := q
  cases pl with
  | some P => exact Post.bind Post.true fun u _ => Post.bind Post.true fun _ _ => Post.pure hc
  | none => exact Post.bind Post.true fun _ _ => Post.pure hc

theorem synthesizeSpeechfSimd_vl (isa : Isa) (E : Env F) (a : Nat) (out : Arr 160 F) {cur : Parms F} (prev : Parms F) (t : Tls F)
    (u : Int) (h : Vl01 cur.Vl) : Post (synthesizeSpeechfSimd isa E a out cur prev t u) fun r => Vl01 r.cur.Vl := by
  unfold synthesizeSpeechfSimd
  refine Post.bind (applySmoothing_vl a prev t h) fun q hq => ?_
  obtain ⟨c, t'⟩ := q
  exact Post.ite (fun _ => Post.bind Post.true fun _ _ => Post.pure hq) fun _ => synthUnmutedSimd_vl isa E prev t' hq

theorem synthUnmutedSimd_ok {U : UB → Prop} (isa : Isa) (E : Env F) (cur prev : Parms F) (t : Tls F) (hpl : PlanOk t) (hL : -1 ≤ cur.L ∧ cur.L ≤ 56)
    (hP : -1 ≤ prev.L ∧ prev.L ≤ 56) (hseed : SeedConv cur.noiseSeed ∨ U .floatToInt)
    (hw : EdgeConv cur.w0 cur.L ∨ U .floatToInt) :
    OkU U (synthUnmutedSimd isa E cur prev t) fun r => SeedNext t r.cur.noiseSeed := by
  unfold synthUnmutedSimd
  refine OkU.bind ((noiseOverlap_ok _ _ _ hseed).post (noiseOverlap_frame _ _ _ _)) fun nr hnr => ?_
  refine OkU.bind (Ok.toU (countUv_fine hL.2 _)) fun nuv _ => ?_
  refine OkU.bind (P := fun q : Parms F × Parms F × Int => q.1.w0 = cur.w0 ∧ q.1.L = cur.L ∧ q.1.noiseSeed = nr.seed ∧
    q.2.2 ≤ 56) (Ok.toU ?_) fun q hq => ?_
  · refine Ok.ite (fun _ => ?_) fun _ => ?_
    · exact Ok.bind (extendBands_fine hP.1 hL.2 _) fun p _ => Ok.ok ⟨rfl, rfl, rfl, hL.2⟩
    · refine Ok.bind ((extendBands_fine hL.1 hP.2 _).post (extendBands_frame _ _ _)) fun p hp => Ok.ok ⟨?_, ?_, ?_, hP.2⟩
      · dsimp only; rw [hp]
      · dsimp only; rw [hp]
      · dsimp only; rw [hp]
  obtain ⟨c, p, ml⟩ := q
  dsimp only at hq ⊢
  refine OkU.bind (Ok.toU ((phaseUpdate_fine _ _ _ _ _ _).post (phaseUpdate_frame _ _ _ _ _ _))) fun q hq' => ?_
  obtain ⟨c', p'⟩ := q
  dsimp only at hq' ⊢
  have h1 : c'.L = cur.L := by rw [hq'.1]; exact hq.2.1
  have h2 : c'.w0 = cur.w0 := by rw [hq'.1]; exact hq.1
  have h3 : SeedNext t c'.noiseSeed := by
    have : c'.noiseSeed = nr.seed := by rw [hq'.1]; exact hq.2.2.1
    rw [this]; exact hnr.1
  refine OkU.bind (P := fun _ => True) (Ok.toU ?_) fun out _ => ?_
  · exact loopTo_fine (le_refl _) fun l h1 h2 s => voicedBandSimd_fine _ _ _ _ (by omega) _
  refine OkU.bind (Ok.toU ((getPlan_fine E _).post (getPlan_planOk (hpl.of_eq (by rw [hnr.2]))))) fun g hg => ?_
  obtain ⟨pl, t'⟩ := g
  cases pl with
  | some P =>
    dsimp only at hg ⊢
    rw [hg.1 P rfl]
    refine OkU.bind (unvoicedSimd_fine isa E _ _ _ _ (by omega) (by rw [h1, h2]; exact hw)) fun r _ =>
      OkU.bind (Ok.toU (clipBuffer_fine _)) fun _ _ => OkU.ok h3
  | none => exact OkU.bind (Ok.toU (clipBuffer_fine _)) fun _ _ => OkU.ok h3

theorem synthesizeSpeechfSimd_ok {U : UB → Prop} (isa : Isa) (E : Env F) (a : Nat) (out : Arr 160 F) (cur prev : Parms F) (t : Tls F)
    (u : Int) (hpl : PlanOk t) (h : SynthPre U cur prev) : OkU U (synthesizeSpeechfSimd isa E a out cur prev t u) fun r =>
      (r.cur.noiseSeed = cur.noiseSeed ∨ SeedNext t r.cur.noiseSeed) ∧
      (0 ≤ cur.errorCountTotal →
        r.cur.amplitudeThreshold ≤ max 20480 (max 20480 prev.amplitudeThreshold + 6000)) := by
  unfold synthesizeSpeechfSimd
  refine OkU.bind ((applySmoothing_ok a cur prev t h.curL.2 h.tm).post (applySmoothing_frame _ _ _ _)) fun q hq => ?_
  obtain ⟨c, t'⟩ := q
  dsimp only at hq ⊢
  obtain ⟨hT, hq⟩ := hq
  refine OkU.ite (fun _ => OkU.bind (Ok.toU (comfortNoisef_fine _ _)) fun _ _ => OkU.ok ⟨.inl ?_, hT⟩) fun _ => ?_
  · dsimp only; rw [hq.1]
  refine ((synthUnmutedSimd_ok isa E c prev t' (hpl.of_eq (by rw [hq.2])) ?_ h.prevL ?_ ?_).post (synthUnmutedSimd_frame isa E c prev t')).mono fun r hr => ⟨.inr ?_, ?_⟩
  · rw [hq.1]; exact h.curL
  · rw [hq.1]; exact h.seed
  · rw [hq.1]; exact h.edge
  · have := hr.1
    unfold SeedNext at this ⊢
    have e : t'.uvSeedState = t.uvSeedState := by rw [hq.2]
    rw [e] at this
    exact this
  · rw [hr.2.cur_eq]; exact hT

/-- What the synthesis may change. -/
structure SpeechFrameS (cur prev : Parms F) (t : Tls F) (r : SynthRes F) : Prop where
  cur_eq : r.cur = { cur with localEnergy := r.cur.localEnergy, amplitudeThreshold := r.cur.amplitudeThreshold,
                              noiseSeed := r.cur.noiseSeed, noiseOverlap := r.cur.noiseOverlap, Ml := r.cur.Ml,
                              Vl := r.cur.Vl, PHIl := r.cur.PHIl, PSIl := r.cur.PSIl, previousUw := r.cur.previousUw }
  tls_eq : r.tls = { t with preEnhValid := r.tls.preEnhValid, preEnhOwner := r.tls.preEnhOwner,
                            uvSeedOverride := r.tls.uvSeedOverride, plan := r.tls.plan,
                            comfortSeed48 := r.tls.comfortSeed48, comfortSeeded := r.tls.comfortSeeded }

theorem synthesizeSpeechfSimd_frame (isa : Isa) (E : Env F) (a : Nat) (out : Arr 160 F) (cur prev : Parms F) (t : Tls F)
    (uvq : Int) : Post (synthesizeSpeechfSimd isa E a out cur prev t uvq) (SpeechFrameS cur prev t) := by
  unfold synthesizeSpeechfSimd
  refine Post.bind (applySmoothing_frame a cur prev t) fun q hq => ?_
  obtain ⟨c, t'⟩ := q
  obtain ⟨hc, ht⟩ := hq
  dsimp only at hc ht ⊢
  refine Post.ite (fun h => ?_) fun h => ?_
  · refine Post.bind (comfortNoisef_frame _ _) fun q hq => Post.pure ⟨?_, ?_⟩
    · dsimp only; rw [hc]
    · dsimp only; rw [hq, ht]
  · intro r hr
    obtain ⟨h1, h2, h3⟩ := synthUnmutedSimd_frame _ _ _ _ _ r hr
    exact ⟨by rw [h1, hc], by rw [h3, ht]⟩

theorem synthUnmutedSimd_plan (isa : Isa) (E : Env F) (cur prev : Parms F) {t : Tls F} (h : PlanOk t) :
    Post (synthUnmutedSimd isa E cur prev t) fun r => PlanOk r.tls := by
  unfold synthUnmutedSimd
  refine Post.bind (noiseOverlap_frame _ _ _ _) fun nr hnr => ?_
  dsimp only
  refine Post.bind Post.true fun nuv _ => Post.bind Post.true fun q _ => ?_
  obtain ⟨c, p, ml⟩ := q
  refine Post.bind Post.true fun q _ => ?_
  obtain ⟨c', p'⟩ := q
  refine Post.bind Post.true fun out _ => Post.bind (getPlan_planOk (h.of_eq (by rw [hnr]))) fun q hq => ?_
  obtain ⟨pl, t'⟩ := q
  cases pl with
  | some P => exact Post.bind Post.true fun u _ => Post.bind Post.true fun _ _ => Post.pure hq.2
  | none => exact Post.bind Post.true fun _ _ => Post.pure hq.2

theorem synthesizeSpeechfSimd_plan (isa : Isa) (E : Env F) (a : Nat) (out : Arr 160 F) (cur prev : Parms F) {t : Tls F}
    (uvq : Int) (h : PlanOk t) : Post (synthesizeSpeechfSimd isa E a out cur prev t uvq) fun r => PlanOk r.tls := by
  unfold synthesizeSpeechfSimd
  refine Post.bind (applySmoothing_frame a cur prev t) fun q hq => ?_
  obtain ⟨c, t'⟩ := q
  obtain ⟨hc, ht⟩ := hq
  dsimp only at hc ht ⊢
  have h' : PlanOk t' := h.of_eq (by rw [ht])
  refine Post.ite (fun _ => ?_) fun _ => synthUnmutedSimd_plan isa E c prev h'
  exact Post.bind (comfortNoisef_frame _ _) fun q hq => Post.pure (h'.of_eq (by dsimp only; rw [hq]))

theorem spectralAmpEnhanceSimd_frame (isa : Isa) (addr : Nat) (cur : Parms F) (t : Tls F) :
    Post (spectralAmpEnhanceSimd isa addr cur t) fun r => r.1 = { cur with Ml := r.1.Ml } ∧
      r.2 = { t with preEnhRm0 := r.2.preEnhRm0, preEnhValid := r.2.preEnhValid, preEnhOwner := r.2.preEnhOwner } := by
  unfold spectralAmpEnhanceSimd
  refine Post.bind Post.true fun ct _ => Post.bind Post.true fun r _ => Post.bind Post.true fun _ _ => ?_
  refine Post.bind Post.true fun _ _ => Post.bind Post.true fun _ _ => Post.pure ⟨rfl, ?_⟩
  unfold setPreEnhRm0
  dsimp only
  split <;> rfl

/-- What `speak` may change. -/
structure SpeakFrameS (s : St F) (o : Arr 160 F × St F) : Prop where
  prev_eq : o.2.prev = s.cur
  enh_eq : o.2.enh = o.2.cur
  cur_eq : o.2.cur = { s.cur with
    localEnergy := o.2.cur.localEnergy, amplitudeThreshold := o.2.cur.amplitudeThreshold,
    noiseSeed := o.2.cur.noiseSeed, noiseOverlap := o.2.cur.noiseOverlap, Ml := o.2.cur.Ml, Vl := o.2.cur.Vl,
    PHIl := o.2.cur.PHIl, PSIl := o.2.cur.PSIl, previousUw := o.2.cur.previousUw }
  plan : PlanOk s.tls → PlanOk o.2.tls

theorem speakSimd_frame (isa : Isa) (E : Env F) (C : Call F) (s : St F) : Post (speakSimd isa E C s) (SpeakFrameS s) := by
  unfold speakSimd
  refine Post.bind (spectralAmpEnhanceSimd_frame _ _ _ _) fun q hq => ?_
  obtain ⟨c, t⟩ := q
  obtain ⟨hc, ht⟩ := hq
  dsimp only at hc ht ⊢
  refine Post.bind (P := fun r => SpeechFrameS c s.enh t r ∧ (PlanOk t → PlanOk r.tls))
    (fun r hr => ⟨synthesizeSpeechfSimd_frame isa E _ _ _ _ _ _ r hr, fun h => synthesizeSpeechfSimd_plan isa E _ _ _ _ _ h r hr⟩)
    fun r hr => Post.pure ⟨rfl, rfl, ?_, fun h => hr.2 (h.of_eq (by rw [ht]))⟩
  dsimp only; rw [hr.1.cur_eq, hc]

end

variable {F : Type} [Arith F] [Base F]

theorem synthSimd_ok {U : UB → Prop} (isa : Isa) (E : Env F) (a : Nat) (out : Arr 160 F) {cur prev : Parms F}
    {t : Tls F} (u : Int) (hpl : PlanOk t) (hc : SetOk cur) (hp : SetOk prev) (ht : t.uvSeedState ≤ 2 ^ 24)
    (htm : TmOk cur.errorCountTotal prev.amplitudeThreshold ∨ U .signedOverflow) :
    OkU U (synthesizeSpeechfSimd isa E a out cur prev t u) fun r => SetOk r.cur ∧ r.tls.uvSeedState = t.uvSeedState ∧
      r.cur.errorCountTotal = cur.errorCountTotal ∧
      (0 ≤ cur.errorCountTotal → r.cur.amplitudeThreshold ≤ max 20480 (max 20480 prev.amplitudeThreshold + 6000)) := by
  have hpre : SynthPre U cur prev := ⟨⟨by have := hc.lo; omega, hc.hi⟩, ⟨by have := hp.lo; omega, hp.hi⟩,
    .inl (Base.conv hc.seed), .inl (Base.edge hc.w0 hc.hi), htm⟩
  refine ((synthesizeSpeechfSimd_ok isa E a out cur prev t u hpl hpre).post fun r h =>
    And.intro (synthesizeSpeechfSimd_frame isa E a out cur prev t u r h) (synthesizeSpeechfSimd_vl isa E a out prev t u hc.vl r h)).mono ?_
  rintro r ⟨⟨h1, h2⟩, h3, h4⟩
  refine ⟨⟨?_, ?_, h4, ?_, ?_⟩, by rw [h3.tls_eq], by rw [h3.cur_eq], h2⟩
  · rw [h3.cur_eq]; exact hc.lo
  · rw [h3.cur_eq]; exact hc.hi
  · rw [h3.cur_eq]; exact hc.w0
  · rcases h1 with h1 | h1
    · rw [h1]; exact hc.seed
    · exact Base.next h1 ht

theorem speakSimd_ok {U : UB → Prop} (isa : Isa) (E : Env F) (C : Call F) {s : St F} (hpl : PlanOk s.tls) (hc : SetOk s.cur)
    (he : SetOk s.enh) (ht : s.tls.uvSeedState ≤ 2 ^ 24)
    (htm : TmOk s.cur.errorCountTotal s.enh.amplitudeThreshold ∨ U .signedOverflow) (hr : RepOk s.cur) :
    OkU U (speakSimd isa E C s) fun o => StOk o.2 ∧
      (∀ T, 20480 ≤ T → Lim T s.cur → Lim T s.enh → LimAll (T + 6000) o.2) := by
  have hf := speakSimd_frame isa E C s
  refine (OkU.post (P := fun o => SetOk o.2.cur ∧ o.2.tls.uvSeedState = s.tls.uvSeedState ∧
    (0 ≤ s.cur.errorCountTotal → o.2.cur.amplitudeThreshold ≤ max 20480 (max 20480 s.enh.amplitudeThreshold + 6000)))
    ?_ hf).mono ?_
  · unfold speakSimd
    refine OkU.bind (Ok.toU ((spectralAmpEnhanceSimd_fine isa C.pc s.cur s.tls hc.hi).post (spectralAmpEnhanceSimd_frame _ _ _ _))) fun q hq => ?_
    obtain ⟨c, t⟩ := q
    obtain ⟨h1, h2⟩ := hq
    dsimp only at h1 h2 ⊢
    have hc' : SetOk c := hc.congr (by rw [h1]) (by rw [h1]) (by rw [h1]) (by rw [h1])
    refine OkU.bind (synthSimd_ok (U := U) isa E C.pc C.buf C.uvquality (hpl.of_eq (by rw [h2])) hc' he (by rw [h2]; exact ht) (by rw [h1]; exact htm)) fun r hr => ?_
    refine OkU.ok ⟨hr.1, ?_, ?_⟩
    · rw [hr.2.1, h2]
    · have := hr.2.2.2
      rw [h1] at this
      exact this
  · rintro o ⟨⟨h1, h2, h3⟩, f⟩
    refine ⟨⟨h1, by rw [f.prev_eq]; exact hc, by rw [f.enh_eq]; exact h1, by rw [f.prev_eq]; exact hr, by rw [h2]; exact ht⟩, ?_⟩
    intro T hT l1 l2
    have e : o.2.cur.errorCountTotal = s.cur.errorCountTotal := by rw [f.cur_eq]
    have hcur : Lim (T + 6000) o.2.cur := by
      refine ⟨by rw [e]; exact l1.e0, by rw [e]; exact l1.e1, ?_⟩
      have := h3 l1.e0
      have := l2.t
      omega
    exact ⟨hcur, by rw [f.prev_eq]; exact l1.mono (by omega), by rw [f.enh_eq]; exact hcur⟩

variable [Decodes F]

theorem processImbe4400Simd_u {U : UB → Prop} (isa : Isa) {E : Env F} (hlax : E.lax = true ∨ U .oobRead) {C : Call F}
    (c0 : Option Int) {errs2 : Int} (hcap : errs2.toNat + 3 ≤ C.cap ∨ U .oobWrite) {d : Nat → Int} (hd : Bits 88 d)
    {s : St F} (hpl : PlanOk s.tls) (hs : StOk s) (hlim : NoOverflow errs2 s ∨ U .signedOverflow) :
    StepOk U errs2 s (processImbe4400Simd isa E C c0 errs2 d s) := by
  unfold StepOk processImbe4400Simd
  simp only []
  have hcur : SetOk (imbePrepare c0 errs2 s).cur := by
    rw [imbePrepare_cur]; exact hs.cur.congr rfl rfl rfl rfl
  refine OkU.bind (putEq_u errs2 (by rcases hcap with h | h; exacts [.inl (by omega), .inr h])) fun str hstr => ?_
  refine OkU.bind ((Decodes.imbe hlax hd s.tls hcur hs.prev).post (decodeImbe4400_frame _ _ _ _ _)) fun r hr => ?_
  obtain ⟨⟨hrc, hrp⟩, hfr, _⟩ := hr
  have hrep : RepOk r.prev := by rw [hfr.prev_eq]; exact hs.rep.congr rfl rfl
  generalize imbeRepeatRequired r.bad c0 errs2 r.cur.errorRate = rep
  have hLimC : ∀ T, LimAll T s → 0 ≤ errs2 → errs2 ≤ 7000000 → Lim T r.cur := by
    intro T hT h0 h1
    have e : r.cur.errorCountTotal = errs2 := by rw [hfr.cur_eq, imbePrepare_cur]
    have e' : r.cur.amplitudeThreshold = s.cur.amplitudeThreshold := by rw [hfr.cur_eq, imbePrepare_cur]
    exact ⟨by rw [e]; exact h0, by rw [e]; exact h1, by rw [e']; exact hT.cur.t⟩
  have hLimP : ∀ T, LimAll T s → Lim T r.prev := fun T hT => by rw [hfr.prev_eq]; exact hT.prev.congr rfl rfl
  refine OkU.bind (P := fun c => SetOk c ∧ RepOk c ∧
    ∀ T, 20480 ≤ T → LimAll T s → 0 ≤ errs2 → errs2 ≤ 7000000 → Lim T c) ?_ fun c hc => ?_
  · unfold imbeRepeat
    refine OkU.ite (fun _ => OkU.ite (fun _ => ?_) fun h3 => ?_) fun _ => ?_
    · rw [Base.reset]
      refine OkU.ok ⟨⟨show (9 : Int) ≤ 39 by decide, show (39 : Int) ≤ 56 by decide, vl01_const, Base.wImbe, hrc.seed⟩,
        rep_zero rfl rfl, fun T hT hl h0 h1 => ?_⟩
      have := hLimC T hl h0 h1
      exact ⟨this.e0, this.e1, hT⟩
    · refine (repeatLast_ok hrep).mono ?_
      rintro q rfl
      refine ⟨hrp.congr rfl rfl rfl rfl, ⟨?_, ?_, ?_⟩, fun T _ hl _ _ => (hLimP T hl).congr rfl rfl⟩
      · show r.prev.repeat_ + 1 = r.prev.repeatCount + 1
        rw [hrep.eq]
      · show 0 ≤ r.prev.repeatCount + 1
        have := hrep.lo; omega
      · show r.prev.repeatCount + 1 ≤ 4
        omega
    · exact OkU.ok ⟨hrc.congr rfl rfl rfl rfl, rep_zero rfl rfl, fun T _ hl h0 h1 => (hLimC T hl h0 h1).congr rfl rfl⟩
  obtain ⟨hc1, hc2, hc3⟩ := hc
  refine OkU.bind (putIf_u rep 'R' (s := str) (by rcases hcap with h | h; exacts [.inl (by omega), .inr h])) fun str' hstr' => ?_
  have htls : r.tls.uvSeedState = s.tls.uvSeedState := by rw [hfr.tls_eq]
  refine OkU.bind (speakSimd_ok isa E C (s := ⟨c, r.prev, (imbePrepare c0 errs2 s).enh, r.tls⟩) (hpl.of_eq (by dsimp only; rw [hfr.tls_eq])) hc1 hs.enh (by dsimp only; rw [htls]; exact hs.uv) ?_ hc2)
    fun o ho => ?_
  · rcases hlim with ⟨h1, h2, h3⟩ | h
    · left
      exact (hc3 _ (by decide) h1 h2 h3).tm h1.enh
    · exact .inr h
  refine strEnd_u (str := str') _ (fun hP => ?_) hcap (by omega) (fun t => (⟨o.1, t, o.2⟩ : Out F))
    (fun t => ⟨ho.1, fun T hT hl h0 h1 => ho.2 T hT (hc3 T hT hl h0 h1) hl.enh⟩)
  refine (putIf_u _ 'M' ?_).mono hP
  rcases hcap with h | h
  · left; omega
  · exact .inr h

/-- The speech or mute branch common to the AMBE codecs. -/
theorem ambeVoiceSimd_u {U : UB → Prop} (isa : Isa) {E : Env F} {C : Call F} {s : St F} (hpl : PlanOk s.tls) (hc : SetOk s.cur)
    (he : SetOk s.enh) (ht : s.tls.uvSeedState ≤ 2 ^ 24) (hr : s.cur.repeat_ = s.cur.repeatCount) (h0 : 0 ≤ s.cur.repeatCount)
    (htm : TmOk s.cur.errorCountTotal s.enh.amplitudeThreshold ∨ U .signedOverflow) :
    OkU U (if s.cur.repeat_ ≤ 3 then do
        let o ← speakSimd isa E C s
        Except.ok (o.1, none, o.2)
      else do
        let o ← noiseAndReset C s
        Except.ok (o.1, some 'M', o.2) : Exec (Arr 160 F × Option Char × St F)) fun p =>
      StOk p.2.2 ∧ (∀ T, 20480 ≤ T → Lim T s.cur → Lim T s.enh → LimAll (T + 6000) p.2.2) := by
  refine OkU.ite (fun h3 => ?_) fun _ => ?_
  · refine OkU.bind (speakSimd_ok isa E C hpl hc he ht htm ⟨hr, h0, by omega⟩) fun o ho => OkU.ok ho
  · refine OkU.bind (noise_stOk C ht) fun o ho => OkU.ok ⟨ho.1, fun T hT _ _ => ho.2 _ (by omega)⟩

theorem processAmbe2450Simd_u {U : UB → Prop} (isa : Isa) {E : Env F} (hlax : E.lax = true ∨ U .oobRead) {C : Call F}
    (c0 : Option Int) {errs2 : Int} (hcap : errs2.toNat + 3 ≤ C.cap ∨ U .oobWrite) {d : Nat → Int} (hd : Bits 49 d)
    {s : St F} (hpl : PlanOk s.tls) (hs : StOk s) (hlim : NoOverflow errs2 s ∨ U .signedOverflow) :
    StepOk U errs2 s (processAmbe2450Simd isa E C c0 errs2 d s) := by
  unfold StepOk processAmbe2450Simd
  obtain ⟨s1, e1, hs1, ht1, hl1⟩ := ambePrepare_u errs2 hs
  rw [e1, ok_bind]
  refine OkU.bind (putEq_u errs2 (by rcases hcap with h | h; exacts [.inl (by omega), .inr h])) fun str hstr => ?_
  refine OkU.bind ((Decodes.ambe2450 hlax hd errs2 s1.tls hs1.cur hs1.prev).post (decodeAmbe2450_frame _ _ _ _ _ _)) fun r hr => ?_
  obtain ⟨⟨hrc, hrp⟩, hfr, hbad, _⟩ := hr
  have hplr : PlanOk r.tls := hpl.of_eq (by rw [hfr.tls_eq, ht1])
  have hrep : RepOk r.prev := by rw [hfr.prev_eq]; exact hs1.rep.congr rfl rfl
  have huv : r.tls.uvSeedState ≤ 2 ^ 24 := by rw [hfr.tls_eq]; exact hs1.uv
  have hLimC : ∀ T, LimAll T s1 → Lim T r.cur := fun T hT => by rw [hfr.cur_eq]; exact hT.cur.congr rfl rfl
  have hLimP : ∀ T, LimAll T s1 → Lim T r.prev := fun T hT => by rw [hfr.prev_eq]; exact hT.prev.congr rfl rfl
  have hlim' : LimAll 2147477647 s1 ∨ U .signedOverflow := by
    rcases hlim with ⟨a, b, c⟩ | h
    · exact .inl (hl1 _ (by decide) a b c)
    · exact .inr h
  -- the verdict
  refine OkU.bind (P := fun v => SetOk v.1 ∧ v.1.repeat_ = v.1.repeatCount ∧ 0 ≤ v.1.repeatCount ∧
    (r.bad = 2 → v.1.repeatCount = 0) ∧ ∀ T, 20480 ≤ T → LimAll T s1 → Lim T v.1) ?_ fun v hv => ?_
  · unfold ambe2450Verdict
    refine OkU.ite (fun _ => ?_) fun hb2 => OkU.ite (fun _ => ?_) fun _ => OkU.ite (fun _ => ?_) fun _ => ?_
    · rw [setAmbeErasureParms_eq, ok_bind]
      refine OkU.ok ⟨⟨le_refl (9 : Int), show (9 : Int) ≤ 56 by decide, vl01_const, Base.wZero, hrp.seed⟩, rfl, le_refl (0 : Int),
        fun _ => rfl, fun T hT hl => ?_⟩
      have := hLimC T hl
      exact ⟨this.e0, this.e1, hT⟩
    · exact OkU.ok ⟨hrc.congr rfl rfl rfl rfl, rfl, le_refl (0 : Int), fun _ => rfl, fun T _ hl => (hLimC T hl).congr rfl rfl⟩
    · refine OkU.bind (repeatLast_ok hrep) fun q hq => ?_
      subst hq
      refine OkU.ok ⟨hrp.congr rfl rfl rfl rfl, ?_, ?_, fun h => absurd h hb2, fun T _ hl => (hLimP T hl).congr rfl rfl⟩
      · show r.prev.repeat_ + 1 = r.prev.repeatCount + 1
        rw [hrep.eq]
      · show 0 ≤ r.prev.repeatCount + 1
        have := hrep.lo; omega
    · exact OkU.ok ⟨hrc.congr rfl rfl rfl rfl, rfl, le_refl (0 : Int), fun _ => rfl, fun T _ hl => (hLimC T hl).congr rfl rfl⟩
  obtain ⟨hv1, hv2, hv3, hv5, hv4⟩ := hv
  refine OkU.bind (putOpt_u v.2 (s := str) (by rcases hcap with h | h; exacts [.inl (by omega), .inr h])) fun str' hstr' => ?_
  -- the rendering
  refine OkU.bind (P := fun p => StOk p.2.2 ∧ ∀ T, 20480 ≤ T → LimAll T s1 → LimAll (T + 6000) p.2.2) ?_ fun p hp => ?_
  · unfold ambe2450RenderSimd
    refine OkU.ite (fun _ => ?_) fun _ => OkU.ite (fun _ => ?_) fun _ => OkU.ite (fun hb2 => ?_) fun _ => ?_
    · refine (ambeVoiceSimd_u isa (E := E) (C := C) (s := ⟨v.1, r.prev, s1.enh, r.tls⟩) hplr hv1 hs1.enh huv hv2 hv3 ?_).mono
        fun p hp => ⟨hp.1, fun T hT hl => hp.2 T hT (hv4 T hT hl) hl.enh⟩
      rcases hlim' with h | h
      · exact .inl ((hv4 _ (by decide) h).tm h.enh)
      · exact .inr h
    · refine OkU.bind (Ok.toU (validToneId_fine hd)) fun b _ => OkU.ite (fun _ => ?_) fun _ => OkU.ite (fun _ => ?_) fun _ => ?_
      · refine OkU.bind (Ok.toU ((synthesizeTonef_fine hd C.buf v.1).post (synthesizeTonef_frame _ _ _))) fun q hq => ?_
        refine OkU.ok ⟨⟨hv1.congr (by rw [hq]) (by rw [hq]) (by rw [hq]) (by rw [hq]), hrp, hs1.enh, hrep, huv⟩, fun T hT hl => ?_⟩
        exact ⟨((hv4 T hT hl).congr (by rw [hq]) (by rw [hq])).mono (by omega), (hLimP T hl).mono (by omega), hl.enh.mono (by omega)⟩
      · exact OkU.bind (noise_stOk C (s := ⟨v.1, r.prev, s1.enh, r.tls⟩) huv) fun o ho => OkU.ok ⟨ho.1, fun T hT _ => ho.2 _ (by omega)⟩
      · unfold replayEnhancedSimd
        refine OkU.bind (P := fun o => StOk o.2 ∧ ∀ T, 20480 ≤ T → LimAll T s1 → LimAll (T + 6000) o.2) ?_ fun o ho => OkU.ok ho
        refine OkU.bind (synthSimd_ok (U := U) isa E C.ps C.buf C.uvquality hplr hs1.enh hs1.enh huv ?_) fun w hw => ?_
        · rcases hlim' with h | h
          · exact .inl (h.enh.tm h.enh)
          · exact .inr h
        obtain ⟨w1, w2, w3, w4⟩ := hw
        refine OkU.ok ⟨⟨hv1, hrp, w1, hrep, by rw [w2]; exact huv⟩, fun T hT hl => ?_⟩
        refine ⟨(hv4 T hT hl).mono (by omega), (hLimP T hl).mono (by omega), ⟨by rw [w3]; exact hl.enh.e0, by rw [w3]; exact hl.enh.e1, ?_⟩⟩
        have h4 : w.cur.amplitudeThreshold ≤ max 20480 (max 20480 s1.enh.amplitudeThreshold + 6000) := w4 hl.enh.e0
        have := hl.enh.t
        show w.cur.amplitudeThreshold ≤ T + 6000
        omega
    · refine OkU.bind (Ok.toU ((comfortNoisef_fine C.buf r.tls).post (comfortNoisef_frame _ _))) fun q hq => ?_
      refine OkU.ok ⟨⟨hv1, hv1, hv1, ⟨hv2, hv3, ?_⟩, ?_⟩, fun T hT hl => ?_⟩
      · show v.1.repeatCount ≤ 4
        have := hv5 hb2
        omega
      · show q.2.uvSeedState ≤ _
        rw [hq]; exact huv
      · have := (hv4 T hT hl).mono (show T ≤ T + 6000 by omega)
        exact ⟨this, this, this⟩
    · exact OkU.bind (noise_stOk C (s := ⟨v.1, r.prev, s1.enh, r.tls⟩) huv) fun o ho => OkU.ok ⟨ho.1, fun T hT _ => ho.2 _ (by omega)⟩
  refine strEnd_u (str := str') _ (fun hP => ?_) hcap (by omega) (fun t => (⟨p.1, t, p.2.2⟩ : Out F))
    (fun t => ⟨hp.1, fun T hT hl h0 h1 => hp.2 T hT (hl1 T hT hl h0 h1)⟩)
  refine (putOpt_u _ ?_).mono hP
  rcases hcap with h | h
  · left; omega
  · exact .inr h

theorem processAmbe2400Simd_u (hm : Decodes.Acc F) {U : UB → Prop} (isa : Isa) {E : Env F} (hlax : E.lax = true ∨ U .oobRead)
    {C : Call F} (errs : Int) {errs2 : Int} (hcap : errs2.toNat + 3 ≤ C.cap ∨ U .oobWrite) {d : Nat → Int}
    (hd : Bits 49 d) {s : St F} (hpl : PlanOk s.tls) (hs : StOk s) (hlim : NoOverflow errs2 s ∨ U .signedOverflow) :
    StepOk U errs2 s (processAmbe2400Simd isa E C errs errs2 d s) := by
  unfold StepOk processAmbe2400Simd
  obtain ⟨s1, e1, hs1, ht1, hl1⟩ := ambePrepare_u errs2 hs
  rw [e1, ok_bind]
  refine OkU.bind (putEq_u errs2 (by rcases hcap with h | h; exacts [.inl (by omega), .inr h])) fun str hstr => ?_
  refine OkU.bind ((Decodes.ambe2400 hm hlax hd s1.tls hs1.cur hs1.prev).post (decodeAmbe2400_frame _ _ _ _ _)) fun r hr => ?_
  obtain ⟨⟨hrc, hrp⟩, hfr, hbad, _⟩ := hr
  have hplr : PlanOk r.tls := hpl.of_eq (by rw [hfr.tls_eq, ht1])
  have hrep : RepOk r.prev := by rw [hfr.prev_eq]; exact hs1.rep.congr rfl rfl
  have huv : r.tls.uvSeedState ≤ 2 ^ 24 := by rw [hfr.tls_eq]; exact hs1.uv
  have hLimC : ∀ T, LimAll T s1 → Lim T r.cur := fun T hT => by rw [hfr.cur_eq]; exact hT.cur.congr rfl rfl
  have hLimP : ∀ T, LimAll T s1 → Lim T r.prev := fun T hT => by rw [hfr.prev_eq]; exact hT.prev.congr rfl rfl
  have hlim' : LimAll 2147477647 s1 ∨ U .signedOverflow := by
    rcases hlim with ⟨a, b, c⟩ | h
    · exact .inl (hl1 _ (by decide) a b c)
    · exact .inr h
  refine OkU.bind (P := fun v : Verdict2400 F => r.bad = 0 → SetOk v.cur ∧ v.cur.repeat_ = v.cur.repeatCount ∧
    0 ≤ v.cur.repeatCount ∧ ∀ T, 20480 ≤ T → LimAll T s1 → Lim T v.cur) ?_ fun v hv => ?_
  · unfold ambe2400Verdict
    refine OkU.ite (fun hb => ?_) fun _ => OkU.ite (fun hb => ?_) fun _ => OkU.ite (fun hb => ?_) fun _ => OkU.ite (fun _ => ?_) fun _ => ?_
    · rw [setAmbeErasureParms_eq, ok_bind]
      exact OkU.ok fun h => by omega
    · exact OkU.ok fun h => by omega
    · refine OkU.bind (Ok.toU (synthesizeTonefdstar_fine d C.buf r.cur (by omega) (by omega))) fun q _ => OkU.ok fun h => ?_
      omega
    · refine OkU.bind (repeatLast_ok hrep) fun q hq => ?_
      subst hq
      refine OkU.ok fun _ => ⟨hrp.congr rfl rfl rfl rfl, ?_, ?_, fun T _ hl => (hLimP T hl).congr rfl rfl⟩
      · show r.prev.repeat_ + 1 = r.prev.repeatCount + 1
        rw [hrep.eq]
      · show 0 ≤ r.prev.repeatCount + 1
        have := hrep.lo; omega
    · exact OkU.ok fun _ => ⟨hrc.congr rfl rfl rfl rfl, rfl, le_refl (0 : Int), fun T _ hl => (hLimC T hl).congr rfl rfl⟩
  refine OkU.bind (putOpt_u v.letter (s := str) (by rcases hcap with h | h; exacts [.inl (by omega), .inr h])) fun str' hstr' => ?_
  refine OkU.bind (P := fun p => StOk p.2.2 ∧ ∀ T, 20480 ≤ T → LimAll T s1 → LimAll (T + 6000) p.2.2) ?_ fun p hp => ?_
  · unfold ambe2400RenderSimd
    refine OkU.ite (fun hb => ?_) fun _ => OkU.ite (fun hb2 => ?_) fun _ => ?_
    · obtain ⟨hv1, hv2, hv3, hv4⟩ := hv hb
      refine (ambeVoiceSimd_u isa (E := E) (C := { C with buf := v.buf }) (s := ⟨v.cur, v.prev, s1.enh, r.tls⟩) hplr hv1 hs1.enh huv hv2 hv3 ?_).mono
        fun p hp => ⟨hp.1, fun T hT hl => hp.2 T hT (hv4 T hT hl) hl.enh⟩
      rcases hlim' with h | h
      · exact .inl ((hv4 _ (by decide) h).tm h.enh)
      · exact .inr h
    · exact absurd hb2 (by omega)
    · exact OkU.bind (noise_stOk _ (s := ⟨v.cur, v.prev, s1.enh, r.tls⟩) huv) fun o ho => OkU.ok ⟨ho.1, fun T hT _ => ho.2 _ (by omega)⟩
  refine strEnd_u (str := str') _ (fun hP => ?_) hcap (by omega) (fun t => (⟨p.1, t, p.2.2⟩ : Out F))
    (fun t => ⟨hp.1, fun T hT hl h0 h1 => hp.2 T hT (hl1 T hT hl h0 h1)⟩)
  refine (putOpt_u _ ?_).mono hP
  rcases hcap with h | h
  · left; omega
  · exact .inr h

/-! ## The plan -/

theorem noiseAndReset_plan (C : Call F) (s : St F) (h : PlanOk s.tls) : Post (noiseAndReset C s) fun o => PlanOk o.2.tls := by
  intro o ho
  unfold noiseAndReset at ho
  obtain ⟨r, h1, ho⟩ := bind_ok ho
  rw [initAmbeState_eq, ok_bind] at ho
  cases ok_inj ho
  exact h.of_eq (by show r.2.plan = _; rw [comfortNoisef_frame _ _ r h1])

theorem processImbe4400Simd_plan (isa : Isa) (E : Env F) (C : Call F) (c0 : Option Int) (errs2 : Int) (d : Nat → Int)
    (s : St F) (h : PlanOk s.tls) : Post (processImbe4400Simd isa E C c0 errs2 d s) fun o => PlanOk o.st.tls := by
  unfold processImbe4400Simd
  dsimp only
  refine Post.bind Post.true fun str _ => Post.bind (decodeImbe4400_frame _ _ _ _ _) fun r hr => ?_
  refine Post.bind Post.true fun cur _ => Post.bind Post.true fun str _ => Post.bind (speakSimd_frame _ _ _ _) fun o ho => ?_
  refine Post.bind Post.true fun _ _ => Post.bind Post.true fun _ _ => Post.pure (ho.plan ?_)
  exact h.of_eq (by dsimp only; rw [hr.1.tls_eq]; rfl)

theorem processAmbe2450Simd_plan (isa : Isa) (E : Env F) (C : Call F) (c0 : Option Int) (errs2 : Int) (d : Nat → Int)
    (s : St F) (hs : StOk s) (h : PlanOk s.tls) : Post (processAmbe2450Simd isa E C c0 errs2 d s) fun o => PlanOk o.st.tls := by
  unfold processAmbe2450Simd
  obtain ⟨s1, e1, _, ht1, _⟩ := ambePrepare_u errs2 hs
  rw [e1, ok_bind]
  refine Post.bind Post.true fun str _ => Post.bind (decodeAmbe2450_frame _ _ _ _ _ _) fun r hr => ?_
  have hr' : PlanOk r.tls := h.of_eq (by rw [hr.1.tls_eq, ht1])
  refine Post.bind Post.true fun v _ => Post.bind Post.true fun str _ => Post.bind (P := fun p => PlanOk p.2.2.tls) ?_ fun p hp =>
    Post.bind Post.true fun _ _ => Post.bind Post.true fun _ _ => Post.pure hp
  unfold ambe2450RenderSimd replayEnhancedSimd
  refine Post.ite (fun _ => Post.ite (fun _ => ?_) fun _ => ?_) fun _ => Post.ite (fun _ => ?_) fun _ => Post.ite (fun _ => ?_) fun _ => ?_
  · exact Post.bind (speakSimd_frame _ _ _ _) fun o ho => Post.pure (ho.plan hr')
  · exact Post.bind (noiseAndReset_plan C _ hr') fun o ho => Post.pure ho
  · refine Post.bind Post.true fun b _ => Post.ite (fun _ => ?_) fun _ => Post.ite (fun _ => ?_) fun _ => ?_
    · exact Post.bind Post.true fun _ _ => Post.pure hr'
    · exact Post.bind (noiseAndReset_plan C _ hr') fun o ho => Post.pure ho
    · refine Post.bind (P := fun o => PlanOk o.2.tls) ?_ fun o ho => Post.pure ho
      exact Post.bind (synthesizeSpeechfSimd_plan isa E _ _ _ _ _ hr') fun w hw => Post.pure hw
  · exact Post.bind (comfortNoisef_frame _ _) fun q hq => Post.pure (hr'.of_eq (by dsimp only; rw [hq]))
  · exact Post.bind (noiseAndReset_plan C _ hr') fun o ho => Post.pure ho

theorem processAmbe2400Simd_plan (isa : Isa) (E : Env F) (C : Call F) (errs errs2 : Int) (d : Nat → Int)
    (s : St F) (hs : StOk s) (h : PlanOk s.tls) : Post (processAmbe2400Simd isa E C errs errs2 d s) fun o => PlanOk o.st.tls := by
  unfold processAmbe2400Simd
  obtain ⟨s1, e1, _, ht1, _⟩ := ambePrepare_u errs2 hs
  rw [e1, ok_bind]
  refine Post.bind Post.true fun str _ => Post.bind (decodeAmbe2400_frame _ _ _ _ _) fun r hr => ?_
  have hr' : PlanOk r.tls := h.of_eq (by rw [hr.1.tls_eq, ht1])
  refine Post.bind Post.true fun v _ => Post.bind Post.true fun str _ => Post.bind (P := fun p => PlanOk p.2.2.tls) ?_ fun p hp =>
    Post.bind Post.true fun _ _ => Post.bind Post.true fun _ _ => Post.pure hp
  unfold ambe2400RenderSimd
  refine Post.ite (fun _ => Post.ite (fun _ => ?_) fun _ => ?_) fun _ => Post.ite (fun _ => ?_) fun _ => ?_
  · exact Post.bind (speakSimd_frame _ _ _ _) fun o ho => Post.pure (ho.plan hr')
  · exact Post.bind (noiseAndReset_plan _ _ hr') fun o ho => Post.pure ho
  · exact Post.bind (comfortNoisef_frame _ _) fun q hq => Post.pure (hr'.of_eq (by dsimp only; rw [hq]))
  · exact Post.bind (noiseAndReset_plan _ _ hr') fun o ho => Post.pure ho

/-! ## Histories -/

theorem opSimd_u (hm : Decodes.Acc F) {U : UB → Prop} (isa : Isa) {E : Env F} (hlax : E.lax = true ∨ U .oobRead) {op : Op F}
    (hd : op.Payload) {s : St F} (hpl : PlanOk s.tls) (hs : StOk s) {T : Int} (hT : 20480 ≤ T)
    (hb : (op.Counts 7000000 ∧ LimAll T s ∧ T ≤ 2147477647) ∨ U .oobWrite ∧ U .signedOverflow) :
    OkU U (op.runSimd isa E s) fun s' => (StOk s' ∧ PlanOk s'.tls) ∧ (op.Counts 7000000 → LimAll T s → LimAll (T + 6000) s') := by
  have stp : ∀ {e : Int} {cap : Nat} {x : Exec (Out F)},
      ((0 ≤ e ∧ e ≤ 7000000 ∧ e.toNat + 3 ≤ cap) ∧ LimAll T s ∧ T ≤ 2147477647) ∨ U .oobWrite ∧ U .signedOverflow →
      ((e.toNat + 3 ≤ cap ∨ U .oobWrite) → (NoOverflow e s ∨ U .signedOverflow) → StepOk U e s x) → Post x (fun o => PlanOk o.st.tls) →
      OkU U (do Except.ok (← x).st) fun s' => (StOk s' ∧ PlanOk s'.tls) ∧ ((0 ≤ e ∧ e ≤ 7000000 ∧ e.toNat + 3 ≤ cap) → LimAll T s → LimAll (T + 6000) s') := by
    intro e cap x hb h hx
    have h1 : e.toNat + 3 ≤ cap ∨ U .oobWrite := hb.imp (fun h => h.1.2.2) (fun h => h.1)
    have h2 : NoOverflow e s ∨ U .signedOverflow := by
      refine hb.imp (fun h => ⟨⟨h.2.1.cur.mono h.2.2, h.2.1.prev.mono h.2.2, h.2.1.enh.mono h.2.2⟩, h.1.1, h.1.2.1⟩) (fun h => h.2)
    exact OkU.bind ((h h1 h2).post hx) fun o ho => OkU.ok ⟨⟨ho.1.1, ho.2⟩, fun hc hl => ho.1.2 T hT hl hc.1 hc.2.1⟩
  cases op with
  | imbe op =>
    obtain ⟨C, cs, e, d⟩ := op
    cases cs with
    | none => exact stp hb (fun h1 h2 => processImbe4400Simd_u isa hlax none h1 hd hpl hs h2) (processImbe4400Simd_plan isa E C none e d s hpl)
    | some c =>
      have hs' : StOk { s with cur := { s.cur with errorCount4 := c.2 } } :=
        ⟨hs.cur.congr rfl rfl rfl rfl, hs.prev, hs.enh, hs.rep, hs.uv⟩
      have hl : ∀ T, LimAll T s → LimAll T { s with cur := { s.cur with errorCount4 := c.2 } } :=
        fun T h => ⟨h.cur.congr rfl rfl, h.prev, h.enh⟩
      refine stp hb (fun h1 h2 => ?_) (processImbe4400Simd_plan isa E C (some c.1) e d { s with cur := { s.cur with errorCount4 := c.2 } } hpl)
      refine (processImbe4400Simd_u isa hlax (some c.1) h1 hd (s := { s with cur := { s.cur with errorCount4 := c.2 } }) hpl hs' (h2.imp (fun h => ⟨hl _ h.1, h.2⟩) id)).mono ?_
      exact fun o ho => ⟨ho.1, fun T hT h a b => ho.2 T hT (hl T h) a b⟩
  | ambe op =>
    cases op with
    | v2450 C c0 e d => exact stp hb (fun h1 h2 => processAmbe2450Simd_u isa hlax c0 h1 hd hpl hs h2) (processAmbe2450Simd_plan isa E C c0 e d s hs hpl)
    | v2400 C c0 e d => exact stp hb (fun h1 h2 => processAmbe2400Simd_u hm isa hlax c0 h1 hd hpl hs h2) (processAmbe2400Simd_plan isa E C c0 e d s hs hpl)
  | initMbe =>
    show OkU U (initMbeState s) _
    rw [Base.init]
    exact OkU.ok ⟨⟨stOk_imbeInit hs.uv, hpl⟩, fun _ _ => ⟨imbeInit_lim (by omega), imbeInit_lim (by omega), imbeInit_lim (by omega)⟩⟩
  | initAmbe =>
    show OkU U (initAmbeState s) _
    rw [initAmbeState_eq]
    exact OkU.ok ⟨⟨stOk_ambeInit hs.uv, hpl⟩, fun _ _ => ⟨ambeInit_lim (by omega), ambeInit_lim (by omega), ambeInit_lim (by omega)⟩⟩
  | seed n =>
    refine OkU.ok ⟨⟨⟨hs.cur, hs.prev, hs.enh, hs.rep, seed_uv n s.tls⟩, hpl⟩, fun _ h => ?_⟩
    exact ⟨h.cur.mono (by omega), h.prev.mono (by omega), h.enh.mono (by omega)⟩

theorem histSimd_u (hm : Decodes.Acc F) {U : UB → Prop} (isa : Isa) {E : Env F} (hlax : E.lax = true ∨ U .oobRead)
    {ops : List (Op F)} (hd : ∀ op ∈ ops, op.Payload ∧ op.Counts 7000000) {s : St F} (hpl : PlanOk s.tls) (hs : StOk s) {T : Int}
    (hT : 20480 ≤ T) (hl : LimAll T s) (hlen : T + 6000 * ops.length ≤ 2147483647) :
    OkU U (runHistSimd isa E ops s) fun s' => (StOk s' ∧ PlanOk s'.tls) ∧ LimAll (T + 6000 * ops.length) s' := by
  induction ops generalizing s T with
  | nil => refine OkU.ok ⟨⟨hs, hpl⟩, ?_⟩; simpa using hl
  | cons op ops ih =>
    rw [List.length_cons] at hlen ⊢
    push_cast at hlen ⊢
    obtain ⟨d1, d2⟩ := hd op (.head _)
    refine OkU.bind (opSimd_u hm isa hlax d1 hpl hs hT (.inl ⟨d2, hl, by omega⟩)) fun s1 h1 => ?_
    have := ih (T := T + 6000) (fun op h => hd op (.tail _ h)) h1.1.2 h1.1.1 (by omega) (h1.2 d2 hl) (by omega)
    rw [show T + 6000 * ((ops.length : Int) + 1) = T + 6000 + 6000 * (ops.length : Int) by omega]
    exact this

end Verif.Model
