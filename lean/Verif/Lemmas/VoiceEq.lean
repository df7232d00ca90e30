import Verif.Spec.Tone
import Verif.Lemmas.Cache
import Verif.Lemmas.Buffers
import Verif.Lemmas.Init
import Verif.Lemmas.Steps

/-!
# Speech does not depend on the phases of the tone oscillators

Two runs from states that differ in `swn` and `un` only.
-/

set_option linter.unusedSectionVars false

namespace Verif.Model
open Verif Verif.Gen Verif.Spec Arith

variable {F : Type} [Arith F]

/-- Change the fields that speech does not use. -/
def tweak (a b : Int) (p : Parms F) : Parms F := { p with swn := a, un := b }
/-- The same and `repeatCount`. -/
def tweak3 (a b c : Int) (p : Parms F) : Parms F := { p with swn := a, un := b, repeatCount := c }

theorem VoiceEq.refl (p : Parms F) : VoiceEq p p := rfl

theorem voiceEq_iff {p q : Parms F} : VoiceEq p q ↔ ∃ a b, q = tweak a b p := by
  constructor
  · intro h; exact ⟨q.swn, q.un, h⟩
  · rintro ⟨a, b, rfl⟩; rfl

/-- The relation with `repeatCount`. -/
def Eq3 (p q : Parms F) : Prop := ∃ a b c, q = tweak3 a b c p

theorem extendPrev_tw (L : Int) {p q : Parms F} (h : VoiceEq p q) : Rel (extendPrev L p) (extendPrev L q) VoiceEq := by
  obtain ⟨a, b, rfl⟩ := voiceEq_iff.1 h
  unfold extendPrev
  show Rel (if L > p.L then _ else _) (if L > p.L then _ else _) _
  refine Rel.ite (fun _ => ?_) fun _ => Rel.pure h
  refine loop_rel (P := VoiceEq) h fun i s t hst => ?_
  obtain ⟨a, b, rfl⟩ := voiceEq_iff.1 hst
  unfold tweak
  dsimp only
  exact Rel.same fun _ => Rel.same fun _ => Rel.same fun _ => Rel.same fun _ => Rel.pure rfl

theorem rdLog2_tw (lax : Bool) {p q : Parms F} (h : VoiceEq p q) (i : Int) : rdLog2 lax q i = rdLog2 lax p i := by
  obtain ⟨a, b, rfl⟩ := voiceEq_iff.1 h
  rfl

theorem ambePredict1_tw (lax : Bool) (L : Int) {p q : Parms F} (h : VoiceEq p q) :
    ambePredict1 lax L q = ambePredict1 lax L p := by
  obtain ⟨a, b, rfl⟩ := voiceEq_iff.1 h
  rfl

theorem ambePredict3_tw (lax : Bool) (L : Int) {p q : Parms F} (h : VoiceEq p q) (ik : Loc 57 Int) (dl : Loc 57 F)
    (s g u : F) (Tl : Arr 57 F) {c d : Parms F} (hc : Eq3 c d) :
    Rel (ambePredict3 lax L p ik dl s g u Tl c) (ambePredict3 lax L q ik dl s g u Tl d) Eq3 := by
  obtain ⟨a, b, rfl⟩ := voiceEq_iff.1 h
  unfold ambePredict3 loopFT
  refine loop_rel (P := Eq3) hc fun i s t hst => ?_
  obtain ⟨a, b, c, rfl⟩ := hst
  unfold tweak3
  dsimp only
  refine Rel.same fun _ => Rel.same fun _ => ?_
  rw [rdLog2_tw lax h, rdLog2_tw lax h]
  refine Rel.same fun _ => Rel.same fun _ => ?_
  exact Rel.same fun _ => Rel.same fun _ => Rel.same fun _ => Rel.same fun _ => Rel.pure ⟨a, b, c, rfl⟩

theorem ambeBody_tw (lax : Bool) (T : AmbeTabs) (f : AmbeFields) (L : Int) (unvc : F) (cache : DctCache F 9 18)
    {c d p q : Parms F} (hc : Eq3 c d) (h : VoiceEq p q) :
    Rel (ambeBody lax T f L unvc cache c p) (ambeBody lax T f L unvc cache d q)
      fun r r' => Eq3 r.1 r'.1 ∧ VoiceEq r.2 r'.2 := by
  obtain ⟨x, y, z, rfl⟩ := hc
  obtain ⟨a, b, rfl⟩ := voiceEq_iff.1 h
  unfold ambeBody
  unfold tweak3
  dsimp only
  iterate 17 refine Rel.same fun _ => ?_
  refine (extendPrev_tw L h).bind fun p q hpq => ?_
  obtain ⟨a, b, rfl⟩ := voiceEq_iff.1 hpq
  unfold tweak
  dsimp only
  refine Rel.same fun _ => Rel.same fun _ => Rel.same fun _ => Rel.same fun _ => ?_
  refine Rel.same (x := ambePredict1 lax L _) fun _ => Rel.same fun _ => ?_
  refine Rel.bind (P := Eq3) (ambePredict3_tw lax L ?_ _ _ _ _ _ _ ?_) fun c d hcd => Rel.pure ⟨hcd, ?_⟩
  · exact voiceEq_iff.2 ⟨a, b, rfl⟩
  · exact ⟨x, y, z, rfl⟩
  · exact voiceEq_iff.2 ⟨a, b, rfl⟩

/-- Decoder results that agree but for these fields. -/
structure TwDec (r r' : DecodeRes F) : Prop where
  bad : r'.bad = r.bad
  cur : Eq3 r.cur r'.cur
  prev : VoiceEq r.prev r'.prev
  tls : r'.tls = r.tls

theorem decodeAmbe2450_tw (lax : Bool) (d : Nat → Int) (te : Int) {c c' p p' : Parms F} (t : Tls F) (hc : Eq3 c c')
    (h : VoiceEq p p') : Rel (decodeAmbe2450 lax d te c p t) (decodeAmbe2450 lax d te c' p' t) TwDec := by
  obtain ⟨x, y, z, rfl⟩ := hc
  have hr : p'.repeat_ = p.repeat_ := by obtain ⟨a, b, rfl⟩ := voiceEq_iff.1 h; rfl
  unfold decodeAmbe2450
  rw [hr]
  have fin : ∀ n : Int, Rel (.ok ⟨n, { c with repeat_ := p.repeat_ }, p, t⟩ : Exec (DecodeRes F))
      (.ok ⟨n, { tweak3 x y z c with repeat_ := p.repeat_ }, p', t⟩) TwDec :=
    fun n => Rel.pure ⟨rfl, ⟨x, y, z, rfl⟩, h, rfl⟩
  refine Rel.same fun _ => Rel.same fun b0 => Rel.ite (fun _ => fin 7) fun _ => Rel.ite (fun _ => fin 2) fun _ =>
    Rel.ite (fun _ => fin 2) fun _ => ?_
  unfold ambe2450Voice ambe2450Header
  unfold tweak3
  dsimp only
  refine Rel.bind (P := fun r r' => r'.1 = r.1 ∧ Eq3 r.2.1 r'.2.1 ∧ r'.2.2 = r.2.2) ?_ ?_
  · refine Rel.ite (fun _ => Rel.same fun _ => Rel.pure ⟨rfl, ⟨x, y, z, rfl⟩, rfl⟩) fun _ => Rel.same fun _ =>
      Rel.same fun _ => Rel.same fun _ => Rel.pure ⟨rfl, ⟨x, y, z, rfl⟩, rfl⟩
  · rintro ⟨f, c, L⟩ ⟨f', c', L'⟩ ⟨h1, ⟨x, y, z, rfl⟩, h3⟩
    dsimp only at h1 h3
    subst h1 h3
    unfold tweak3
    dsimp only
    refine Rel.same fun _ => Rel.same fun _ => Rel.same fun _ => ?_
    exact (ambeBody_tw lax _ _ _ _ _ ⟨x, y, z, rfl⟩ h).bind fun r r' hr => Rel.pure ⟨rfl, hr.1, hr.2, rfl⟩

theorem decodeAmbe2400_tw (lax : Bool) (d : Nat → Int) {c c' p p' : Parms F} (t : Tls F) (hc : Eq3 c c')
    (h : VoiceEq p p') : Rel (decodeAmbe2400 lax d c p t) (decodeAmbe2400 lax d c' p' t) TwDec := by
  obtain ⟨x, y, z, rfl⟩ := hc
  have hr : p'.repeat_ = p.repeat_ := by obtain ⟨a, b, rfl⟩ := voiceEq_iff.1 h; rfl
  unfold decodeAmbe2400
  rw [hr]
  unfold tweak3
  dsimp only
  refine Rel.same fun b0 => Rel.ite (fun _ => Rel.same fun b1 => Rel.ite (fun _ => Rel.pure ⟨rfl, ⟨x, y, z, rfl⟩, h, rfl⟩) fun _ =>
    Rel.ite (fun _ => Rel.pure ⟨rfl, ⟨x, y, z, rfl⟩, h, rfl⟩) fun _ => Rel.same fun _ =>
      Rel.pure ⟨rfl, ⟨x, y, z, rfl⟩, h, rfl⟩) fun _ => ?_
  unfold ambe2400Voice
  dsimp only
  refine Rel.same fun _ => Rel.same fun _ => Rel.same fun _ => Rel.same fun _ => Rel.same fun _ => ?_
  exact (ambeBody_tw lax _ _ _ _ _ ⟨x, y, z, rfl⟩ h).bind fun r r' hr => Rel.pure ⟨rfl, hr.1, hr.2, rfl⟩

/-! ## Synthesis -/

theorem spectralAmpEnhance_tw (a : Nat) {c c' : Parms F} (h : VoiceEq c c') (t : Tls F) :
    Rel (spectralAmpEnhance a c t) (spectralAmpEnhance a c' t) fun r r' => VoiceEq r.1 r'.1 ∧ r'.2 = r.2 := by
  obtain ⟨x, y, rfl⟩ := voiceEq_iff.1 h
  unfold spectralAmpEnhance tweak
  dsimp only
  exact Rel.same fun _ => Rel.same fun _ => Rel.same fun _ => Rel.same fun _ => Rel.same fun _ => Rel.pure ⟨rfl, rfl⟩

theorem applySmoothing_tw (a : Nat) {c c' p p' : Parms F} (h : VoiceEq c c') (hp : VoiceEq p p') (t : Tls F) :
    Rel (applySmoothing a c p t) (applySmoothing a c' p' t) fun r r' => VoiceEq r.1 r'.1 ∧ r'.2 = r.2 := by
  obtain ⟨x, y, rfl⟩ := voiceEq_iff.1 h
  obtain ⟨u, v, rfl⟩ := voiceEq_iff.1 hp
  unfold applySmoothing
  refine Rel.bind (P := fun r r' => r' = r) (show Rel (smoothRm0 a c t) (smoothRm0 a c t) _ from ?_) ?_
  · cases smoothRm0 a c t with
    | error e => exact .error
    | ok r => exact .ok rfl
  · rintro ⟨r, t⟩ _ rfl
    unfold tweak
    dsimp only
    exact Rel.same fun _ => Rel.same fun _ => Rel.same fun _ => Rel.same fun _ => Rel.pure ⟨rfl, rfl⟩

theorem extendBands_tw (lo hi : Int) {p q : Parms F} (h : VoiceEq p q) :
    Rel (extendBands lo hi p) (extendBands lo hi q) VoiceEq := by
  unfold extendBands
  refine loop_rel (P := VoiceEq) h fun i s t hst => ?_
  obtain ⟨a, b, rfl⟩ := voiceEq_iff.1 hst
  unfold tweak
  dsimp only
  exact Rel.same fun _ => Rel.same fun _ => Rel.pure rfl

theorem phaseUpdate_tw (noise : Arr 256 F) (n : Int) (cw0 pw0 : F) {c c' p p' : Parms F} (h : VoiceEq c c') (hp : VoiceEq p p') :
    Rel (phaseUpdate noise n cw0 pw0 c p) (phaseUpdate noise n cw0 pw0 c' p')
      fun r r' => VoiceEq r.1 r'.1 ∧ VoiceEq r.2 r'.2 := by
  unfold phaseUpdate loopFT
  refine loop_rel (P := fun (r r' : Parms F × Parms F) => VoiceEq r.1 r'.1 ∧ VoiceEq r.2 r'.2) ⟨h, hp⟩ ?_
  rintro i ⟨c, p⟩ ⟨c', p'⟩ ⟨h, hp⟩
  obtain ⟨x, y, rfl⟩ := voiceEq_iff.1 h
  obtain ⟨u, v, rfl⟩ := voiceEq_iff.1 hp
  unfold tweak
  dsimp only
  refine Rel.same fun _ => Rel.same fun _ => Rel.same fun _ => Rel.ite (fun _ => Rel.same fun _ => Rel.same fun _ =>
    Rel.pure ⟨rfl, rfl⟩) fun _ => Rel.same fun _ => Rel.same fun _ => Rel.same fun _ => Rel.pure ⟨rfl, rfl⟩

theorem voicedBand_tw (cw0 pw0 : F) {c c' p p' : Parms F} (h : VoiceEq c c') (hp : VoiceEq p p') :
    voicedBand cw0 pw0 c' p' = voicedBand cw0 pw0 c p := by
  obtain ⟨x, y, rfl⟩ := voiceEq_iff.1 h
  obtain ⟨u, v, rfl⟩ := voiceEq_iff.1 hp
  rfl

theorem unvoiced_tw (E : Env F) (P : Plan F) (noise : Arr 256 F) {c c' p p' : Parms F} (h : VoiceEq c c') (hp : VoiceEq p p') :
    unvoiced E P noise c' p' = unvoiced E P noise c p := by
  obtain ⟨x, y, rfl⟩ := voiceEq_iff.1 h
  obtain ⟨u, v, rfl⟩ := voiceEq_iff.1 hp
  rfl

/-- Results of a synthesis call that agree but for the tone oscillators. -/
structure TwRes (r r' : SynthRes F) : Prop where
  out : r'.out = r.out
  cur : VoiceEq r.cur r'.cur
  prev : VoiceEq r.prev r'.prev
  tls : r'.tls = r.tls

theorem synthUnmuted_tw (E : Env F) {c c' p p' : Parms F} (h : VoiceEq c c') (hp : VoiceEq p p') (t : Tls F) :
    Rel (synthUnmuted E c p t) (synthUnmuted E c' p' t) TwRes := by
  obtain ⟨x, y, rfl⟩ := voiceEq_iff.1 h
  obtain ⟨u, v, rfl⟩ := voiceEq_iff.1 hp
  unfold synthUnmuted
  show Rel (noiseOverlap _ c.noiseSeed c.noiseOverlap t >>= _) (noiseOverlap _ c.noiseSeed c.noiseOverlap t >>= _) _
  refine Rel.same fun nr => ?_
  show Rel (countUv c.L c.Vl >>= _) (countUv c.L c.Vl >>= _) _
  refine Rel.same fun uv => ?_
  refine Rel.bind (P := fun (r r' : Parms F × Parms F × Int) => VoiceEq r.1 r'.1 ∧ VoiceEq r.2.1 r'.2.1 ∧ r'.2.2 = r.2.2) ?_ ?_
  · show Rel (if c.L > p.L then _ else _) (if c.L > p.L then _ else _) _
    refine Rel.ite (fun _ => ?_) fun _ => ?_
    · exact (extendBands_tw _ _ hp).bind fun a b hab => Rel.pure ⟨rfl, hab, rfl⟩
    · exact Rel.bind (P := VoiceEq) (extendBands_tw _ _ rfl) fun a b hab => Rel.pure ⟨hab, hp, rfl⟩
  · rintro ⟨c1, p1, l1⟩ ⟨c2, p2, l2⟩ ⟨h1, h2, h3⟩
    dsimp only at h1 h2 h3
    subst h3
    refine (phaseUpdate_tw nr.buf uv _ _ h1 h2).bind ?_
    rintro ⟨c3, p3⟩ ⟨c4, p4⟩ ⟨h4, h5⟩
    dsimp only at h4 h5 ⊢
    rw [show (tweak x y c).w0 = c.w0 from rfl, show (tweak u v p).w0 = p.w0 from rfl, voicedBand_tw _ _ h4 h5]
    refine Rel.same fun out => Rel.same fun pt => ?_
    obtain ⟨plan, t'⟩ := pt
    cases plan with
    | none => exact Rel.same fun _ => Rel.pure ⟨rfl, h4, h5, rfl⟩
    | some P =>
      dsimp only
      rw [unvoiced_tw E P _ h4 h5]
      refine Rel.same fun r => Rel.same fun o => Rel.pure ⟨rfl, ?_, h5, rfl⟩
      obtain ⟨x, y, rfl⟩ := voiceEq_iff.1 h4
      rfl

theorem synthMuted_tw {c c' : Parms F} (h : VoiceEq c c') : synthMuted c' = synthMuted c := by
  obtain ⟨x, y, rfl⟩ := voiceEq_iff.1 h
  rfl

theorem synthesizeSpeechf_tw (E : Env F) (a : Nat) (b : Arr 160 F) {c c' p p' : Parms F} (h : VoiceEq c c') (hp : VoiceEq p p')
    (t : Tls F) (q : Int) : Rel (synthesizeSpeechf E a b c p t q) (synthesizeSpeechf E a b c' p' t q) TwRes := by
  unfold synthesizeSpeechf
  refine (applySmoothing_tw a h hp t).bind ?_
  rintro ⟨c, t⟩ ⟨c', t'⟩ ⟨h1, h2⟩
  dsimp only at h1 h2 ⊢
  subst h2
  rw [synthMuted_tw h1]
  refine Rel.ite (fun _ => ?_) fun _ => synthUnmuted_tw E h1 hp _
  exact Rel.same fun r => Rel.pure ⟨rfl, h1, hp, rfl⟩

/-- States in the middle of a call. -/
structure VoSt (s s' : St F) : Prop where
  cur : VoiceEq s.cur s'.cur
  prev : VoiceEq s.prev s'.prev
  enh : VoiceEq s.enh s'.enh
  tls : s'.tls = s.tls

theorem speak_tw (E : Env F) (C : Call F) {s s' : St F} (h : VoSt s s') :
    Rel (speak E C s) (speak E C s') fun r r' => r'.1 = r.1 ∧ VoSt r.2 r'.2 := by
  unfold speak
  rw [h.tls]
  refine (spectralAmpEnhance_tw C.pc h.cur s.tls).bind ?_
  rintro ⟨c, t⟩ ⟨c', t'⟩ ⟨h1, h2⟩
  dsimp only at h1 h2 ⊢
  subst h2
  exact (synthesizeSpeechf_tw E C.pc C.buf h1 h.enh _ C.uvquality).bind fun r r' hr => 
    Rel.pure ⟨hr.out, hr.cur, h.cur, hr.cur, hr.tls⟩

theorem replayEnhanced_tw (E : Env F) (C : Call F) {s s' : St F} (h : VoSt s s') :
    Rel (replayEnhanced E C s) (replayEnhanced E C s') fun r r' => r'.1 = r.1 ∧ VoSt r.2 r'.2 := by
  unfold replayEnhanced
  rw [h.tls]
  exact (synthesizeSpeechf_tw E C.ps C.buf h.enh h.enh s.tls C.uvquality).bind fun r r' hr => 
    Rel.pure ⟨hr.out, h.cur, h.prev, hr.cur, hr.tls⟩

theorem initAmbeState_tw {p p' : Parms F} (h : VoiceEq p p') (a b c d : Parms F) (t : Tls F) :
    initAmbeState ⟨a, p', b, t⟩ = initAmbeState ⟨c, p, d, t⟩ := by
  obtain ⟨x, y, rfl⟩ := voiceEq_iff.1 h
  rfl

theorem noiseAndReset_tw (C D : Call F) {s s' : St F} (h : VoiceEq s.prev s'.prev) (ht : s'.tls = s.tls) :
    noiseAndReset D s' = noiseAndReset C s := by
  rw [noiseAndReset_indep (C := D) (D := C)]
  unfold noiseAndReset
  rw [ht]
  generalize comfortNoisef C.buf s.tls = x
  cases x with
  | error e => exact (rfl : (Except.error e : Exec (Arr 160 F × St F)) = Except.error e)
  | ok r =>
    rw [ok_bind, ok_bind, initAmbeState_tw h s'.cur s'.enh s.cur s.enh]

/-! ## Calls -/

theorem voiceEqCur_cases {p q : Parms F} (h : VoiceEqCur p q) :
    ∃ a b m e1 e2 r x y, q = { p with swn := a, un := b, mutingThreshold := m, errorCountTotal := e1, errorCount4 := e2,
                                      errorRate := r, repeat_ := x, repeatCount := y } := ⟨_, _, _, _, _, _, _, _, h⟩

theorem voiceEq_toCur {p q : Parms F} (h : VoiceEq p q) : VoiceEqCur p q := by
  obtain ⟨a, b, rfl⟩ := voiceEq_iff.1 h
  rfl

theorem VoSt.toSt {s s' : St F} (h : VoSt s s') : VoiceEqSt s s' := ⟨voiceEq_toCur h.cur, h.prev, h.enh, h.tls⟩

/-- The start of a call. -/
theorem ambePrepare_tw (errs2 : Int) {s s' : St F} (h : VoiceEqSt s s') :
    Rel (ambePrepare errs2 s) (ambePrepare errs2 s') fun r r' =>
      (∃ a b x y, r'.cur = { r.cur with swn := a, un := b, repeat_ := x, repeatCount := y }) ∧ VoiceEq r.prev r'.prev ∧
      VoiceEq r.enh r'.enh ∧ r'.tls = r.tls := by
  obtain ⟨c, p, e, t⟩ := s
  obtain ⟨c', p', e', t'⟩ := s'
  obtain ⟨h1, h2, h3, h4⟩ := h
  dsimp only at h1 h2 h3 h4
  subst h4
  unfold ambePrepare ensureAmbeDefaults
  rw [initAmbeState_tw h2 c' e' c e]
  have hm : p'.mutingThreshold = p.mutingThreshold := by obtain ⟨a, b, rfl⟩ := voiceEq_iff.1 h2; rfl
  dsimp only
  rw [hm]
  refine Rel.bind (P := fun r r' => VoiceEqSt r r') (Rel.ite (fun _ => ?_) fun _ => Rel.pure ⟨h1, h2, h3, rfl⟩) ?_
  · generalize initAmbeState ⟨c, p, e, t'⟩ = x
    cases x with
    | error e => exact .error
    | ok r => exact .ok ⟨rfl, rfl, rfl, rfl⟩
  · rintro ⟨c, p, e, t⟩ ⟨c', p', e', t'⟩ ⟨h1, h2, h3, h4⟩
    dsimp only at h1 h2 h3 h4
    obtain ⟨a, b, m, e1, e2, r, x, y, rfl⟩ := voiceEqCur_cases h1
    have hr : p'.errorRate = p.errorRate := by obtain ⟨a, b, rfl⟩ := voiceEq_iff.1 h2; rfl
    dsimp only
    rw [hr]
    exact Rel.pure ⟨⟨a, b, x, y, rfl⟩, h2, h3, h4⟩

theorem setAmbeErasureParms_tw (a b : Int) (p mp : Parms F) {q : Parms F} (h : VoiceEq p q) :
    setAmbeErasureParms (tweak a b mp) q = setAmbeErasureParms mp p := by
  obtain ⟨x, y, rfl⟩ := voiceEq_iff.1 h
  rfl

theorem repeatLast_tw {p q : Parms F} (h : VoiceEq p q) : Rel (repeatLast p) (repeatLast q) VoiceEq := by
  obtain ⟨x, y, rfl⟩ := voiceEq_iff.1 h
  unfold repeatLast tweak
  dsimp only
  exact Rel.same fun _ => Rel.same fun _ => Rel.pure rfl

theorem ambe2450Verdict_tw (bad : Int) (c0 : Option Int) (errs2 : Int) {c c' p p' : Parms F} (hc : Eq3 c c') (h : VoiceEq p p') :
    Rel (ambe2450Verdict bad c0 errs2 c p) (ambe2450Verdict bad c0 errs2 c' p') fun r r' => VoiceEq r.1 r'.1 ∧ r'.2 = r.2 := by
  obtain ⟨a, b, x, rfl⟩ := hc
  unfold ambe2450Verdict
  refine Rel.ite (fun _ => ?_) fun _ => Rel.ite (fun _ => Rel.pure ⟨voiceEq_iff.2 ⟨a, b, rfl⟩, rfl⟩) fun _ =>
    Rel.ite (fun _ => ?_) fun _ => Rel.pure ⟨voiceEq_iff.2 ⟨a, b, rfl⟩, rfl⟩
  · rw [show ({ tweak3 a b x c with repeat_ := 0, repeatCount := 0 } : Parms F) =
      tweak a b { c with repeat_ := 0, repeatCount := 0 } from rfl, setAmbeErasureParms_tw a b p _ h]
    exact Rel.same fun _ => Rel.pure ⟨rfl, rfl⟩
  · exact (repeatLast_tw h).bind fun u v huv => Rel.pure ⟨huv, rfl⟩

theorem renderTonef_tw (out : Arr 160 F) {c c' : Parms F} (h : VoiceEq c c') (f1 f2 : F) (amp : Int) :
    Rel (renderTonef out c f1 f2 amp) (renderTonef out c' f1 f2 amp) fun r r' => VoiceEq r.2 r'.2 := by
  obtain ⟨a, b, rfl⟩ := voiceEq_iff.1 h
  have wr : ∀ (i : Int) (u v : Arr 160 F) (x y : F), Rel (u.wr i x) (v.wr i y) fun _ _ => True := by
    intro i u v x y
    unfold Arr.wr
    split
    · exact .ok trivial
    · exact .error
  unfold renderTonef
  refine Rel.ite (fun _ => Rel.pure h) fun _ => Rel.same fun s1 => Rel.same fun s2 => ?_
  refine Rel.bind (P := fun _ _ => True) (loop_rel (P := fun _ _ => True) trivial ?_) fun r r' _ => 
    Rel.pure (voiceEq_iff.2 ⟨_, _, rfl⟩)
  rintro i ⟨u, p1, p2⟩ ⟨v, q1, q2⟩ _
  dsimp only
  refine Rel.ite (fun _ => ?_) fun _ => ?_
  · exact (wr _ _ _ _ _).bind fun _ _ _ => Rel.pure trivial
  · exact (wr _ _ _ _ _).bind fun _ _ _ => Rel.pure trivial

theorem synthesizeTonef_tw (out : Arr 160 F) (d : Nat → Int) {c c' : Parms F} (h : VoiceEq c c') :
    Rel (synthesizeTonef out d c) (synthesizeTonef out d c') fun r r' => VoiceEq r.2 r'.2 := by
  unfold synthesizeTonef
  refine Rel.same fun _ => Rel.same fun _ => Rel.same fun _ => Rel.same fun _ => Rel.ite (fun _ => ?_) fun _ => Rel.pure h
  exact renderTonef_tw out h _ _ _

theorem synthesizeTonefdstar_tw (out : Arr 160 F) (d : Nat → Int) {c c' : Parms F} (h : VoiceEq c c') (id : Int) :
    Rel (synthesizeTonefdstar out d c id) (synthesizeTonefdstar out d c' id) fun r r' => VoiceEq r.2 r'.2 := by
  unfold synthesizeTonefdstar
  exact Rel.ite (fun _ => Rel.pure h) fun _ => renderTonef_tw out h _ _ _

theorem ambe2450Render_tw (E : Env F) (C : Call F) (bad : Int) (d : Nat → Int) {s s' : St F} (h : VoSt s s') :
    Rel (ambe2450Render E C bad d s) (ambe2450Render E C bad d s') fun r r' =>
      (bad ≠ 7 ∨ validToneId d = .ok false → r'.1 = r.1) ∧ r'.2.1 = r.2.1 ∧ VoSt r.2.2 r'.2.2 := by
  have h1 : s'.cur.repeat_ = s.cur.repeat_ := by obtain ⟨a, b, e⟩ := voiceEq_iff.1 h.cur; rw [e]; rfl
  have h2 : isMaxFrameRepeat s'.prev = isMaxFrameRepeat s.prev := by obtain ⟨a, b, e⟩ := voiceEq_iff.1 h.prev; rw [e]; rfl
  have nr : ∀ l : Option Char, Rel (noiseAndReset C s >>= fun o => .ok (o.1, l, o.2) : Exec (Arr 160 F × Option Char × St F))
      (noiseAndReset C s' >>= fun o => .ok (o.1, l, o.2)) fun r r' =>
      (bad ≠ 7 ∨ validToneId d = .ok false → r'.1 = r.1) ∧ r'.2.1 = r.2.1 ∧ VoSt r.2.2 r'.2.2 := by
    intro l
    rw [noiseAndReset_tw C C h.prev h.tls]
    exact Rel.same fun o => Rel.pure ⟨fun _ => rfl, rfl, rfl, rfl, rfl, rfl⟩
  unfold ambe2450Render
  rw [h1, h2]
  refine Rel.ite (fun _ => Rel.ite (fun _ => ?_) fun _ => nr _) fun _ => Rel.ite (fun hb => ?_) fun _ =>
    Rel.ite (fun _ => ?_) fun _ => nr _
  · exact (speak_tw E C h).bind fun o o' ho => Rel.pure ⟨fun _ => ho.1, rfl, ho.2⟩
  · cases hv : validToneId d with
    | error e => exact .error
    | ok v =>
      rw [ok_bind, ok_bind]
      refine Rel.ite (fun hv' => ?_) fun _ => Rel.ite (fun _ => by have := nr none; rw [hv] at this; exact this) fun _ => ?_
      · refine (synthesizeTonef_tw C.buf d h.cur).bind fun r r' hr => Rel.pure ⟨?_, rfl, hr, h.prev, h.enh, h.tls⟩
        rintro (x | x)
        · exact absurd hb x
        · rw [hv'] at x; cases x
      · exact (replayEnhanced_tw E C h).bind fun o o' ho => Rel.pure ⟨fun _ => ho.1, rfl, ho.2⟩
  · rw [h.tls]
    exact Rel.same fun r => Rel.pure ⟨fun _ => rfl, rfl, h.cur, h.cur, h.cur, rfl⟩

/-- Outputs that agree but for the tone oscillators. -/
structure TwOut (same : Prop) (o o' : Out F) : Prop where
  pcm : same → o'.pcm = o.pcm
  str : o'.str = o.str
  st : VoSt o.st o'.st

theorem processAmbe2450_tw (E : Env F) (C : Call F) (c0 : Option Int) (errs2 : Int) (d : Nat → Int) {s s' : St F}
    (h : VoiceEqSt s s') : Rel (processAmbe2450 E C c0 errs2 d s) (processAmbe2450 E C c0 errs2 d s')
      (TwOut ((∀ (p q : Parms F) (t : Tls F), Post (decodeAmbe2450 E.lax d errs2 p q t) fun r => r.bad ≠ 7) ∨ validToneId d = .ok false)) := by
  unfold processAmbe2450
  refine (ambePrepare_tw errs2 h).bind ?_
  rintro ⟨c, p, e, t⟩ ⟨c', p', e', t'⟩ ⟨⟨a, b, x, y, h1⟩, h2, h3, h4⟩
  dsimp only at h1 h2 h3 h4 ⊢
  subst h4 h1
  refine Rel.same fun str => ?_
  have hd : Rel (decodeAmbe2450 E.lax d errs2 c p t')
      (decodeAmbe2450 E.lax d errs2 { c with swn := a, un := b, repeat_ := x, repeatCount := y } p' t') TwDec := by
    rw [show decodeAmbe2450 E.lax d errs2 { c with swn := a, un := b, repeat_ := x, repeatCount := y } p' t' =
      decodeAmbe2450 E.lax d errs2 (tweak3 a b y c) p' t' from rfl]
    exact decodeAmbe2450_tw E.lax d errs2 t' ⟨a, b, y, rfl⟩ h2
  cases hx : decodeAmbe2450 E.lax d errs2 c p t' with
  | error e1 =>
    rw [hx] at hd
    generalize decodeAmbe2450 E.lax d errs2 { c with swn := a, un := b, repeat_ := x, repeatCount := y } p' t' = z at hd
    cases hd
    exact .error
  | ok r =>
    obtain ⟨r', hr', hr⟩ := hd.of_ok hx
    rw [hr', ok_bind, ok_bind, hr.bad]
    refine (ambe2450Verdict_tw r.bad c0 errs2 hr.cur hr.prev).bind ?_
    rintro ⟨v, l⟩ ⟨v', l'⟩ ⟨hv, hl⟩
    dsimp only at hv hl ⊢
    subst hl
    refine Rel.same fun str => ?_
    refine (ambe2450Render_tw E C r.bad d (s := ⟨v, r.prev, e, r.tls⟩) (s' := ⟨v', r'.prev, e', r'.tls⟩)
      ⟨hv, hr.prev, h3, hr.tls⟩).bind ?_
    rintro ⟨o, l, s⟩ ⟨o', l', s'⟩ ⟨ho, hl, hs⟩
    dsimp only at ho hl hs ⊢
    subst hl
    refine Rel.same fun str => Rel.same fun str => Rel.pure ⟨fun hsame => ho ?_, rfl, hs⟩
    rcases hsame with k | k
    · exact .inl (k c p t' r hx)
    · exact .inr k

theorem renderTonef_any (out out' : Arr 160 F) (c c' : Parms F) (f1 f2 : F) (amp : Int) :
    Rel (renderTonef out c f1 f2 amp) (renderTonef out' c' f1 f2 amp) fun _ _ => True := by
  have wr : ∀ (i : Int) (u v : Arr 160 F) (x y : F), Rel (u.wr i x) (v.wr i y) fun _ _ => True := by
    intro i u v x y
    unfold Arr.wr
    split
    · exact .ok trivial
    · exact .error
  unfold renderTonef
  refine Rel.ite (fun _ => Rel.pure trivial) fun _ => Rel.same fun s1 => Rel.same fun s2 => ?_
  refine Rel.bind (P := fun _ _ => True) (loop_rel (P := fun _ _ => True) trivial ?_) fun r r' _ => Rel.pure trivial
  rintro i ⟨u, p1, p2⟩ ⟨v, q1, q2⟩ _
  dsimp only
  refine Rel.ite (fun _ => ?_) fun _ => ?_
  · exact (wr _ _ _ _ _).bind fun _ _ _ => Rel.pure trivial
  · exact (wr _ _ _ _ _).bind fun _ _ _ => Rel.pure trivial

theorem ambe2400Verdict_tw (C : Call F) (bad errs errs2 : Int) (d : Nat → Int) {c c' p p' : Parms F} (hc : Eq3 c c')
    (h : VoiceEq p p') : Rel (ambe2400Verdict C bad errs errs2 d c p) (ambe2400Verdict C bad errs errs2 d c' p') fun r r' =>
      r'.letter = r.letter ∧ (7 ≤ bad ∨ (VoiceEq r.cur r'.cur ∧ VoiceEq r.prev r'.prev ∧ r'.buf = r.buf)) := by
  obtain ⟨a, b, x, rfl⟩ := hc
  unfold ambe2400Verdict
  refine Rel.ite (fun _ => ?_) fun _ => Rel.ite (fun _ => Rel.pure ⟨rfl, .inr ⟨voiceEq_iff.2 ⟨a, b, rfl⟩, h, rfl⟩⟩) fun _ =>
    Rel.ite (fun hb => ?_) fun _ => Rel.ite (fun _ => ?_) fun _ => Rel.pure ⟨rfl, .inr ⟨voiceEq_iff.2 ⟨a, b, rfl⟩, h, rfl⟩⟩
  · rw [show ({ tweak3 a b x c with repeat_ := 0, repeatCount := 0 } : Parms F) =
      tweak a b { c with repeat_ := 0, repeatCount := 0 } from rfl, setAmbeErasureParms_tw a b p _ h]
    exact Rel.same fun _ => Rel.pure ⟨rfl, .inr ⟨rfl, h, rfl⟩⟩
  · refine Rel.bind (P := fun _ _ => True) ?_ fun _ _ _ => Rel.pure ⟨rfl, .inl hb.1⟩
    unfold synthesizeTonefdstar
    exact Rel.ite (fun _ => Rel.pure trivial) fun _ => renderTonef_any _ _ _ _ _ _ _
  · exact (repeatLast_tw h).bind fun u v huv => Rel.pure ⟨rfl, .inr ⟨huv, h, rfl⟩⟩

theorem noiseAndReset_tls (C D : Call F) {s s' : St F} (ht : s'.tls = s.tls) : noiseAndReset D s' = noiseAndReset C s := by
  rw [noiseAndReset_indep (C := D) (D := C)]
  unfold noiseAndReset
  rw [ht]
  generalize comfortNoisef C.buf s.tls = x
  cases x with
  | error e => exact (rfl : (Except.error e : Exec (Arr 160 F × St F)) = Except.error e)
  | ok r => rw [ok_bind, ok_bind, initAmbeState_eq, initAmbeState_eq]

theorem ambe2400Render_tw (E : Env F) (C : Call F) (bad : Int) {s s' : St F} (h : VoSt s s') :
    Rel (ambe2400Render E C bad s) (ambe2400Render E C bad s') fun r r' =>
      r'.1 = r.1 ∧ r'.2.1 = r.2.1 ∧ VoSt r.2.2 r'.2.2 := by
  have h1 : s'.cur.repeat_ = s.cur.repeat_ := by obtain ⟨a, b, e⟩ := voiceEq_iff.1 h.cur; rw [e]; rfl
  unfold ambe2400Render
  rw [h1, noiseAndReset_tls C C h.tls, h.tls]
  refine Rel.ite (fun _ => Rel.ite (fun _ => ?_) fun _ => ?_) fun _ => Rel.ite (fun hb => ?_) fun _ => ?_
  · exact (speak_tw E C h).bind fun o o' ho => Rel.pure ⟨ho.1, rfl, ho.2⟩
  · exact Rel.same fun o => Rel.pure ⟨rfl, rfl, rfl, rfl, rfl, rfl⟩
  · exact Rel.same fun r => Rel.pure ⟨rfl, rfl, h.cur, h.cur, h.cur, rfl⟩
  · exact Rel.same fun o => Rel.pure ⟨rfl, rfl, rfl, rfl, rfl, rfl⟩

theorem processAmbe2400_tw (E : Env F) (C : Call F) (errs errs2 : Int) (d : Nat → Int) {s s' : St F}
    (h : VoiceEqSt s s') : Rel (processAmbe2400 E C errs errs2 d s) (processAmbe2400 E C errs errs2 d s') (TwOut True) := by
  unfold processAmbe2400
  refine (ambePrepare_tw errs2 h).bind ?_
  rintro ⟨c, p, e, t⟩ ⟨c', p', e', t'⟩ ⟨⟨a, b, x, y, h1⟩, h2, h3, h4⟩
  dsimp only at h1 h2 h3 h4 ⊢
  subst h4 h1
  refine Rel.same fun str => ?_
  have hd : Rel (decodeAmbe2400 E.lax d c p t')
      (decodeAmbe2400 E.lax d { c with swn := a, un := b, repeat_ := x, repeatCount := y } p' t') TwDec := by
    rw [show decodeAmbe2400 E.lax d { c with swn := a, un := b, repeat_ := x, repeatCount := y } p' t' =
      decodeAmbe2400 E.lax d (tweak3 a b y c) p' t' from rfl]
    exact decodeAmbe2400_tw E.lax d t' ⟨a, b, y, rfl⟩ h2
  refine hd.bind fun r r' hr => ?_
  rw [hr.bad]
  refine (ambe2400Verdict_tw C r.bad errs errs2 d hr.cur hr.prev).bind ?_
  rintro ⟨l, u, v, w⟩ ⟨l', u', v', w'⟩ ⟨hl, hv⟩
  dsimp only at hl hv ⊢
  subst hl
  refine Rel.same fun str => ?_
  refine Rel.bind (P := fun r r' => r'.1 = r.1 ∧ r'.2.1 = r.2.1 ∧ VoSt r.2.2 r'.2.2) ?_ ?_
  · rcases hv with hb | ⟨hc, hp, rfl⟩
    · unfold ambe2400Render
      rw [if_neg (by omega), if_neg (by omega), if_neg (by omega), if_neg (by omega),
        noiseAndReset_tls { C with buf := u } { C with buf := u' } (s := ⟨v, w, e, r.tls⟩) (s' := ⟨v', w', e', r'.tls⟩) hr.tls]
      exact Rel.same fun o => Rel.pure ⟨rfl, rfl, rfl, rfl, rfl, rfl⟩
    · exact ambe2400Render_tw E _ r.bad ⟨hc, hp, h3, hr.tls⟩
  · rintro ⟨o, l, s⟩ ⟨o', l', s'⟩ ⟨ho, hl, hs⟩
    dsimp only at ho hl hs ⊢
    subst hl
    exact Rel.same fun str => Rel.same fun str => Rel.pure ⟨fun _ => ho, rfl, hs⟩

end Verif.Model
