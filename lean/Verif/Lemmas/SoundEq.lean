import Verif.Spec.SoundEq
import Verif.Lemmas.VoiceEq

/-!
# Speech does not depend on the error figures as long as they are small

Two runs from states that differ in `errorRate`, `errorCountTotal` and `errorCount4` only.
-/

set_option linter.unusedSectionVars false

namespace Verif.Model
open Verif Verif.Gen Verif.Spec Arith

variable {F : Type} [Arith F]

/-- The error figures of two parameter sets, and their common muting threshold. -/
structure Tok (F : Type) where
  r0 : F
  t0 : Int
  k0 : Int
  r1 : F
  t1 : Int
  k1 : Int
  mu : F

/-- Replace the error figures. -/
def Tok.put (τ : Tok F) (p : Parms F) : Parms F := { p with errorRate := τ.r1, errorCountTotal := τ.t1, errorCount4 := τ.k1 }

/-- Parameter sets with the figures `τ`, equal otherwise. -/
structure RE (τ : Tok F) (p q : Parms F) : Prop where
  rate : p.errorRate = τ.r0
  tot : p.errorCountTotal = τ.t0
  c4 : p.errorCount4 = τ.k0
  mu : p.mutingThreshold = τ.mu
  eq : q = τ.put p

/-- Adaptive smoothing and muting take the same decisions on both figures. -/
structure Tok.Agree (τ : Tok F) : Prop where
  vm : ∀ en, smoothVM τ.r1 en τ.t1 τ.k1 = smoothVM τ.r0 en τ.t0 τ.k0
  tm : ∀ pt, smoothTm τ.r1 τ.t1 pt = smoothTm τ.r0 τ.t0 pt
  mu : lt τ.mu τ.r1 = lt τ.mu τ.r0

theorem RE.sound {τ : Tok F} {p q : Parms F} (h : RE τ p q) : SoundEq p q := by rw [h.eq]; rfl

theorem extendPrev_e (τ : Tok F) (L : Int) {p q : Parms F} (h : RE τ p q) : Rel (extendPrev L p) (extendPrev L q) (RE τ) := by
  have h' := h
  obtain ⟨h1, h2, h3, h4, rfl⟩ := h
  unfold extendPrev
  show Rel (if L > p.L then _ else _) (if L > p.L then _ else _) _
  refine Rel.ite (fun _ => ?_) fun _ => Rel.pure h'
  refine loop_rel (P := RE τ) h' fun i s t hst => ?_
  obtain ⟨h1, h2, h3, h4, rfl⟩ := hst
  unfold Tok.put
  dsimp only
  exact Rel.same fun _ => Rel.same fun _ => Rel.same fun _ => Rel.same fun _ => Rel.pure ⟨h1, h2, h3, h4, rfl⟩

theorem rdLog2_e {τ : Tok F} (lax : Bool) {p q : Parms F} (h : RE τ p q) (i : Int) : rdLog2 lax q i = rdLog2 lax p i := by
  rw [h.eq]; rfl

theorem ambePredict1_e {τ : Tok F} (lax : Bool) (L : Int) {p q : Parms F} (h : RE τ p q) :
    ambePredict1 lax L q = ambePredict1 lax L p := by
  rw [h.eq]; rfl

theorem imbePredict1_e {τ : Tok F} (lax : Bool) (L : Int) {p q : Parms F} (h : RE τ p q) :
    imbePredict1 lax L q = imbePredict1 lax L p := by
  rw [h.eq]; rfl

theorem ambePredict3_e {σ τ : Tok F} (lax : Bool) (L : Int) {p q : Parms F} (h : RE σ p q) (ik : Loc 57 Int) (dl : Loc 57 F)
    (s g u : F) (Tl : Arr 57 F) {c d : Parms F} (hc : RE τ c d) :
    Rel (ambePredict3 lax L p ik dl s g u Tl c) (ambePredict3 lax L q ik dl s g u Tl d) (RE τ) := by
  unfold ambePredict3 loopFT
  have e1 := rdLog2_e lax h
  have e2 : q.L = p.L := by rw [h.eq]; rfl
  refine loop_rel (P := RE τ) hc fun i s t hst => ?_
  obtain ⟨h1, h2, h3, h4, rfl⟩ := hst
  unfold Tok.put
  dsimp only
  refine Rel.same fun _ => Rel.same fun _ => ?_
  rw [e1, e1]
  refine Rel.same fun _ => Rel.same fun _ => ?_
  exact Rel.same fun _ => Rel.same fun _ => Rel.same fun _ => Rel.same fun _ => Rel.pure ⟨h1, h2, h3, h4, rfl⟩

theorem imbePredict2_e {σ τ : Tok F} (lax : Bool) (L : Int) {p q : Parms F} (h : RE σ p q) (ik : Loc 57 Int) (dl : Loc 57 F)
    (rho s : F) (Tl : Arr 57 F) {c d : Parms F} (hc : RE τ c d) :
    Rel (imbePredict2 lax L p ik dl rho s Tl c) (imbePredict2 lax L q ik dl rho s Tl d) (RE τ) := by
  unfold imbePredict2 loopFT
  have e1 := rdLog2_e lax h
  refine loop_rel (P := RE τ) hc fun i s t hst => ?_
  obtain ⟨h1, h2, h3, h4, rfl⟩ := hst
  unfold Tok.put
  dsimp only
  refine Rel.same fun _ => Rel.same fun _ => ?_
  rw [e1, e1]
  refine Rel.same fun _ => Rel.same fun _ => ?_
  exact Rel.same fun _ => Rel.same fun _ => Rel.same fun _ => Rel.pure ⟨h1, h2, h3, h4, rfl⟩

theorem ambeBody_e {σ τ : Tok F} (lax : Bool) (T : AmbeTabs) (f : AmbeFields) (L : Int) (unvc : F) (cache : DctCache F 9 18)
    {c d p q : Parms F} (hc : RE τ c d) (h : RE σ p q) :
    Rel (ambeBody lax T f L unvc cache c p) (ambeBody lax T f L unvc cache d q)
      fun r r' => RE τ r.1 r'.1 ∧ RE σ r.2 r'.2 := by
  have hg : q.gamma = p.gamma := by rw [h.eq]; rfl
  obtain ⟨c1, c2, c3, c4, rfl⟩ := hc
  unfold ambeBody
  rw [hg]
  unfold Tok.put
  dsimp only
  iterate 17 refine Rel.same fun _ => ?_
  refine (extendPrev_e σ L h).bind fun p q hpq => ?_
  obtain ⟨h1, h2, h3, h4, rfl⟩ := hpq
  unfold Tok.put
  dsimp only
  refine Rel.same fun _ => Rel.same fun _ => Rel.same fun _ => Rel.same fun _ => ?_
  refine Rel.same (x := ambePredict1 lax L _) fun _ => Rel.same fun _ => ?_
  refine Rel.bind (P := RE τ) (ambePredict3_e (σ := σ) lax L ?_ _ _ _ _ _ _ ?_) fun c d hcd => Rel.pure ⟨hcd, ?_⟩
  · exact ⟨h1, h2, h3, h4, rfl⟩
  · exact ⟨c1, c2, c3, c4, rfl⟩
  · exact ⟨h1, h2, h3, h4, rfl⟩

/-- Decoder results that agree but for the error figures. -/
structure EDec (τ σ : Tok F) (r r' : DecodeRes F) : Prop where
  bad : r'.bad = r.bad
  cur : RE τ r.cur r'.cur
  prev : RE σ r.prev r'.prev
  tls : r'.tls = r.tls

theorem decodeImbe4400_e {τ σ : Tok F} (lax : Bool) (d : Nat → Int) {c c' p p' : Parms F} (t : Tls F) (hc : RE τ c c')
    (h : RE σ p p') : Rel (decodeImbe4400 lax d c p t) (decodeImbe4400 lax d c' p' t) (EDec τ σ) := by
  have hr : p'.repeat_ = p.repeat_ := by rw [h.eq]; rfl
  obtain ⟨c1, c2, c3, c4, rfl⟩ := hc
  unfold decodeImbe4400
  rw [hr]
  unfold Tok.put
  dsimp only
  refine Rel.same fun b0 => Rel.ite (fun _ => Rel.pure ⟨rfl, ⟨c1, c2, c3, c4, rfl⟩, h, rfl⟩) fun _ => Rel.same fun L =>
    Rel.ite (fun _ => Rel.pure ⟨rfl, ⟨c1, c2, c3, c4, rfl⟩, h, rfl⟩) fun _ => Rel.same fun K => ?_
  unfold imbeDecodeBody
  dsimp only
  iterate 6 refine Rel.same fun _ => ?_
  refine (extendPrev_e σ L h).bind fun p q hpq => ?_
  rw [imbePredict1_e lax L hpq]
  refine Rel.same fun _ => ?_
  exact Rel.bind (P := RE τ) (imbePredict2_e (σ := σ) lax L hpq _ _ _ _ _ ⟨c1, c2, c3, c4, rfl⟩) fun c d hcd =>
    Rel.pure ⟨rfl, hcd, hpq, rfl⟩

theorem decodeAmbe2450_e {τ σ : Tok F} (lax : Bool) (d : Nat → Int) {te te' : Int} (h1 : te < 6) (h2 : te' < 6) {c c' p p' : Parms F}
    (t : Tls F) (hc : RE τ c c') (h : RE σ p p') :
    Rel (decodeAmbe2450 lax d te c p t) (decodeAmbe2450 lax d te' c' p' t) (EDec τ σ) := by
  have hr : p'.repeat_ = p.repeat_ := by rw [h.eq]; rfl
  obtain ⟨c1, c2, c3, c4, rfl⟩ := hc
  unfold decodeAmbe2450
  rw [hr, decide_eq_true h1, decide_eq_true h2]
  have fin : ∀ n : Int, Rel (.ok ⟨n, { c with repeat_ := p.repeat_ }, p, t⟩ : Exec (DecodeRes F))
      (.ok ⟨n, { τ.put c with repeat_ := p.repeat_ }, p', t⟩) (EDec τ σ) :=
    fun n => Rel.pure ⟨rfl, ⟨c1, c2, c3, c4, rfl⟩, h, rfl⟩
  refine Rel.same fun _ => Rel.same fun b0 => Rel.ite (fun _ => fin 7) fun _ => Rel.ite (fun _ => fin 2) fun _ =>
    Rel.ite (fun _ => fin 2) fun _ => ?_
  unfold ambe2450Voice ambe2450Header
  unfold Tok.put
  dsimp only
  refine Rel.bind (P := fun r r' => r'.1 = r.1 ∧ RE τ r.2.1 r'.2.1 ∧ r'.2.2 = r.2.2) ?_ ?_
  · refine Rel.ite (fun _ => Rel.same fun _ => Rel.pure ⟨rfl, ⟨c1, c2, c3, c4, rfl⟩, rfl⟩) fun _ => Rel.same fun _ =>
      Rel.same fun _ => Rel.same fun _ => Rel.pure ⟨rfl, ⟨c1, c2, c3, c4, rfl⟩, rfl⟩
  · rintro ⟨f, c, L⟩ ⟨f', c', L'⟩ ⟨h1, ⟨c1, c2, c3, c4, rfl⟩, h3⟩
    dsimp only at h1 h3 c1 c2 c3 c4
    subst h1 h3
    unfold Tok.put
    dsimp only
    refine Rel.same fun _ => Rel.same fun _ => Rel.same fun _ => ?_
    refine Rel.bind (P := fun r r' => RE τ r.1 r'.1 ∧ RE σ r.2 r'.2) (ambeBody_e lax _ _ _ _ _ ?_ h) fun r r' hr =>
      Rel.pure ⟨rfl, hr.1, hr.2, rfl⟩
    exact ⟨c1, c2, c3, c4, rfl⟩

theorem decodeAmbe2400_e {τ σ : Tok F} (lax : Bool) (d : Nat → Int) {c c' p p' : Parms F} (t : Tls F) (hc : RE τ c c')
    (h : RE σ p p') : Rel (decodeAmbe2400 lax d c p t) (decodeAmbe2400 lax d c' p' t) (EDec τ σ) := by
  have hr : p'.repeat_ = p.repeat_ := by rw [h.eq]; rfl
  obtain ⟨c1, c2, c3, c4, rfl⟩ := hc
  unfold decodeAmbe2400
  rw [hr]
  unfold Tok.put
  dsimp only
  refine Rel.same fun b0 => Rel.ite (fun _ => Rel.same fun b1 => Rel.ite (fun _ => Rel.pure ⟨rfl, ⟨c1, c2, c3, c4, rfl⟩, h, rfl⟩) fun _ =>
    Rel.ite (fun _ => Rel.pure ⟨rfl, ⟨c1, c2, c3, c4, rfl⟩, h, rfl⟩) fun _ => Rel.same fun _ =>
      Rel.pure ⟨rfl, ⟨c1, c2, c3, c4, rfl⟩, h, rfl⟩) fun _ => ?_
  unfold ambe2400Voice
  dsimp only
  refine Rel.same fun _ => Rel.same fun _ => Rel.same fun _ => Rel.same fun _ => Rel.same fun _ => ?_
  refine Rel.bind (P := fun r r' => RE τ r.1 r'.1 ∧ RE σ r.2 r'.2) (ambeBody_e lax _ _ _ _ _ ?_ h) fun r r' hr =>
    Rel.pure ⟨rfl, hr.1, hr.2, rfl⟩
  exact ⟨c1, c2, c3, c4, rfl⟩

/-! ## Synthesis -/

theorem spectralAmpEnhance_e {τ : Tok F} (a : Nat) {c c' : Parms F} (h : RE τ c c') (t : Tls F) :
    Rel (spectralAmpEnhance a c t) (spectralAmpEnhance a c' t) fun r r' => RE τ r.1 r'.1 ∧ r'.2 = r.2 := by
  obtain ⟨c1, c2, c3, c4, rfl⟩ := h
  unfold spectralAmpEnhance Tok.put
  dsimp only
  exact Rel.same fun _ => Rel.same fun _ => Rel.same fun _ => Rel.same fun _ => Rel.same fun _ =>
    Rel.pure ⟨⟨c1, c2, c3, c4, rfl⟩, rfl⟩

theorem applySmoothing_e {τ σ : Tok F} (a : Nat) {c c' p p' : Parms F} (h : RE τ c c') (hp : RE σ p p') (hτ : τ.Agree) (t : Tls F) :
    Rel (applySmoothing a c p t) (applySmoothing a c' p' t) fun r r' => RE τ r.1 r'.1 ∧ r'.2 = r.2 := by
  obtain ⟨c1, c2, c3, c4, rfl⟩ := h
  obtain ⟨d1, d2, d3, d4, rfl⟩ := hp
  unfold applySmoothing
  refine Rel.bind (P := fun r r' => r' = r) (show Rel (smoothRm0 a c t) (smoothRm0 a c t) _ from ?_) ?_
  · cases smoothRm0 a c t with
    | error e => exact .error
    | ok r => exact .ok rfl
  · rintro ⟨r, t⟩ _ rfl
    unfold Tok.put
    dsimp only
    rw [hτ.vm, hτ.tm, c1, c2, c3]
    exact Rel.same fun _ => Rel.same fun _ => Rel.same fun _ => Rel.same fun _ => Rel.pure ⟨⟨rfl, rfl, rfl, c4, rfl⟩, rfl⟩

theorem extendBands_e {τ : Tok F} (lo hi : Int) {p q : Parms F} (h : RE τ p q) :
    Rel (extendBands lo hi p) (extendBands lo hi q) (RE τ) := by
  unfold extendBands
  refine loop_rel (P := RE τ) h fun i s t hst => ?_
  obtain ⟨c1, c2, c3, c4, rfl⟩ := hst
  unfold Tok.put
  dsimp only
  exact Rel.same fun _ => Rel.same fun _ => Rel.pure ⟨c1, c2, c3, c4, rfl⟩

theorem phaseUpdate_e {τ σ : Tok F} (noise : Arr 256 F) (n : Int) (cw0 pw0 : F) {c c' p p' : Parms F} (h : RE τ c c') (hp : RE σ p p') :
    Rel (phaseUpdate noise n cw0 pw0 c p) (phaseUpdate noise n cw0 pw0 c' p')
      fun r r' => RE τ r.1 r'.1 ∧ RE σ r.2 r'.2 := by
  unfold phaseUpdate loopFT
  refine loop_rel (P := fun (r r' : Parms F × Parms F) => RE τ r.1 r'.1 ∧ RE σ r.2 r'.2) ⟨h, hp⟩ ?_
  rintro i ⟨c, p⟩ ⟨c', p'⟩ ⟨h, hp⟩
  obtain ⟨c1, c2, c3, c4, rfl⟩ := h
  obtain ⟨d1, d2, d3, d4, rfl⟩ := hp
  unfold Tok.put
  dsimp only
  refine Rel.same fun _ => Rel.same fun _ => Rel.same fun _ => Rel.ite (fun _ => Rel.same fun _ => Rel.same fun _ =>
    Rel.pure ⟨⟨c1, c2, c3, c4, rfl⟩, ⟨d1, d2, d3, d4, rfl⟩⟩) fun _ => Rel.same fun _ => Rel.same fun _ => Rel.same fun _ =>
      Rel.pure ⟨⟨c1, c2, c3, c4, rfl⟩, ⟨d1, d2, d3, d4, rfl⟩⟩

theorem voicedBand_e {τ σ : Tok F} (cw0 pw0 : F) {c c' p p' : Parms F} (h : RE τ c c') (hp : RE σ p p') :
    voicedBand cw0 pw0 c' p' = voicedBand cw0 pw0 c p := by
  rw [h.eq, hp.eq]; rfl

theorem unvoiced_e {τ σ : Tok F} (E : Env F) (P : Plan F) (noise : Arr 256 F) {c c' p p' : Parms F} (h : RE τ c c') (hp : RE σ p p') :
    unvoiced E P noise c' p' = unvoiced E P noise c p := by
  rw [h.eq, hp.eq]; rfl

/-- Results of a synthesis call that agree but for the error figures. -/
structure ERes (τ σ : Tok F) (r r' : SynthRes F) : Prop where
  out : r'.out = r.out
  cur : RE τ r.cur r'.cur
  prev : RE σ r.prev r'.prev
  tls : r'.tls = r.tls

theorem synthUnmuted_e {τ σ : Tok F} (E : Env F) {c c' p p' : Parms F} (h : RE τ c c') (hp : RE σ p p') (t : Tls F) :
    Rel (synthUnmuted E c p t) (synthUnmuted E c' p' t) (ERes τ σ) := by
  obtain ⟨c1, c2, c3, c4, rfl⟩ := h
  obtain ⟨d1, d2, d3, d4, rfl⟩ := hp
  unfold synthUnmuted
  show Rel (noiseOverlap _ c.noiseSeed c.noiseOverlap t >>= _) (noiseOverlap _ c.noiseSeed c.noiseOverlap t >>= _) _
  refine Rel.same fun nr => ?_
  show Rel (countUv c.L c.Vl >>= _) (countUv c.L c.Vl >>= _) _
  refine Rel.same fun uv => ?_
  refine Rel.bind (P := fun (r r' : Parms F × Parms F × Int) => RE τ r.1 r'.1 ∧ RE σ r.2.1 r'.2.1 ∧ r'.2.2 = r.2.2) ?_ ?_
  · show Rel (if c.L > p.L then _ else _) (if c.L > p.L then _ else _) _
    refine Rel.ite (fun _ => ?_) fun _ => ?_
    · exact (extendBands_e _ _ ⟨d1, d2, d3, d4, rfl⟩).bind fun a b hab => Rel.pure ⟨⟨c1, c2, c3, c4, rfl⟩, hab, rfl⟩
    · exact Rel.bind (P := RE τ) (extendBands_e _ _ ⟨c1, c2, c3, c4, rfl⟩) fun a b hab => Rel.pure ⟨hab, ⟨d1, d2, d3, d4, rfl⟩, rfl⟩
  · rintro ⟨u1, p1, l1⟩ ⟨u2, p2, l2⟩ ⟨h1, h2, h3⟩
    dsimp only at h1 h2 h3
    subst h3
    refine (phaseUpdate_e nr.buf uv _ _ h1 h2).bind ?_
    rintro ⟨u3, p3⟩ ⟨u4, p4⟩ ⟨h4, h5⟩
    dsimp only at h4 h5 ⊢
    rw [show (τ.put c).w0 = c.w0 from rfl, show (σ.put p).w0 = p.w0 from rfl, voicedBand_e _ _ h4 h5]
    refine Rel.same fun out => Rel.same fun pt => ?_
    obtain ⟨plan, t'⟩ := pt
    cases plan with
    | none => exact Rel.same fun _ => Rel.pure ⟨rfl, h4, h5, rfl⟩
    | some P =>
      dsimp only
      rw [unvoiced_e E P _ h4 h5]
      refine Rel.same fun r => Rel.same fun o => Rel.pure ⟨rfl, ?_, h5, rfl⟩
      obtain ⟨c1, c2, c3, c4, rfl⟩ := h4
      exact ⟨c1, c2, c3, c4, rfl⟩

theorem synthMuted_e {τ : Tok F} {c c' : Parms F} (h : RE τ c c') (hτ : τ.Agree) : synthMuted c' = synthMuted c := by
  obtain ⟨c1, c2, c3, c4, rfl⟩ := h
  have : requiresMuting (τ.put c) = requiresMuting c := by
    unfold requiresMuting Tok.put
    dsimp only
    rw [c4, c1, hτ.mu]
  unfold synthMuted
  rw [this]
  rfl

theorem synthesizeSpeechf_e {τ σ : Tok F} (E : Env F) (a : Nat) (b : Arr 160 F) {c c' p p' : Parms F} (h : RE τ c c') (hp : RE σ p p')
    (hτ : τ.Agree) (t : Tls F) (q : Int) : Rel (synthesizeSpeechf E a b c p t q) (synthesizeSpeechf E a b c' p' t q) (ERes τ σ) := by
  unfold synthesizeSpeechf
  refine (applySmoothing_e a h hp hτ t).bind ?_
  rintro ⟨c, t⟩ ⟨c', t'⟩ ⟨h1, h2⟩
  dsimp only at h1 h2 ⊢
  subst h2
  rw [synthMuted_e h1 hτ]
  refine Rel.ite (fun _ => ?_) fun _ => synthUnmuted_e E h1 hp _
  exact Rel.same fun r => Rel.pure ⟨rfl, h1, hp, rfl⟩

/-- Parameter sets that agree but for the error figures, on which smoothing and muting agree. -/
def EE (p q : Parms F) : Prop := ∃ τ : Tok F, RE τ p q ∧ τ.Agree

theorem EE.refl (p : Parms F) : EE p p :=
  ⟨⟨p.errorRate, p.errorCountTotal, p.errorCount4, p.errorRate, p.errorCountTotal, p.errorCount4, p.mutingThreshold⟩,
    ⟨rfl, rfl, rfl, rfl, rfl⟩, ⟨fun _ => rfl, fun _ => rfl, rfl⟩⟩

/-- States between two calls. -/
structure ESt (s s' : St F) : Prop where
  cur : ∃ τ : Tok F, RE τ s.cur s'.cur
  prev : EE s.prev s'.prev
  enh : EE s.enh s'.enh
  tls : s'.tls = s.tls

theorem ESt.refl (s : St F) : ESt s s := ⟨let ⟨τ, h, _⟩ := EE.refl s.cur; ⟨τ, h⟩, .refl _, .refl _, rfl⟩

theorem ESt.sound {s s' : St F} (h : ESt s s') : SoundEqSt s s' := by
  obtain ⟨⟨τ, h1⟩, ⟨_, h2, _⟩, ⟨_, h3, _⟩, h4⟩ := h
  exact ⟨h1.sound, h2.sound, h3.sound, h4⟩

theorem speak_e (E : Env F) (C : Call F) {s s' : St F} (hc : EE s.cur s'.cur) (he : EE s.enh s'.enh) (ht : s'.tls = s.tls) :
    Rel (speak E C s) (speak E C s') fun r r' => r'.1 = r.1 ∧ ESt r.2 r'.2 := by
  obtain ⟨τ, h1, hτ⟩ := hc
  obtain ⟨σ, h2, hσ⟩ := he
  unfold speak
  rw [ht]
  refine (spectralAmpEnhance_e C.pc h1 s.tls).bind ?_
  rintro ⟨c, t⟩ ⟨c', t'⟩ ⟨h3, h4⟩
  dsimp only at h3 h4 ⊢
  subst h4
  exact (synthesizeSpeechf_e E C.pc C.buf h3 h2 hτ _ C.uvquality).bind fun r r' hr =>
    Rel.pure ⟨hr.out, ⟨τ, hr.cur⟩, ⟨τ, h1, hτ⟩, ⟨τ, hr.cur, hτ⟩, hr.tls⟩

theorem replayEnhanced_e (E : Env F) (C : Call F) {s s' : St F} (h : ESt s s') :
    Rel (replayEnhanced E C s) (replayEnhanced E C s') fun r r' => r'.1 = r.1 ∧ ESt r.2 r'.2 := by
  obtain ⟨σ, h2, hσ⟩ := h.enh
  unfold replayEnhanced
  rw [h.tls]
  exact (synthesizeSpeechf_e E C.ps C.buf h2 h2 hσ s.tls C.uvquality).bind fun r r' hr =>
    Rel.pure ⟨hr.out, h.cur, h.prev, ⟨σ, hr.cur, hσ⟩, hr.tls⟩

theorem repeatLast_e {τ : Tok F} {p q : Parms F} (h : RE τ p q) : Rel (repeatLast p) (repeatLast q) (RE τ) := by
  obtain ⟨c1, c2, c3, c4, rfl⟩ := h
  unfold repeatLast Tok.put
  dsimp only
  exact Rel.same fun _ => Rel.same fun _ => Rel.pure ⟨c1, c2, c3, c4, rfl⟩

theorem setAmbeErasureParms_e {τ σ : Tok F} {c c' p p' : Parms F} (h : RE τ c c') (hp : RE σ p p') :
    Rel (setAmbeErasureParms c p) (setAmbeErasureParms c' p') (RE τ) := by
  obtain ⟨c1, c2, c3, c4, rfl⟩ := h
  obtain ⟨d1, d2, d3, d4, rfl⟩ := hp
  unfold setAmbeErasureParms Tok.put
  dsimp only
  refine Rel.bind (P := RE τ) (loop_rel (P := RE τ) ⟨c1, c2, c3, c4, rfl⟩ fun i s t hst => ?_) fun s t hst => ?_
  · obtain ⟨c1, c2, c3, c4, rfl⟩ := hst
    unfold Tok.put
    dsimp only
    exact Rel.same fun _ => Rel.same fun _ => Rel.same fun _ => Rel.same fun _ => Rel.same fun _ => Rel.same fun _ => Rel.same fun _ =>
      Rel.pure ⟨c1, c2, c3, c4, rfl⟩
  · obtain ⟨c1, c2, c3, c4, rfl⟩ := hst
    exact Rel.pure ⟨c1, c2, c3, c4, rfl⟩

end Verif.Model
