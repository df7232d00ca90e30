import Verif.Lemmas.Builds

/-!
# Two builds side by side: state changes and synthesis
-/

set_option linter.unusedSectionVars false

namespace Verif.Model
open Verif Verif.Gen Verif.Spec Arith
variable {F : Type} [Arith F]

theorem paramEq_upd2 {c d c' d' : Parms F} (h : ParamEq c d) (hc : c' = { c with Ml := c'.Ml, Vl := c'.Vl }) (hd : d' = { d with Ml := d'.Ml, Vl := d'.Vl }) :
    ParamEq c' d' := by
  obtain ⟨x, rfl, h0⟩ := h.cases
  rw [hc, hd]
  exact ⟨rfl, h0⟩

theorem threadEq_upd {t u t' u' : Tls F} (h : ThreadEq t u)
    (ht : t' = { t with preEnhRm0 := t'.preEnhRm0, preEnhValid := t'.preEnhValid, preEnhOwner := t'.preEnhOwner, plan := t'.plan })
    (hu : u' = { u with preEnhRm0 := u'.preEnhRm0, preEnhValid := u'.preEnhValid, preEnhOwner := u'.preEnhOwner, plan := u'.plan }) : ThreadEq t' u' := by
  unfold ThreadEq at h
  rw [ht, hu, h]
  rfl

theorem comfortNoisef_b (out : Arr 160 F) {t u : Tls F} (h : ThreadEq t u) : Both (comfortNoisef out t) (comfortNoisef out u) fun r r' =>
    r'.1 = r.1 ∧ ThreadEq r.2 r'.2 := by
  unfold comfortNoisef
  refine loop_both (fun _ (s s' : Arr 160 F × Tls F) => s'.1 = s.1 ∧ ThreadEq s.2 s'.2) ⟨rfl, h⟩ fun i _ s s' hs => ?_
  obtain ⟨a, t⟩ := s
  obtain ⟨a', u⟩ := s'
  obtain ⟨e, h⟩ := hs
  dsimp only at e h ⊢
  cases e
  have e : (javaNext24 u).1 = (javaNext24 t).1 := by
    unfold ThreadEq at h
    rw [h]; rfl
  rw [e]
  refine Both.same fun a => Both.pure ⟨rfl, ?_⟩
  unfold ThreadEq at h
  rw [h]; rfl

theorem noiseOverlap_b (buf : Arr 256 F) (seed : F) (ov : Arr 96 F) {t u : Tls F} (h : ThreadEq t u) :
    Both (noiseOverlap buf seed ov t) (noiseOverlap buf seed ov u) fun r r' => r'.buf = r.buf ∧ r'.seed = r.seed ∧ r'.overlap = r.overlap ∧ ThreadEq r.tls r'.tls := by
  unfold noiseOverlap
  have e1 : u.uvSeedOverride = t.uvSeedOverride := by
    unfold ThreadEq at h
    rw [h]
  have e2 : u.uvSeedState = t.uvSeedState := by
    unfold ThreadEq at h
    rw [h]
  rw [e1, e2]
  refine Both.ite (fun _ => Both.ite (fun _ => Both.pure ⟨rfl, rfl, rfl, ?_⟩) fun _ => Both.pure ⟨rfl, rfl, rfl, h⟩) fun _ => ?_
  · unfold ThreadEq at h ⊢
    rw [h]
  · exact Both.same fun _ => Both.same fun _ => Both.same fun _ => Both.same fun _ => Both.pure ⟨rfl, rfl, rfl, h⟩

theorem phaseUpdate_b (noise : Arr 256 F) (n n' : Int) (cw pw : F) {c d p q : Parms F} (hc : ParamEq c d) (hp : ParamEq p q) :
    Both (phaseUpdate noise n cw pw c p) (phaseUpdate noise n' cw pw d q) fun r r' => ParamEq r.1 r'.1 ∧ ParamEq r.2 r'.2 := by
  unfold phaseUpdate
  refine loopFT_both (fun _ (r r' : Parms F × Parms F) => ParamEq r.1 r'.1 ∧ ParamEq r.2 r'.2) (by omega) ⟨hc, hp⟩ fun l l1 l2 s t hst => ?_
  obtain ⟨c, p⟩ := s
  obtain ⟨d, q⟩ := t
  obtain ⟨hc, hp⟩ := hst
  obtain ⟨x, rfl, h0⟩ := hc.cases
  obtain ⟨y, rfl, h1⟩ := hp.cases
  have ne : (0 : Fin 57).val ≠ ((l : Int)).toNat := by show 0 ≠ _; omega
  unfold Snd.put
  dsimp only
  refine Both.same fun w => Both.same fun v => Both.same fun z => Both.ite (fun _ => Both.same fun _ => ?_) fun _ => Both.same fun _ => Both.same fun _ => ?_
  all_goals
    refine Both.bind _ (Both.posts Arr.wr_post Arr.wr_post) fun M M' hMM => Both.pure ⟨⟨rfl, ?_⟩, ⟨rfl, h1⟩⟩
    obtain ⟨⟨_, _, rfl⟩, ⟨_, _, rfl⟩⟩ := hMM
    dsimp only
    rw [Arr.set_ne ne, Arr.set_ne ne]
    exact h0

theorem synthUnmuted_b (isa : Isa) (E E' : Env F) {c d p q : Parms F} {t u : Tls F} (hc : ParamEq c d) (hp : ParamEq p q) (ht : ThreadEq t u) :
    Both (synthUnmuted E c p t) (synthUnmutedSimd isa E' d q u) fun r r' => ParamEq r.cur r'.cur ∧ ThreadEq r.tls r'.tls := by
  unfold synthUnmuted synthUnmutedSimd
  have e1 : d.noiseSeed = c.noiseSeed := by rw [hc.rest]
  have e2 : d.noiseOverlap = c.noiseOverlap := by rw [hc.rest]
  rw [e1, e2]
  refine Both.bind _ (noiseOverlap_b _ _ _ ht) fun nr nr' hnr => ?_
  obtain ⟨nb, ns, no, nt⟩ := nr
  obtain ⟨nb', ns', no', nt'⟩ := nr'
  obtain ⟨k1, k2, k3, ht⟩ := hnr
  dsimp only at k1 k2 k3 ht
  cases k1
  cases k2
  cases k3
  have hc : ParamEq { c with noiseSeed := ns, noiseOverlap := no } { d with noiseSeed := ns, noiseOverlap := no } := by
    obtain ⟨x, rfl, h0⟩ := hc.cases
    exact ⟨rfl, h0⟩
  revert hc
  dsimp only
  have w0 : d.w0 = c.w0 := by rw [hc.rest]
  have wp : q.w0 = p.w0 := by rw [hp.rest]
  have L0 : d.L = c.L := by rw [hc.rest]
  have Lp : q.L = p.L := by rw [hp.rest]
  rw [w0, wp, L0, Lp]
  intro hc
  refine Both.skip fun n n' => ?_
  refine Both.bind (fun (r r' : Parms F × Parms F × Int) => ParamEq r.1 r'.1 ∧ ParamEq r.2.1 r'.2.1)
    (Both.ite (fun _ => ?_) fun _ => ?_) fun r r' hr => ?_
  · exact Both.bind _ (Both.posts (extendBands_frame _ _ _) (extendBands_frame _ _ _)) fun a b hab => Both.pure ⟨hc, paramEq_upd2 hp hab.1 hab.2⟩
  · exact Both.bind _ (Both.posts (extendBands_frame _ _ _) (extendBands_frame _ _ _)) fun a b hab => Both.pure ⟨paramEq_upd2 hc hab.1 hab.2, hp⟩
  obtain ⟨c, p, m⟩ := r
  obtain ⟨d, q, m'⟩ := r'
  obtain ⟨hc, hp⟩ := hr
  dsimp only at hc hp ⊢
  refine Both.bind _ (phaseUpdate_b _ _ _ _ _ hc hp) fun r r' hr => ?_
  obtain ⟨c, p⟩ := r
  obtain ⟨d, q⟩ := r'
  obtain ⟨hc, hp⟩ := hr
  dsimp only at hc hp ⊢
  refine Both.skip fun o o' => Both.bind _ (Both.posts (getPlan_frame _ _) (getPlan_frame _ _)) fun r r' hr => ?_
  obtain ⟨P, t⟩ := r
  obtain ⟨P', u⟩ := r'
  obtain ⟨k1, k2⟩ := hr
  dsimp only at k1 k2 ⊢
  have ht : ThreadEq t u := by
    unfold ThreadEq at ht ⊢
    rw [k1, k2, ht]
  obtain ⟨x, rfl, h0⟩ := hc.cases
  cases P <;> cases P' <;> dsimp only
  · exact Both.skip fun _ _ => Both.pure ⟨⟨rfl, h0⟩, ht⟩
  · rintro a b ha hb
    obtain ⟨_, _, ha⟩ := bind_ok ha
    obtain ⟨_, _, hb⟩ := bind_ok hb
    obtain ⟨_, _, hb⟩ := bind_ok hb
    rw [← ok_inj ha, ← ok_inj hb]
    exact ⟨⟨rfl, h0⟩, ht⟩
  · rintro a b ha hb
    obtain ⟨_, _, ha⟩ := bind_ok ha
    obtain ⟨_, _, ha⟩ := bind_ok ha
    obtain ⟨_, _, hb⟩ := bind_ok hb
    rw [← ok_inj ha, ← ok_inj hb]
    exact ⟨⟨rfl, h0⟩, ht⟩
  · exact Both.skip fun _ _ => Both.skip fun _ _ => Both.pure ⟨⟨rfl, h0⟩, ht⟩

theorem synthMuted_b {c d : Parms F} (h : ParamEq c d) : synthMuted d = synthMuted c := by
  rw [h.rest]
  rfl

theorem applySmoothing_b (a : Nat) {c d p q : Parms F} {t u : Tls F} (hc : ParamEq c d) (hp : ParamEq p q) (ht : ThreadEq t u) :
    Both (applySmoothing a c p t) (applySmoothing a d q u) fun r r' => ParamEq r.1 r'.1 ∧ ThreadEq r.2 r'.2 ∧ synthMuted r.1 = synthMuted c := by
  have ep : q.amplitudeThreshold = p.amplitudeThreshold := by rw [hp.rest]
  obtain ⟨x, rfl, h0⟩ := hc.cases
  unfold applySmoothing
  rw [ep]
  refine Both.bind _ (Both.posts (smoothRm0_frame a c t) (smoothRm0_frame a _ u)) fun r r' hr => ?_
  obtain ⟨m, t'⟩ := r
  obtain ⟨m', u'⟩ := r'
  obtain ⟨k2, k4⟩ := hr
  dsimp only at k2 k4
  have ht' : ThreadEq t' u' := by
    unfold ThreadEq at ht ⊢
    rw [k2, k4, ht]
  unfold Snd.put
  dsimp only
  exact Both.skip fun _ _ => Both.skip fun _ _ => Both.same fun _ => Both.skip fun _ _ => Both.pure ⟨⟨rfl, h0⟩, ht', rfl⟩

theorem synthesizeSpeechf_b (isa : Isa) (E E' : Env F) (a : Nat) (out : Arr 160 F) (uvq : Int) {c d p q : Parms F} {t u : Tls F}
    (hc : ParamEq c d) (hp : ParamEq p q) (ht : ThreadEq t u) :
    Both (synthesizeSpeechf E a out c p t uvq) (synthesizeSpeechfSimd isa E' a out d q u uvq) fun r r' =>
      ParamEq r.cur r'.cur ∧ ThreadEq r.tls r'.tls ∧ (synthMuted c = true → r'.out = r.out) := by
  unfold synthesizeSpeechf synthesizeSpeechfSimd
  refine Both.bind _ (applySmoothing_b a hc hp ht) fun r r' hr => ?_
  obtain ⟨c', t'⟩ := r
  obtain ⟨d', u'⟩ := r'
  obtain ⟨hc', ht', hm⟩ := hr
  dsimp only at hc' ht' hm ⊢
  rw [← hm, synthMuted_b hc']
  refine Both.ite (fun _ => ?_) fun k => ?_
  · exact Both.bind _ (comfortNoisef_b out ht') fun r r' hr => Both.pure ⟨hc', hr.2, fun _ => hr.1⟩
  · exact fun r r' hr hr' => ⟨(synthUnmuted_b isa E E' hc' hp ht' r r' hr hr').1, (synthUnmuted_b isa E E' hc' hp ht' r r' hr hr').2, fun h => absurd h k⟩

theorem speak_b (isa : Isa) (E E' : Env F) (C : Call F) {s s' : St F} (hc : DecodedEq s.cur s'.cur) (he : ParamEq s.enh s'.enh)
    (ht : ThreadEq s.tls s'.tls) : Both (speak E C s) (speakSimd isa E' C s') fun o o' =>
      StateEq o.2 o'.2 ∧ o.2.prev = s.cur ∧ (synthMuted s.cur = true → o'.1 = o.1) := by
  unfold speak speakSimd
  refine Both.bind _ (Both.posts (spectralAmpEnhance_frame _ _ _) (spectralAmpEnhanceSimd_frame _ _ _ _)) fun r r' hr => ?_
  obtain ⟨c', t'⟩ := r
  obtain ⟨d', u'⟩ := r'
  obtain ⟨⟨k1, k2⟩, ⟨k3, k4⟩⟩ := hr
  dsimp only at k1 k2 k3 k4 ⊢
  have hc' : ParamEq c' d' := by
    obtain ⟨x, e, h0⟩ := hc.toParamEq.cases
    rw [k1, k3, e]
    exact ⟨rfl, h0⟩
  have ht' : ThreadEq t' u' := by
    unfold ThreadEq at ht ⊢
    rw [k2, k4, ht]
  have hm : synthMuted s.cur = synthMuted c' := by rw [k1]; rfl
  rw [hm]
  exact Both.bind _ (synthesizeSpeechf_b isa E E' _ _ _ hc' he ht') fun r r' hr => Both.pure ⟨⟨hr.1, hc, hr.1, hr.2.1⟩, rfl, hr.2.2⟩

theorem imbeResetHeadroomDefaults_b {c d : Parms F} (h : ParamEq c d) : Both (imbeResetHeadroomDefaults c) (imbeResetHeadroomDefaults d) DecodedEq := by
  obtain ⟨x, rfl, h0⟩ := h.cases
  unfold imbeResetHeadroomDefaults Snd.put
  dsimp only
  refine Both.same fun L => Both.bind _ (loop_both (fun i (s t : Parms F) => ParamEq s t ∧ ∀ l : Fin 57, l.val < i → t.Ml l = s.Ml l ∧ t.Vl l = s.Vl l)
    ⟨⟨rfl, h0⟩, fun l k => by omega⟩ fun i _ s t hst => ?_) fun s t hst => Both.pure ?_
  · obtain ⟨hs, hM⟩ := hst
    obtain ⟨y, rfl, h1⟩ := hs.cases
    unfold Snd.put at hM ⊢
    dsimp only at hM ⊢
    refine Both.bind _ (Both.posts Arr.wr_post Arr.wr_post) fun V V' hV => Both.bind _ (Both.posts Arr.wr_post Arr.wr_post) fun M M' hMM => ?_
    refine Both.same fun lg => Both.pure ⟨⟨rfl, h1⟩, fun l k => ?_⟩
    obtain ⟨⟨_, _, rfl⟩, ⟨_, _, rfl⟩⟩ := hV
    obtain ⟨⟨_, _, rfl⟩, ⟨_, _, rfl⟩⟩ := hMM
    exact ⟨set_eq fun e => (hM l (by omega)).1, set_eq fun e => (hM l (by omega)).2⟩
  · obtain ⟨hs, hM⟩ := hst
    obtain ⟨y, rfl, h1⟩ := hs.cases
    exact ⟨⟨rfl, h1⟩, fun l _ _ => hM l l.isLt⟩

theorem setAmbeErasureParms_b {c d p q : Parms F} (h : ParamEq c d) (hp : ParamEq p q) : Both (setAmbeErasureParms c p) (setAmbeErasureParms d q) DecodedEq := by
  obtain ⟨x, rfl, h0⟩ := h.cases
  obtain ⟨z, rfl, h2⟩ := hp.cases
  unfold setAmbeErasureParms Snd.put
  dsimp only
  refine Both.bind _ (loop_both (fun i (s t : Parms F) => ParamEq s t ∧ ∀ l : Fin 57, l.val < i → t.Ml l = s.Ml l ∧ t.Vl l = s.Vl l)
    ⟨⟨rfl, h0⟩, fun l k => by omega⟩ fun i _ s t hst => ?_) fun s t hst => Both.pure ?_
  · obtain ⟨hs, hM⟩ := hst
    obtain ⟨y, rfl, h1⟩ := hs.cases
    unfold Snd.put at hM ⊢
    dsimp only at hM ⊢
    refine Both.bind _ (Both.posts Arr.wr_post Arr.wr_post) fun V V' hV => Both.bind _ (Both.posts Arr.wr_post Arr.wr_post) fun M M' hMM => ?_
    refine Both.same fun lg => Both.bind _ (Both.posts Arr.rd_post Arr.rd_post) fun v v' hv =>
      Both.bind _ (Both.posts Arr.wr_post Arr.wr_post) fun P P' hP => ?_
    refine Both.same fun _ => Both.same fun _ => Both.pure ⟨⟨rfl, ?_⟩, fun l k => ?_⟩
    · obtain ⟨⟨_, _, rfl⟩, ⟨_, _, rfl⟩⟩ := hP
      obtain ⟨⟨_, rfl⟩, ⟨_, rfl⟩⟩ := hv
      dsimp only
      by_cases e : (0 : Fin 57).val = ((i : Int)).toNat
      · rw [Arr.set_same e, Arr.set_same e]
        have e' : (⟨((i : Int)).toNat, by omega⟩ : Fin 57) = 0 := Fin.ext e.symm
        rw [e']
        exact h2
      · rw [Arr.set_ne e, Arr.set_ne e]
        exact h1
    · obtain ⟨⟨_, _, rfl⟩, ⟨_, _, rfl⟩⟩ := hV
      obtain ⟨⟨_, _, rfl⟩, ⟨_, _, rfl⟩⟩ := hMM
      exact ⟨set_eq fun e => (hM l (by omega)).1, set_eq fun e => (hM l (by omega)).2⟩
  · obtain ⟨hs, hM⟩ := hst
    obtain ⟨y, rfl, h1⟩ := hs.cases
    exact ⟨⟨rfl, h1⟩, fun l _ _ => hM l l.isLt⟩

theorem repeatLast_b {p q : Parms F} (h : DecodedEq p q) : Both (repeatLast p) (repeatLast q) DecodedEq := by
  have hb := h.band
  obtain ⟨x, rfl, h0⟩ := h.toParamEq.cases
  unfold repeatLast
  exact Both.same fun _ => Both.same fun _ => Both.pure ⟨⟨rfl, h0⟩, hb⟩

theorem decodedEq_cnt {p q : Parms F} (h : DecodedEq p q) : DecodedEq { p with repeat_ := 0, repeatCount := 0 } { q with repeat_ := 0, repeatCount := 0 } := by
  have hb := h.band
  obtain ⟨x, rfl, h0⟩ := h.toParamEq.cases
  exact ⟨⟨rfl, h0⟩, hb⟩

theorem paramEq_cnt {p q : Parms F} (h : ParamEq p q) : ParamEq { p with repeat_ := 0, repeatCount := 0 } { q with repeat_ := 0, repeatCount := 0 } := by
  obtain ⟨x, rfl, h0⟩ := h.cases
  exact ⟨rfl, h0⟩

theorem imbeRepeat_b (rep : Bool) {c d p q : Parms F} (hc : ParamEq c d) (hg : rep = false → DecodedEq c d) (hp : DecodedEq p q) :
    Both (imbeRepeat rep c p) (imbeRepeat rep d q) DecodedEq := by
  have e : q.repeatCount = p.repeatCount := by rw [hp.rest]
  unfold imbeRepeat
  rw [e]
  refine Both.ite (fun _ => Both.ite (fun _ => imbeResetHeadroomDefaults_b hc) fun _ => repeatLast_b hp) fun k => Both.pure (decodedEq_cnt (hg ?_))
  simpa using k

theorem imbePrepare_b (c0 : Option Int) (e : Int) {s s' : St F} (h : StateEq s s') : StateEq (imbePrepare c0 e s) (imbePrepare c0 e s') := by
  obtain ⟨hc, hp, he, ht⟩ := h
  have er : s'.prev.errorRate = s.prev.errorRate := by rw [hp.rest]
  unfold imbePrepare
  refine ⟨?_, hp, he, ht⟩
  obtain ⟨x, e, h0⟩ := hc.cases
  dsimp only
  rw [e, er]
  by_cases k : c0.isNone = true
  · rw [if_pos k, if_pos k]
    exact ⟨rfl, h0⟩
  · rw [if_neg k, if_neg k]
    exact ⟨rfl, h0⟩

theorem ambePrepare_b (e : Int) {s s' : St F} (h : StateEq s s') : Both (ambePrepare e s) (ambePrepare e s') StateEq := by
  unfold ambePrepare
  refine Both.bind StateEq ?_ fun s s' h => ?_
  · have em : s'.prev.mutingThreshold = s.prev.mutingThreshold := by rw [h.prev.rest]
    unfold ensureAmbeDefaults
    rw [em, initAmbeState_eq, initAmbeState_eq]
    exact Both.ite (fun _ => Both.pure ⟨.refl _, .refl _, .refl _, h.tls⟩) fun _ => Both.pure h
  · obtain ⟨hc, hp, he, ht⟩ := h
    have er : s'.prev.errorRate = s.prev.errorRate := by rw [hp.rest]
    refine Both.pure ⟨?_, hp, he, ht⟩
    obtain ⟨x, e, h0⟩ := hc.cases
    dsimp only
    rw [e, er]
    exact ⟨rfl, h0⟩

theorem noiseAndReset_b (C : Call F) {s s' : St F} (h : ThreadEq s.tls s'.tls) : Both (noiseAndReset C s) (noiseAndReset C s') fun o o' =>
    o'.1 = o.1 ∧ StateEq o.2 o'.2 := by
  unfold noiseAndReset
  refine Both.bind _ (comfortNoisef_b C.buf h) fun r r' hr => ?_
  rw [initAmbeState_eq, initAmbeState_eq]
  exact Both.pure ⟨hr.1, .refl _, .refl _, .refl _, hr.2⟩

theorem renderTonef_b (out : Arr 160 F) (f1 f2 : F) (a : Int) {c d : Parms F} (h : ParamEq c d) :
    Both (renderTonef out c f1 f2 a) (renderTonef out d f1 f2 a) fun r r' => r'.1 = r.1 ∧ ParamEq r.2 r'.2 := by
  obtain ⟨x, rfl, h0⟩ := h.cases
  unfold renderTonef
  refine Both.ite (fun _ => Both.pure ⟨rfl, rfl, h0⟩) fun _ => ?_
  unfold Snd.put
  dsimp only
  exact Both.same fun _ => Both.same fun _ => Both.same fun _ => Both.pure ⟨rfl, rfl, h0⟩

end Verif.Model
