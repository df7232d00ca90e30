import Verif.Lemmas.SimdSpeak
import Verif.Lemmas.FinApi
import Verif.Props.Simd

/-!
# Finite samples of the vector build: calls and programs

The proofs are those of `FinHist` and `FinApi`, for the functions of the vector build.
-/

namespace Verif.Model
open Verif Verif.Gen Verif.Spec Verif.Num Arith

section
variable {F : Type} [Arith F] {isa : Isa}

/-- The parts of a returned IMBE call. -/
structure ImbePartsV (isa : Isa) (E : Env F) (C : Call F) (c0 : Option Int) (errs2 : Int) (d : Nat → Int) (s : St F) (o : Out F)
    (r : DecodeRes F) (cur : Parms F) (sp : Arr 160 F × St F) : Prop where
  decode : decodeImbe4400 E.lax d (imbePrepare c0 errs2 s).cur s.prev s.tls = .ok r
  repeated : imbeRepeat (imbeRepeatRequired r.bad c0 errs2 r.cur.errorRate) r.cur r.prev = .ok cur
  spoken : speakSimd isa E C ⟨cur, r.prev, s.enh, r.tls⟩ = .ok sp
  pcm : o.pcm = sp.1
  st : o.st = sp.2

theorem processImbe4400Simd_parts {E : Env F} {C : Call F} {c0 : Option Int} {errs2 : Int} {d : Nat → Int} {s : St F}
    {o : Out F} (h : processImbe4400Simd isa E C c0 errs2 d s = .ok o) : ∃ r cur sp, ImbePartsV isa E C c0 errs2 d s o r cur sp := by
  unfold processImbe4400Simd at h
  obtain ⟨str1, h1, h⟩ := bind_ok h
  obtain ⟨r, h2, h⟩ := bind_ok h
  obtain ⟨cur, h3, h⟩ := bind_ok h
  obtain ⟨str2, h4, h⟩ := bind_ok h
  obtain ⟨sp, h5, h⟩ := bind_ok h
  obtain ⟨str3, h6, h⟩ := bind_ok h
  obtain ⟨str4, h7, h⟩ := bind_ok h
  cases h
  exact ⟨r, cur, sp, h2, h3, h5, rfl, rfl⟩

/-- The parts of a returned AMBE 2450 call. -/
structure Ambe2450PartsV (isa : Isa) (E : Env F) (C : Call F) (c0 : Option Int) (errs2 : Int) (d : Nat → Int) (s : St F) (o : Out F)
    (s1 : St F) (r : DecodeRes F) (v : Parms F × Option Char) (p : Arr 160 F × Option Char × St F) : Prop where
  prepare : ambePrepare errs2 s = .ok s1
  decode : decodeAmbe2450 E.lax d errs2 s1.cur s1.prev s1.tls = .ok r
  verdict : ambe2450Verdict r.bad c0 errs2 r.cur r.prev = .ok v
  render : ambe2450RenderSimd isa E C r.bad d ⟨v.1, r.prev, s1.enh, r.tls⟩ = .ok p
  pcm : o.pcm = p.1
  st : o.st = p.2.2

theorem processAmbe2450Simd_parts {E : Env F} {C : Call F} {c0 : Option Int} {errs2 : Int} {d : Nat → Int} {s : St F}
    {o : Out F} (h : processAmbe2450Simd isa E C c0 errs2 d s = .ok o) :
    ∃ s1 r v p, Ambe2450PartsV isa E C c0 errs2 d s o s1 r v p := by
  unfold processAmbe2450Simd at h
  obtain ⟨s1, h0, h⟩ := bind_ok h
  obtain ⟨str1, h1, h⟩ := bind_ok h
  obtain ⟨r, h2, h⟩ := bind_ok h
  obtain ⟨v, h3, h⟩ := bind_ok h
  obtain ⟨str2, h4, h⟩ := bind_ok h
  obtain ⟨p, h5, h⟩ := bind_ok h
  obtain ⟨str3, h6, h⟩ := bind_ok h
  obtain ⟨str4, h7, h⟩ := bind_ok h
  cases h
  exact ⟨s1, r, v, p, h0, h2, h3, h5, rfl, rfl⟩

/-- The parts of a returned AMBE 2400 call. -/
structure Ambe2400PartsV (isa : Isa) (E : Env F) (C : Call F) (errs errs2 : Int) (d : Nat → Int) (s : St F) (o : Out F)
    (s1 : St F) (r : DecodeRes F) (v : Verdict2400 F) (p : Arr 160 F × Option Char × St F) : Prop where
  prepare : ambePrepare errs2 s = .ok s1
  decode : decodeAmbe2400 E.lax d s1.cur s1.prev s1.tls = .ok r
  verdict : ambe2400Verdict C r.bad errs errs2 d r.cur r.prev = .ok v
  render : ambe2400RenderSimd isa E { C with buf := v.buf } r.bad ⟨v.cur, v.prev, s1.enh, r.tls⟩ = .ok p
  pcm : o.pcm = p.1
  st : o.st = p.2.2

theorem processAmbe2400Simd_parts {E : Env F} {C : Call F} {errs errs2 : Int} {d : Nat → Int} {s : St F}
    {o : Out F} (h : processAmbe2400Simd isa E C errs errs2 d s = .ok o) :
    ∃ s1 r v p, Ambe2400PartsV isa E C errs errs2 d s o s1 r v p := by
  unfold processAmbe2400Simd at h
  obtain ⟨s1, h0, h⟩ := bind_ok h
  obtain ⟨str1, h1, h⟩ := bind_ok h
  obtain ⟨r, h2, h⟩ := bind_ok h
  obtain ⟨v, h3, h⟩ := bind_ok h
  obtain ⟨str2, h4, h⟩ := bind_ok h
  obtain ⟨p, h5, h⟩ := bind_ok h
  obtain ⟨str3, h6, h⟩ := bind_ok h
  obtain ⟨str4, h7, h⟩ := bind_ok h
  cases h
  exact ⟨s1, r, v, p, h0, h2, h3, h5, rfl, rfl⟩

end

variable {m : Libm} {isa : Isa}

theorem DecodeFrame.vec {cur prev : Parms (IEEE m)} {t : Tls (IEEE m)} {r : DecodeRes (IEEE m)} (h : DecodeFrame cur prev t r)
    (hk : KeepAmps prev r.prev) (hc : VecSet isa cur) (hp : VecSet isa prev) (hs : VSpk prev) (ht : PlanOk t) :
    ((∃ q : ℚ, Val r.cur.w0 q ∧ (q = 0 ∨ 1 / 64 ≤ q) ∧ q ≤ 5 / 8) → VecSet isa r.cur) ∧ VecSet isa r.prev ∧ VSpk r.prev ∧ PlanOk r.tls ∧ r.cur.errorCountTotal ≤ 20 := by
  have e : r.cur.errorCountTotal ≤ 20 := by rw [h.cur_eq]; exact hc.et
  have eL : r.prev.L = prev.L := by rw [h.prev_eq]
  refine ⟨fun hw => ⟨hw, ?_, ?_, ?_, e⟩, ?_, ?_, ht.of_eq (by rw [h.tls_eq]), e⟩
  · rw [h.cur_eq]; exact hc.ph
  · rw [h.cur_eq]; exact hc.blk
  · rw [h.cur_eq]; exact hc.ov
  · rw [h.prev_eq]; exact hp.congr rfl rfl rfl rfl rfl hp.et
  · rcases hs with hs | ⟨h0, h9, h1⟩
    · left; rw [eL, show r.prev.w0 = prev.w0 by rw [h.prev_eq]]; exact hs
    · right
      refine ⟨by rw [show r.prev.w0 = prev.w0 by rw [h.prev_eq]]; exact h0, eL.trans h9, fun l l1 l2 => ?_⟩
      rw [eL] at l2
      rw [(hk l l1 l2).1, show r.prev.Vl = prev.Vl by rw [h.prev_eq]]
      exact h1 l l1 l2

theorem VecSet.imbe : VecSet isa (imbeInit 39 : Parms (IEEE m)) where
  wo := imbeDefault_pitch.ord
  ph := fun _ _ => ⟨⟨0, ⟨false, rfl⟩, by rw [abs_zero]; positivity⟩, ⟨0, ⟨false, rfl⟩, by rw [abs_zero]; positivity⟩⟩
  blk := .inl fun _ => ⟨false, rfl⟩
  ov := fun _ => by first | exact zero_mag _ | exact Mag.fi0 _
  et := by show (0 : Int) ≤ 20; decide

theorem VecSet.ambe : VecSet isa (ambeInit : Parms (IEEE m)) where
  wo := ambeInit_pitch.ord
  ph := fun _ _ => ⟨⟨0, ⟨false, rfl⟩, by rw [abs_zero]; positivity⟩, ⟨0, ⟨false, rfl⟩, by rw [abs_zero]; positivity⟩⟩
  blk := .inl fun _ => ⟨false, rfl⟩
  ov := fun _ => by first | exact zero_mag _ | exact Mag.fi0 _
  et := by show (0 : Int) ≤ 20; decide

theorem VecSt.imbe {t : Tls (IEEE m)} (h : PlanOk t) : VecSt isa ⟨imbeInit 39, imbeInit 39, imbeInit 39, t⟩ :=
  ⟨.imbe, .imbe, .imbe, enhOk_unit rfl, .inl imbeDefault_pitch, h⟩

theorem VecSt.ambe {t : Tls (IEEE m)} (h : PlanOk t) : VecSt isa ⟨ambeInit, ambeInit, ambeInit, t⟩ :=
  ⟨.ambe, .ambe, .ambe, enhOk_unit rfl, .inl ambeInit_pitch, h⟩

theorem noiseAndReset_vec (isa : Isa) (E : Env (IEEE m)) {C : Call (IEEE m)} {s : St (IEEE m)} (h : PlanOk s.tls) : Post (noiseAndReset C s) fun o => VoiceV isa E o.1 ∧ VecSt isa o.2 := by
  unfold noiseAndReset
  refine Post.bind (Post.both (comfort_vec isa E _ _) (comfortNoisef_frame _ _)) fun r hr => ?_
  rw [initAmbeState_eq, ok_bind]
  exact Post.pure ⟨hr.1, .ambe (h.of_eq (by show r.2.plan = _; rw [hr.2]))⟩

theorem imbe_vec (hm : TrigAcc m) (hcos : CosAcc m) (hsin : SinAcc m) {E : Env (IEEE m)} (hE : RunsV E) {C : Call (IEEE m)} {c0 : Option Int} {errs2 : Int} {d : Nat → Int}
    (hd : Bits 88 d) (h20 : errs2 ≤ 20) {s : St (IEEE m)} (hs : StOk s) (hf : VecSt isa s) :
    Post (processImbe4400Simd isa E C c0 errs2 d s) fun o => AmpsOk o.st.prev → VoiceV isa E o.pcm ∧ VecSt isa o.st := by
  intro o ho ha
  obtain ⟨r, cur, sp, P⟩ := processImbe4400Simd_parts ho
  have hc0 : VecSet isa (imbePrepare c0 errs2 s).cur := by
    rw [imbePrepare_cur]; exact hf.cur.congr rfl rfl rfl rfl rfl h20
  have hso : SetOk (imbePrepare c0 errs2 s).cur := by rw [imbePrepare_cur]; exact hs.cur.congr rfl rfl rfl rfl
  obtain ⟨hF, -, -⟩ := decodeImbe4400_frame _ _ _ _ _ r P.decode
  obtain ⟨f1, f2, f3, f4, f5⟩ := hF.vec (decodeImbe4400_keep _ _ _ _ _ r P.decode) hc0 hf.prev hf.spk hf.plan
  obtain ⟨o1, o2⟩ := (decodeImbe4400_u (U := fun _ => True) (.inr trivial) hd s.tls hso hs.prev).toPost r P.decode
  have hp := imbeDecode_pitch hd _ _ _ _ r P.decode
  have key : VecSet isa cur ∧ VSpk cur ∧ 9 ≤ cur.L ∧ cur.L ≤ 56 := by
    have hr := P.repeated
    unfold imbeRepeat at hr
    have hw : ∃ q : ℚ, Val r.cur.w0 q ∧ (q = 0 ∨ 1 / 64 ≤ q) ∧ q ≤ 5 / 8 := by
      rcases hp with ⟨_, e⟩ | ⟨_, e⟩
      · rw [e]; exact hc0.wo
      · exact e.ord
    by_cases c : imbeRepeatRequired r.bad c0 errs2 r.cur.errorRate = true
    · rw [if_pos c] at hr
      split at hr
      · rw [imbeReset_ieee] at hr
        cases hr
        exact ⟨⟨imbeDefault_pitch.ord, (f1 hw).ph, (f1 hw).blk, (f1 hw).ov, f5⟩, .inl imbeDefault_pitch,
          show (9 : Int) ≤ 39 by decide, show (39 : Int) ≤ 56 by decide⟩
      · have := repeatLast_inv hr
        subst this
        exact ⟨f2.congr rfl rfl rfl rfl rfl f2.et, f3, o2.lo, o2.hi⟩
    · rw [if_neg c] at hr
      cases hr
      refine ⟨(f1 hw).congr rfl rfl rfl rfl rfl f5, .inl ?_, o1.lo, o1.hi⟩
      rcases hp with ⟨e, _⟩ | ⟨_, e⟩
      · rw [e] at c
        exact absurd rfl c
      · exact e
  have hsp := speakSimd_frame isa E C ⟨cur, r.prev, s.enh, r.tls⟩ sp P.spoken
  rw [P.st, hsp.prev_eq] at ha
  have := speakSimd_vec (C := C) (s := ⟨cur, r.prev, s.enh, r.tls⟩) hm hcos hsin hE key.1 key.2.1 key.2.2 hf.enh hf.amps ⟨hs.enh.lo, hs.enh.hi⟩ f4 ha sp P.spoken
  rw [P.pcm, P.st]
  exact this

theorem ambePrepare_vec {errs2 : Int} (h20 : errs2 ≤ 20) {s : St (IEEE m)} (hf : VecSt isa s) : Post (ambePrepare errs2 s) (VecSt isa) := by
  unfold ambePrepare ensureAmbeDefaults
  have key : ∀ s0 : St (IEEE m), VecSt isa s0 → VecSt isa { s0 with cur := ambePreparedCur errs2 s0 } := fun s0 h =>
    ⟨h.cur.congr rfl rfl rfl rfl rfl h20, h.prev, h.enh, h.amps, h.spk, h.plan⟩
  split
  · rw [initAmbeState_eq, ok_bind]
    exact Post.pure (key _ (.ambe hf.plan))
  · rw [ok_bind]
    exact Post.pure (key _ hf)

theorem erasure_vec {c p : Parms (IEEE m)} (hp : VecSet isa p) (h : c.errorCountTotal ≤ 20) : VecSet isa (ambeErasure c p) ∧ EnhOk (ambeErasure c p) ∧
    VSpk (ambeErasure c p) := by
  have w0 : Val (ambeErasure c p).w0 0 := ⟨false, rfl⟩
  exact ⟨⟨⟨0, w0, .inl rfl, by norm_num⟩, hp.ph, hp.blk, hp.ov, h⟩, enhOk_unit rfl, .inr ⟨w0, rfl, fun _ _ _ => ⟨one_val, rfl⟩⟩⟩

theorem ambe2450_vec (hm : TrigAcc m) (hcos : CosAcc m) (hsin : SinAcc m) {E : Env (IEEE m)} (hE : RunsV E) {C : Call (IEEE m)} {c0 : Option Int} {errs2 : Int} {d : Nat → Int}
    (hd : Bits 49 d) (h20 : errs2 ≤ 20) {s : St (IEEE m)} (hs : StOk s) (hf : VecSt isa s) :
    Post (processAmbe2450Simd isa E C c0 errs2 d s) fun o => AmpsOk o.st.prev → MadeV isa E o.pcm ∧ VecSt isa o.st := by
  intro o ho ha
  obtain ⟨s1, r, v, p, P⟩ := processAmbe2450Simd_parts ho
  have hf1 := ambePrepare_vec h20 hf s1 P.prepare
  have hs1 : StOk s1 := by
    obtain ⟨x, e, h, _⟩ := ambePrepare_u errs2 hs
    rw [P.prepare] at e
    cases e
    exact h
  obtain ⟨hF, hb, hn⟩ := decodeAmbe2450_frame _ _ _ _ _ _ r P.decode
  obtain ⟨f1, f2, f3, f4, f5⟩ := hF.vec (decodeAmbe2450_keep _ _ _ _ _ _ r P.decode) hf1.cur hf1.prev hf1.spk hf1.plan
  obtain ⟨o1, o2⟩ := (decodeAmbe2450_u (U := fun _ => True) (.inr trivial) hd errs2 s1.tls hs1.cur hs1.prev).toPost r P.decode
  have hp := ambe2450_decode_pitch hd _ _ hs1.prev _ r P.decode
  have hw : ∃ q : ℚ, Val r.cur.w0 q ∧ (q = 0 ∨ 1 / 64 ≤ q) ∧ q ≤ 5 / 8 := by
    by_cases c : r.bad = 0
    · exact (hp c).ord
    · rw [(hn c).1]; exact hf1.cur.wo
  have hV := P.verdict
  have hR := P.render
  rw [P.pcm, P.st]
  rw [P.st] at ha
  unfold ambe2450Verdict at hV
  unfold ambe2450RenderSimd at hR
  rcases hb with hb | hb | hb
  · rw [if_neg (by omega), if_neg (by omega)] at hV
    rw [if_pos hb] at hR
    have key : VecSet isa v.1 ∧ VSpk v.1 ∧ 9 ≤ v.1.L ∧ v.1.L ≤ 56 := by
      split at hV
      · obtain ⟨q, e, hV⟩ := bind_ok hV
        cases hV
        have := repeatLast_inv e
        subst this
        exact ⟨f2.congr rfl rfl rfl rfl rfl f2.et, f3, o2.lo, o2.hi⟩
      · cases hV
        exact ⟨(f1 hw).congr rfl rfl rfl rfl rfl f5, .inl (hp hb), o1.lo, o1.hi⟩
    split at hR
    · obtain ⟨sp, e, hR⟩ := bind_ok hR
      cases hR
      have hsp := speakSimd_frame isa _ _ _ sp e
      dsimp only at ha ⊢
      rw [hsp.prev_eq] at ha
      exact VoiceV.made <| speakSimd_vec (s := ⟨v.1, r.prev, s1.enh, r.tls⟩) hm hcos hsin hE key.1 key.2.1 key.2.2 hf1.enh hf1.amps ⟨hs1.enh.lo, hs1.enh.hi⟩ f4 ha sp e
    · obtain ⟨q, e, hR⟩ := bind_ok hR
      cases hR
      exact VoiceV.made <| noiseAndReset_vec isa E (s := ⟨v.1, r.prev, s1.enh, r.tls⟩) f4 q e
  · rw [if_pos hb] at hV
    obtain ⟨q, e, hV⟩ := bind_ok hV
    cases hV
    rw [setAmbeErasureParms_eq] at e
    cases e
    rw [if_neg (by omega), if_neg (by omega), if_pos hb] at hR
    obtain ⟨q, e, hR⟩ := bind_ok hR
    cases hR
    obtain ⟨g1, g2, g3⟩ := erasure_vec (c := { r.cur with repeat_ := 0, repeatCount := 0 }) f2 f5
    refine ⟨.inl (comfort_vec isa E _ _ q e), g1, g1, g1, g2, g3, f4.of_eq ?_⟩
    show q.2.plan = _
    rw [comfortNoisef_frame _ _ q e]
  · rw [if_neg (by omega), if_pos (.inr hb)] at hV
    cases hV
    rw [if_neg (by omega), if_pos hb] at hR
    obtain ⟨b, e, hR⟩ := bind_ok hR
    have hc : VecSet isa { r.cur with repeat_ := 0, repeatCount := 0 } := (f1 hw).congr rfl rfl rfl rfl rfl f5
    split at hR
    · obtain ⟨q, e, hR⟩ := bind_ok hR
      cases hR
      refine ⟨.inr ⟨synthesizeTonef_fin hm hd q e, _, _, _, q, e, rfl⟩, ?_, f2, hf1.enh, hf1.amps, f3, f4⟩
      have := synthesizeTonef_frame _ _ _ q e
      show VecSet isa q.2
      rw [this]
      exact hc.congr rfl rfl rfl rfl rfl f5
    · split at hR
      · obtain ⟨q, e, hR⟩ := bind_ok hR
        cases hR
        exact VoiceV.made <| noiseAndReset_vec isa E (s := ⟨{ r.cur with repeat_ := 0, repeatCount := 0 }, r.prev, s1.enh, r.tls⟩) f4 q e
      · obtain ⟨q, e, hR⟩ := bind_ok hR
        cases hR
        unfold replayEnhancedSimd at e
        obtain ⟨z, e', e⟩ := bind_ok e
        cases e
        have hL := And.intro hs1.enh.lo hs1.enh.hi
        obtain ⟨z1, z2, z3, z4⟩ := synthesizeSimd_vec hm hcos hsin hE hf1.enh hf1.amps hL hf1.enh hf1.amps hL f4 z e'
        exact ⟨.inl z1, hc, f2, z2, z3, f3, z4⟩

theorem ambe2400_vec (hm : TrigAcc m) (hcos : CosAcc m) (hsin : SinAcc m) (he : Exp2Acc m) {E : Env (IEEE m)} (hE : RunsV E) {C : Call (IEEE m)} {errs errs2 : Int} {d : Nat → Int}
    (hd : Bits 49 d) (h20 : errs2 ≤ 20) {s : St (IEEE m)} (hs : StOk s) (hf : VecSt isa s) :
    Post (processAmbe2400Simd isa E C errs errs2 d s) fun o => AmpsOk o.st.prev → MadeV isa E o.pcm ∧ VecSt isa o.st := by
  intro o ho ha
  obtain ⟨s1, r, v, p, P⟩ := processAmbe2400Simd_parts ho
  have hf1 := ambePrepare_vec h20 hf s1 P.prepare
  have hs1 : StOk s1 := by
    obtain ⟨x, e, h, _⟩ := ambePrepare_u errs2 hs
    rw [P.prepare] at e
    cases e
    exact h
  obtain ⟨hF, hb, hn⟩ := decodeAmbe2400_frame _ _ _ _ _ r P.decode
  obtain ⟨f1, f2, f3, f4, f5⟩ := hF.vec (decodeAmbe2400_keep _ _ _ _ _ r P.decode) hf1.cur hf1.prev hf1.spk hf1.plan
  obtain ⟨o1, o2⟩ := (decodeAmbe2400_u he (U := fun _ => True) (.inr trivial) hd s1.tls hs1.cur hs1.prev).toPost r P.decode
  have hp := ambe2400_decode_pitch he hd _ hs1.prev _ r P.decode
  have hV := P.verdict
  have hR := P.render
  rw [P.pcm, P.st]
  rw [P.st] at ha
  unfold ambe2400RenderSimd at hR
  by_cases c : r.bad = 0
  · unfold ambe2400Verdict at hV
    rw [if_neg (by omega), if_neg (by omega), if_neg (by omega)] at hV
    rw [if_pos c] at hR
    have key : VecSet isa v.cur ∧ VSpk v.cur ∧ 9 ≤ v.cur.L ∧ v.cur.L ≤ 56 := by
      split at hV
      · obtain ⟨q, e, hV⟩ := bind_ok hV
        cases hV
        have := repeatLast_inv e
        subst this
        exact ⟨f2.congr rfl rfl rfl rfl rfl f2.et, f3, o2.lo, o2.hi⟩
      · cases hV
        exact ⟨(f1 (hp c).ord).congr rfl rfl rfl rfl rfl f5, .inl (hp c), o1.lo, o1.hi⟩
    split at hR
    · obtain ⟨sp, e, hR⟩ := bind_ok hR
      cases hR
      have hsp := speakSimd_frame isa _ _ _ sp e
      dsimp only at ha ⊢
      rw [hsp.prev_eq] at ha
      exact VoiceV.made <| speakSimd_vec (s := ⟨v.cur, v.prev, s1.enh, r.tls⟩) hm hcos hsin hE key.1 key.2.1 key.2.2 hf1.enh hf1.amps ⟨hs1.enh.lo, hs1.enh.hi⟩ f4 ha sp e
    · obtain ⟨q, e, hR⟩ := bind_ok hR
      cases hR
      exact VoiceV.made <| noiseAndReset_vec isa E (s := ⟨v.cur, v.prev, s1.enh, r.tls⟩) f4 q e
  · rw [if_neg c, if_neg (by omega)] at hR
    obtain ⟨q, e, hR⟩ := bind_ok hR
    cases hR
    exact VoiceV.made <| noiseAndReset_vec isa E (s := ⟨v.cur, v.prev, s1.enh, r.tls⟩) f4 q e

theorem VecSt.err4 {s : St (IEEE m)} (h : VecSt isa s) (n : Int) : VecSt isa { s with cur := { s.cur with errorCount4 := n } } :=
  ⟨h.cur.congr rfl rfl rfl rfl rfl h.cur.et, h.prev, h.enh, h.amps, h.spk, h.plan⟩

theorem apiSimd_stOk (he : Exp2Acc m) {E : Env (IEEE m)} {a : Api (IEEE m)} (hv : a.Valid) {s : St (IEEE m)} (hs : StOk s) (hp : PlanOk s.tls)
    {r : Option (Arr 160 (IEEE m) × List Char) × St (IEEE m)} (h : a.callSimd isa E s = .ok r) : StOk r.2 := by
  obtain ⟨op, h1, _, h3⟩ := Props.Api.toOpSimd hv
  have h3 := h3 isa E s
  rw [h, ok_bind] at h3
  exact ((opSimd_u (F := IEEE m) he (U := fun _ => True) isa (E := E) (.inr trivial) h1 hp hs (le_refl 20480) (.inr ⟨trivial, trivial⟩)).toPost _ h3.symm).1.1

theorem api_vec (hm : TrigAcc m) (hcos : CosAcc m) (hsin : SinAcc m) (he : Exp2Acc m) {E : Env (IEEE m)} (hE : RunsV E) {a : Api (IEEE m)} (hv : a.Valid) (h20 : a.ErrsLe 20)
    {s : St (IEEE m)} (hs : StOk s) (hf : VecSt isa s) :
    Post (a.callSimd isa E s) fun r => AmpsOk r.2.prev → (∀ p, r.1 = some p → MadeV isa E p.1) ∧ VecSt isa r.2 := by
  cases a with
  | imbe7200Frame C fr d =>
    obtain ⟨e, hr, h1, h2, h3, h4, h5⟩ := Props.C13_imbe7200_counts fr hv.1 d
    unfold Api.callSimd processImbe7200FramefSimd
    dsimp only
    rw [hr, ok_bind]
    intro r h ha
    obtain ⟨o, ho, h⟩ := bind_ok h
    obtain ⟨o', ho', ho⟩ := bind_ok ho
    cases ho
    cases h
    have := VoiceV.made <| imbe_vec hm hcos hsin hE h5 (by omega) (hs.err4 _) (hf.err4 _) o' ho' ha
    exact ⟨fun p hp => by cases hp; exact this.1, this.2⟩
  | imbe7100Frame C fr d =>
    obtain ⟨e, hr, h1, h2, h3, h4, h5⟩ := Props.C13_imbe7100_counts fr hv.1 d
    obtain ⟨out, ho, _⟩ := Props.C12_convert_moves_bits (m := m) e.d h5
    have h6 := (Props.C12_convert_fundamental e.d h5 out ho).2
    unfold Api.callSimd processImbe7100FramefSimd
    dsimp only
    rw [hr, ok_bind, ho, ok_bind]
    intro r h ha
    obtain ⟨o, ho, h⟩ := bind_ok h
    obtain ⟨o', ho', ho⟩ := bind_ok ho
    cases ho
    cases h
    have := VoiceV.made <| imbe_vec hm hcos hsin hE h6 (by omega) (hs.err4 _) (hf.err4 _) o' ho' ha
    exact ⟨fun p hp => by cases hp; exact this.1, this.2⟩
  | ambe2450Frame C fr d =>
    obtain ⟨e, hr, h1, h2, h3, h5⟩ := Props.C13_ambe_counts fr hv.1 d
    unfold Api.callSimd processAmbe2450FramefSimd
    dsimp only
    rw [hr, ok_bind]
    intro r h ha
    obtain ⟨o, ho, h⟩ := bind_ok h
    obtain ⟨o', ho', ho⟩ := bind_ok ho
    cases ho
    cases h
    have := ambe2450_vec hm hcos hsin hE h5 (by omega) hs hf o' ho' ha
    exact ⟨fun p hp => by cases hp; exact this.1, this.2⟩
  | ambe2400Frame C fr d =>
    obtain ⟨e, hr, h1, h2, h3, h5⟩ := Props.C13_ambe_counts fr hv.1 d
    unfold Api.callSimd processAmbe2400FramefSimd
    dsimp only
    rw [hr, ok_bind]
    intro r h ha
    obtain ⟨o, ho, h⟩ := bind_ok h
    obtain ⟨o', ho', ho⟩ := bind_ok ho
    cases ho
    cases h
    have := ambe2400_vec hm hcos hsin he hE h5 (by omega) hs hf o' ho' ha
    exact ⟨fun p hp => by cases hp; exact this.1, this.2⟩
  | imbeData C errs errs2 d =>
    intro r h ha
    obtain ⟨o, ho, h⟩ := bind_ok h
    cases h
    have := VoiceV.made <| imbe_vec hm hcos hsin hE hv.1 h20 hs hf o ho ha
    exact ⟨fun p hp => by cases hp; exact this.1, this.2⟩
  | ambe2450Data C errs errs2 d =>
    intro r h ha
    obtain ⟨o, ho, h⟩ := bind_ok h
    cases h
    have := ambe2450_vec hm hcos hsin hE hv.1 h20 hs hf o ho ha
    exact ⟨fun p hp => by cases hp; exact this.1, this.2⟩
  | ambe2400Data C errs errs2 d =>
    intro r h ha
    obtain ⟨o, ho, h⟩ := bind_ok h
    cases h
    have := ambe2400_vec hm hcos hsin he hE hv.1 h20 hs hf o ho ha
    exact ⟨fun p hp => by cases hp; exact this.1, this.2⟩
  | initMbe =>
    intro r h _
    obtain ⟨o, ho, h⟩ := bind_ok h
    rw [initMbeState_ieee] at ho
    cases ho
    cases h
    exact ⟨nofun, .imbe hf.plan⟩
  | initAmbe =>
    intro r h _
    obtain ⟨o, ho, h⟩ := bind_ok h
    rw [initAmbeState_eq] at ho
    cases ho
    cases h
    exact ⟨nofun, .ambe hf.plan⟩
  | seed n =>
    intro r h _
    cases h
    exact ⟨nofun, hf.cur, hf.prev, hf.enh, hf.amps, hf.spk, hf.plan.of_eq rfl⟩

theorem fresh_vec {s : St (IEEE m)} (h : Fresh s) : VecSt isa s := by
  have hp : PlanOk (Tls.start : Tls (IEEE m)) := fun P hP => by cases hP
  rcases (fresh_cases h).2 with rfl | rfl
  · exact .imbe hp
  · exact .ambe hp

theorem runApi_vec (hm : TrigAcc m) (hcos : CosAcc m) (hsin : SinAcc m) (he : Exp2Acc m) {E : Env (IEEE m)} (hE : RunsV E) {as : List (Api (IEEE m))}
    (hv : ∀ a ∈ as, a.Valid) (h20 : ∀ a ∈ as, a.ErrsLe 20) {s : St (IEEE m)} (hs : StOk s) (hf : VecSt isa s)
    (ha : ∀ bs, bs <+: as → ∀ l s', deliveries (Api.callSimd isa E) bs s = .ok (l, s') → AmpsOk s'.prev)
    {l : List (Option (Arr 160 (IEEE m) × List Char))} {s' : St (IEEE m)}
    (h : deliveries (Api.callSimd isa E) as s = .ok (l, s')) : ∀ x ∈ l, ∀ p, x = some p → MadeV isa E p.1 := by
  induction as generalizing s l with
  | nil => cases h; simp
  | cons a as ih =>
    obtain ⟨r, h1, h⟩ := bind_ok h
    obtain ⟨q, h2, h⟩ := bind_ok h
    have h := ok_inj h
    obtain ⟨rfl, rfl⟩ : _ ∧ _ := by simpa only [Prod.mk.injEq] using h
    have step : ∀ bs l s2, deliveries (Api.callSimd isa E) bs r.2 = .ok (l, s2) → deliveries (Api.callSimd isa E) (a :: bs) s = .ok (r.1 :: l, s2) := by
      intro bs l s2 h3
      show (a.callSimd isa E s >>= fun r => deliveries (Api.callSimd isa E) bs r.2 >>= fun rest => .ok (r.1 :: rest.1, rest.2)) = _
      rw [h1, ok_bind, h3, ok_bind]
    obtain ⟨k1, k2⟩ := api_vec hm hcos hsin he hE (hv a (.head _)) (h20 a (.head _)) hs hf r h1 (ha [a] ⟨as, rfl⟩ _ r.2 (step [] [] r.2 rfl))
    intro x hx
    rcases List.mem_cons.1 hx with rfl | hx
    · exact k1
    · refine ih (fun b hb => hv b (.tail _ hb)) (fun b hb => h20 b (.tail _ hb)) (apiSimd_stOk he (hv a (.head _)) hs hf.plan h1) k2 ?_ (l := q.1) h2 x hx
      intro bs hb l2 s2 h3
      refine ha (a :: bs) ?_ _ s2 (step bs l2 s2 h3)
      obtain ⟨cs, rfl⟩ := hb; exact ⟨cs, rfl⟩

end Verif.Model
