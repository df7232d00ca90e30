import Verif.Lemmas.FinSynth
import Verif.Lemmas.FinPitch
import Verif.Lemmas.FinErase
import Verif.Lemmas.Keep
import Verif.Lemmas.History
import Verif.Lemmas.Process
import Verif.Lemmas.ToneWave
import Verif.Lemmas.Tones
import Verif.Lemmas.SafeIeee

/-!
# Finite samples: whole calls and histories
-/

namespace Verif.Model
open Verif Verif.Gen Verif.Spec Verif.Num Arith
variable {m : Libm}

/-- A parameter set that a frame may be synthesised from: a fundamental from the tables, or an erasure. -/
def Spk (p : Parms (IEEE m)) : Prop :=
  Pitch p.w0 p.L ∨ (Val p.w0 0 ∧ ∀ l : Fin 57, 1 ≤ l.val → (l.val : Int) ≤ p.L → Val (p.Ml l) 1 ∧ p.Vl l = 0)

/-- The part of the decoder state that the finiteness of the samples depends on. -/
structure FinSt (s : St (IEEE m)) : Prop where
  cur : FinSet s.cur
  prev : FinSet s.prev
  enh : FinSet s.enh
  amps : EnhOk s.enh
  spk : Spk s.prev
  plan : PlanOk s.tls

theorem OkU.toPost {α : Type} {x : Exec α} {P : α → Prop} {U : UB → Prop} (h : OkU U x P) : Post x P := by
  intro a ha
  rcases h with ⟨b, hb, hP⟩ | ⟨e, he, _⟩
  · rw [ha] at hb; cases hb; exact hP
  · rw [ha] at he; cases he

theorem Pitch.mag {x : IEEE m} {L : Int} (h : Pitch x L) : Mag 0 x := by
  obtain ⟨w, v, w1, w2, _⟩ := h
  exact ⟨w, v, by rw [pow2_zero', abs_of_nonneg (by linarith)]; linarith⟩

theorem Pitch.ord {x : IEEE m} {L : Int} (h : Pitch x L) : ∃ q : ℚ, Val x q ∧ (q = 0 ∨ 1 / 64 ≤ q) ∧ q ≤ 5 / 8 := by
  obtain ⟨w, v, w1, w2, _⟩ := h
  exact ⟨w, v, .inr (by linarith), w2⟩

theorem zero_mag (k : Int) : Mag k (lit 0 1 : IEEE m) := ⟨0, ⟨false, rfl⟩, by rw [abs_zero]; exact (pow2_pos k).le⟩

theorem speak_fin (hm : TrigAcc m) {E : Env (IEEE m)} (hE : Runs E) {C : Call (IEEE m)} {s : St (IEEE m)} (hc : FinSet s.cur)
    (hs : Spk s.cur) (hL : 9 ≤ s.cur.L ∧ s.cur.L ≤ 56) (he : FinSet s.enh) (hv : EnhOk s.enh) (heL : 9 ≤ s.enh.L ∧ s.enh.L ≤ 56)
    (ht : PlanOk s.tls) (ha : AmpsOk s.cur) : Post (speak E C s) fun o => Voice E o.1 ∧ FinSt o.2 := by
  unfold speak
  refine Post.bind (P := fun r : Parms (IEEE m) × Tls (IEEE m) => (r.1 = { s.cur with Ml := r.1.Ml } ∧ r.2.plan = s.tls.plan) ∧ EnhOk r.1) ?_ fun q hq => ?_
  · refine Post.both ((spectralAmpEnhance_frame _ _ _).mono fun r hr => ⟨hr.1, by rw [hr.2]⟩) ?_
    rcases hs with hp | ⟨h0, h1⟩
    · obtain ⟨w, v, w1, w2, hp⟩ := hp
      refine (enhance_fin hm v w1 (by linarith) hp (by omega) hL.2 ha).mono fun r hr => ?_
      obtain ⟨a, h, _⟩ := hr
      refine .inl fun l l1 l2 => ⟨_, (h l l1 l2).1, (h l l1 l2).2.1, (h l l1 l2).2.2.trans (by rw [pow2_eq]; norm_num)⟩
    · refine (Post.both (spectralAmpEnhance_frame _ _ _) (enhance_erase hm h0 hL.1 hL.2 fun l l1 l2 => (h1 l l1 l2).1)).mono fun r hr => ?_
      obtain ⟨⟨f, _⟩, h⟩ := hr
      have e1 : r.1.L = s.cur.L := by rw [f]
      have e2 : r.1.w0 = s.cur.w0 := by rw [f]
      have e3 : r.1.Vl = s.cur.Vl := by rw [f]
      refine .inr ⟨e2 ▸ h0, fun l l1 l2 => ⟨h l l1 (e1 ▸ l2), ?_⟩⟩
      rw [e3]
      exact (h1 l l1 (e1 ▸ l2)).2
  obtain ⟨c, t⟩ := q
  dsimp only at hq ⊢
  obtain ⟨⟨f, g⟩, hv'⟩ := hq
  have hc' : FinSet c := by rw [f]; exact hc.congr rfl rfl rfl rfl rfl hc.et
  refine Post.bind (synthesize_fin hm hE hc' hv' (by rw [f]; exact hL) he hv heL (ht.of_eq g)) fun r hr => Post.pure ?_
  exact ⟨hr.1, hr.2.1, hc, hr.2.1, hr.2.2.1, hs, hr.2.2.2⟩

theorem DecodeFrame.fin {cur prev : Parms (IEEE m)} {t : Tls (IEEE m)} {r : DecodeRes (IEEE m)} (h : DecodeFrame cur prev t r)
    (hk : KeepAmps prev r.prev) (hc : FinSet cur) (hp : FinSet prev) (hs : Spk prev) (ht : PlanOk t) :
    ((∃ q : ℚ, Val r.cur.w0 q ∧ (q = 0 ∨ 1 / 64 ≤ q) ∧ q ≤ 5 / 8) → FinSet r.cur) ∧ FinSet r.prev ∧ Spk r.prev ∧ PlanOk r.tls ∧ r.cur.errorCountTotal ≤ 20 := by
  have e : r.cur.errorCountTotal ≤ 20 := by rw [h.cur_eq]; exact hc.et
  have eL : r.prev.L = prev.L := by rw [h.prev_eq]
  refine ⟨fun hw => ⟨hw, ?_, ?_, ?_, ?_, ?_, ?_, e⟩, ?_, ?_, ht.of_eq (by rw [h.tls_eq]), e⟩
  · rw [h.cur_eq]; exact hc.ph
  · rw [h.cur_eq]; exact hc.psi
  · rw [h.cur_eq]; exact hc.phi
  · rw [h.cur_eq]; exact hc.uw
  · rw [h.cur_eq]; exact hc.blk
  · rw [h.cur_eq]; exact hc.ov
  · rw [h.prev_eq]; exact hp.congr rfl rfl rfl rfl rfl hp.et
  · rcases hs with hs | ⟨h0, h1⟩
    · left; rw [eL, show r.prev.w0 = prev.w0 by rw [h.prev_eq]]; exact hs
    · right
      refine ⟨by rw [show r.prev.w0 = prev.w0 by rw [h.prev_eq]]; exact h0, fun l l1 l2 => ?_⟩
      rw [eL] at l2
      rw [(hk l l1 l2).1, show r.prev.Vl = prev.Vl by rw [h.prev_eq]]
      exact h1 l l1 l2

/-! ## Initial states -/

theorem FinSet.imbe : FinSet (imbeInit 39 : Parms (IEEE m)) where
  wo := imbeDefault_pitch.ord
  ph := fun _ _ => ⟨⟨0, ⟨false, rfl⟩, by rw [abs_zero]; positivity⟩, ⟨0, ⟨false, rfl⟩, by rw [abs_zero]; positivity⟩⟩
  psi := fun _ => zero_mag _
  phi := fun _ => Mag.fi0 _
  uw := fun _ => by first | exact zero_mag _ | exact Mag.fi0 _
  blk := fun _ _ => .inl fun _ => ⟨false, rfl⟩
  ov := fun _ => by first | exact zero_mag _ | exact Mag.fi0 _
  et := by show (0 : Int) ≤ 20; decide

theorem FinSet.ambe : FinSet (ambeInit : Parms (IEEE m)) where
  wo := ambeInit_pitch.ord
  ph := fun _ _ => ⟨⟨0, ⟨false, rfl⟩, by rw [abs_zero]; positivity⟩, ⟨0, ⟨false, rfl⟩, by rw [abs_zero]; positivity⟩⟩
  psi := fun _ => zero_mag _
  phi := fun _ => zero_mag _
  uw := fun _ => by first | exact zero_mag _ | exact Mag.fi0 _
  blk := fun _ _ => .inl fun _ => ⟨false, rfl⟩
  ov := fun _ => by first | exact zero_mag _ | exact Mag.fi0 _
  et := by show (0 : Int) ≤ 20; decide

theorem enhOk_unit {p : Parms (IEEE m)} (h : p.Ml = Arr.const 57 (lit 1 1)) : EnhOk p := by
  refine .inl fun l _ _ => ⟨1, by rw [h]; exact one_val, by norm_num, by rw [pow2_eq]; norm_num⟩

theorem FinSt.imbe {t : Tls (IEEE m)} (h : PlanOk t) : FinSt ⟨imbeInit 39, imbeInit 39, imbeInit 39, t⟩ :=
  ⟨.imbe, .imbe, .imbe, enhOk_unit rfl, .inl imbeDefault_pitch, h⟩

theorem FinSt.ambe {t : Tls (IEEE m)} (h : PlanOk t) : FinSt ⟨ambeInit, ambeInit, ambeInit, t⟩ :=
  ⟨.ambe, .ambe, .ambe, enhOk_unit rfl, .inl ambeInit_pitch, h⟩

theorem noiseAndReset_fin (E : Env (IEEE m)) {C : Call (IEEE m)} {s : St (IEEE m)} (h : PlanOk s.tls) : Post (noiseAndReset C s) fun o => Voice E o.1 ∧ FinSt o.2 := by
  unfold noiseAndReset
  refine Post.bind (Post.both (comfort_made E _ _) (comfortNoisef_frame _ _)) fun r hr => ?_
  rw [initAmbeState_eq, ok_bind]
  exact Post.pure ⟨hr.1, .ambe (h.of_eq (by show r.2.plan = _; rw [hr.2]))⟩

/-! ## IMBE -/

theorem imbeDecode_pitch {d : Nat → Int} (hd : Bits 88 d) (lax : Bool) (cur prev : Parms (IEEE m)) (t : Tls (IEEE m)) :
    Post (decodeImbe4400 lax d cur prev t) fun r => r.bad = 1 ∧ r.cur.w0 = cur.w0 ∨ r.bad = 0 ∧ Pitch r.cur.w0 r.cur.L := by
  by_cases hb : 207 < imbeFund d
  · rw [decodeImbe4400_bad hd hb]
    exact Post.pure (.inl ⟨rfl, rfl⟩)
  · rw [decodeImbe4400_good hd (by omega)]
    refine (imbeDecodeBody_post _ _ _ _ _ _ _).mono fun r hr => .inr ⟨hr.1, ?_⟩
    obtain ⟨V, h⟩ := hr.2
    rw [h]
    exact imbe_pitch (by omega)

theorem imbe_fin (hm : TrigAcc m) {E : Env (IEEE m)} (hE : Runs E) {C : Call (IEEE m)} {c0 : Option Int} {errs2 : Int} {d : Nat → Int}
    (hd : Bits 88 d) (h20 : errs2 ≤ 20) {s : St (IEEE m)} (hs : StOk s) (hf : FinSt s) :
    Post (processImbe4400 E C c0 errs2 d s) fun o => AmpsOk o.st.prev → Voice E o.pcm ∧ FinSt o.st := by
  intro o ho ha
  obtain ⟨r, cur, sp, P⟩ := processImbe4400_parts ho
  have hc0 : FinSet (imbePrepare c0 errs2 s).cur := by
    rw [imbePrepare_cur]; exact hf.cur.congr rfl rfl rfl rfl rfl h20
  have hso : SetOk (imbePrepare c0 errs2 s).cur := by rw [imbePrepare_cur]; exact hs.cur.congr rfl rfl rfl rfl
  obtain ⟨hF, -, -⟩ := decodeImbe4400_frame _ _ _ _ _ r P.decode
  obtain ⟨f1, f2, f3, f4, f5⟩ := hF.fin (decodeImbe4400_keep _ _ _ _ _ r P.decode) hc0 hf.prev hf.spk hf.plan
  obtain ⟨o1, o2⟩ := (decodeImbe4400_u (U := fun _ => True) (.inr trivial) hd s.tls hso hs.prev).toPost r P.decode
  have hp := imbeDecode_pitch hd _ _ _ _ r P.decode
  have key : FinSet cur ∧ Spk cur ∧ 9 ≤ cur.L ∧ cur.L ≤ 56 := by
    have hr := P.repeated
    unfold imbeRepeat at hr
    have hw : ∃ q : ℚ, Val r.cur.w0 q ∧ (q = 0 ∨ 1 / 64 ≤ q) ∧ q ≤ 5 / 8 := by
      rcases hp with ⟨_, e⟩ | ⟨_, e⟩
      · rw [e]; exact hc0.wo
      · exact e.ord
    by_cases c : imbeRepeatRequired r.bad c0 errs2 r.cur.errorRate = true
    · rw [if_pos c] at hr
      split at hr
      · rw [imbeReset_ieee] at hr
        cases hr
        exact ⟨⟨imbeDefault_pitch.ord, (f1 hw).ph, (f1 hw).psi, (f1 hw).phi, (f1 hw).uw, (f1 hw).blk, (f1 hw).ov, f5⟩, .inl imbeDefault_pitch,
          show (9 : Int) ≤ 39 by decide, show (39 : Int) ≤ 56 by decide⟩
      · have := repeatLast_inv hr
        subst this
        exact ⟨f2.congr rfl rfl rfl rfl rfl f2.et, f3, o2.lo, o2.hi⟩
    · rw [if_neg c] at hr
      cases hr
      refine ⟨(f1 hw).congr rfl rfl rfl rfl rfl f5, .inl ?_, o1.lo, o1.hi⟩
      rcases hp with ⟨e, _⟩ | ⟨_, e⟩
      · rw [e] at c
        exact absurd rfl c
      · exact e
  have hsp := speak_frame E C ⟨cur, r.prev, s.enh, r.tls⟩ sp P.spoken
  rw [P.st, hsp.prev_eq] at ha
  have := speak_fin (C := C) (s := ⟨cur, r.prev, s.enh, r.tls⟩) hm hE key.1 key.2.1 key.2.2 hf.enh hf.amps ⟨hs.enh.lo, hs.enh.hi⟩ f4 ha sp P.spoken
  rw [P.pcm, P.st]
  exact this

/-! ## Tones -/

theorem toneSample_mag (hm : TrigAcc m) {p : Nat} (hp : p < 2 ^ 32) : Mag 1 (toneSample p : IEEE m) := by
  obtain ⟨x, q, e, v, h8, _⟩ := toneAngle (m := m) p hp
  obtain ⟨r, hr, hr'⟩ := hm.sin x q v (h8.trans (by rw [pow2_eq]; norm_num))
  rw [e]
  refine ⟨r, hr, ?_⟩
  have h1 := Real.neg_one_le_sin (q : ℝ)
  have h2 := Real.sin_le_one (q : ℝ)
  have h3 := abs_le.1 hr'
  have : |(r : ℝ)| ≤ 2 := abs_le.2 ⟨by linarith [h3.1], by linarith [h3.2]⟩
  rw [pow2_eq]
  have h4 : |r| ≤ 2 := by exact_mod_cast this
  exact h4.trans (by norm_num)

theorem toneOut_fin (hm : TrigAcc m) (dual : Bool) {g : IEEE m} (hg : Mag 13 g) {p1 p2 : Nat} (h1 : p1 < 2 ^ 32) (h2 : p2 < 2 ^ 32) :
    ∃ q, Val (toneOut dual g p1 p2 : IEEE m) q := by
  have half : Mag 0 (lit 5 10 : IEEE m) := Bnd.of (x := (lit 5 10 : IEEE m)) (show bndB (lit 5 10 : IEEE libm0) (pow2 0) = true by decide +kernel)
  unfold toneOut
  cases dual
  · obtain ⟨q, hq, _⟩ := hg.mul (toneSample_mag hm h1) (n := 14) (by decide) (by decide) (by decide)
    exact ⟨q, hq⟩
  · have k := half.mul hg (n := 13) (by decide) (by decide) (by decide)
    have k1 := k.mul (toneSample_mag hm h1) (n := 14) (by decide) (by decide) (by decide)
    have k2 := k.mul (toneSample_mag hm h2) (n := 14) (by decide) (by decide) (by decide)
    obtain ⟨q, hq, _⟩ := k1.add k2 (n := 15) (by decide) (by decide) (by decide) (by decide)
    exact ⟨q, hq⟩

theorem renderTonef_fin (hm : TrigAcc m) {out : Arr 160 (IEEE m)} {cur : Parms (IEEE m)} {f1 f2 : IEEE m} {amp : Int} (h0 : 0 ≤ amp) (h1 : amp ≤ 127) :
    Post (renderTonef out cur f1 f2 amp) fun r => AllFin r.1 := by
  intro r hr
  have hz : AllFin (silencef : Arr 160 (IEEE m)) := fun _ => ⟨0, ⟨false, rfl⟩⟩
  by_cases c : le f1 (lit 0 1 : IEEE m) = true
  · unfold renderTonef at hr
    rw [if_pos c] at hr
    cases hr
    exact hz
  have c : le f1 (lit 0 1 : IEEE m) = false := by simpa using c
  obtain ⟨s1, s2, e1, e2⟩ : ∃ s1 s2, tonePhaseStep f1 = .ok s1 ∧ (if dualTone f1 f2 then tonePhaseStep f2 else .ok 0) = .ok s2 := by
    unfold renderTonef at hr
    rw [c, if_neg Bool.false_ne_true] at hr
    obtain ⟨s1, e1, hr⟩ := bind_ok hr
    obtain ⟨s2, e2, hr⟩ := bind_ok hr
    exact ⟨s1, s2, e1, e2⟩
  rw [renderTonef_eq out cur amp c e1 e2] at hr
  cases hr
  intro i
  obtain ⟨g, hg, hg'⟩ := toneGain_close (m := m) amp h0 h1
  have A0 : (0 : ℚ) ≤ amp := by exact_mod_cast h0
  have A1 : (amp : ℚ) ≤ 127 := by exact_mod_cast h1
  have hG : Mag 13 (toneGain amp : IEEE m) := ⟨g, hg, by
    rw [pow2_eq, abs_le]
    obtain ⟨k1, k2⟩ := abs_le.1 hg'
    constructor <;> norm_num <;> linarith⟩
  exact toneOut_fin hm _ hG (phaseAt_lt _ _ _) (phaseAt_lt _ _ _)

theorem synthesizeTonef_fin (hm : TrigAcc m) {out : Arr 160 (IEEE m)} {d : Nat → Int} (hd : Bits 49 d) {cur : Parms (IEEE m)} :
    Post (synthesizeTonef out d cur) fun r => AllFin r.1 := by
  have hz : AllFin (silencef : Arr 160 (IEEE m)) := fun _ => ⟨0, ⟨false, rfl⟩⟩
  rw [synthesizeTonef_unfold hd]
  have := toneAmp_lt hd
  refine Post.ite (fun _ => renderTonef_fin hm (by omega) (by omega)) fun _ => Post.pure hz

/-! ## AMBE -/

theorem ambePrepare_fin {errs2 : Int} (h20 : errs2 ≤ 20) {s : St (IEEE m)} (hf : FinSt s) : Post (ambePrepare errs2 s) FinSt := by
  unfold ambePrepare ensureAmbeDefaults
  have key : ∀ s0 : St (IEEE m), FinSt s0 → FinSt { s0 with cur := ambePreparedCur errs2 s0 } := fun s0 h =>
    ⟨h.cur.congr rfl rfl rfl rfl rfl h20, h.prev, h.enh, h.amps, h.spk, h.plan⟩
  split
  · rw [initAmbeState_eq, ok_bind]
    exact Post.pure (key _ (.ambe hf.plan))
  · rw [ok_bind]
    exact Post.pure (key _ hf)

theorem erasure_fin {c p : Parms (IEEE m)} (hp : FinSet p) (h : c.errorCountTotal ≤ 20) : FinSet (ambeErasure c p) ∧ EnhOk (ambeErasure c p) ∧
    Spk (ambeErasure c p) := by
  have w0 : Val (ambeErasure c p).w0 0 := ⟨false, rfl⟩
  exact ⟨⟨⟨0, w0, .inl rfl, by norm_num⟩, hp.ph, hp.psi, hp.phi, hp.uw, hp.blk, hp.ov, h⟩, enhOk_unit rfl, .inr ⟨w0, fun _ _ _ => ⟨one_val, rfl⟩⟩⟩

theorem ambe2450_decode_pitch {d : Nat → Int} (hd : Bits 49 d) (lax : Bool) (e : Int) {cur prev : Parms (IEEE m)} (hp : SetOk prev) (t : Tls (IEEE m)) :
    Post (decodeAmbe2450 lax d e cur prev t) fun r => r.bad = 0 → Pitch r.cur.w0 r.cur.L := by
  obtain ⟨k1, k2⟩ := decodeAmbe2450_eq hd lax e cur prev t
  by_cases c1 : ToneSig d ∧ e < 6
  · rw [k1 c1]; exact Post.pure nofun
  by_cases c2 : ambeFund2450 d < 120 ∨ ambeFund2450 d = 124 ∨ ambeFund2450 d = 125
  · rw [(k2 c1).2 c2]
    have hr := harm2450 c2
    have hlo := hp.lo
    have hhi := hp.hi
    obtain ⟨v1, v2⟩ := ambe2450Voice_split (m := m) (lax := lax) hd c2 { cur with repeat_ := prev.repeat_ } prev t
      (p := prev.L.toNat) (by omega) (by omega)
    rcases noOver_or (lax := lax) (p := prev.L.toNat) (L := (ambeHarmonics2450 (ambeFund2450 d)).toNat) (by omega) (by omega) (by omega) with h | ⟨h, h'⟩
    · refine (Post.both (v1 h).post (ambe2450Voice_w0 lax d c2 _ prev t)).mono fun r hr _ => ?_
      obtain ⟨⟨_, eL, _⟩, ew⟩ := hr
      rw [eL, ew]
      unfold ambeHarmonics2450
      by_cases a1 : ambeFund2450 d = 124
      · rw [if_pos (.inl a1), if_pos a1]; exact sil_pitch (by decide)
      by_cases a2 : ambeFund2450 d = 125
      · rw [if_pos (.inr a2), if_neg a1, if_pos a2]; exact sil_pitch (by decide)
      · rw [if_neg (by omega), if_neg a1, if_neg a2]; exact ambe_pitch (by omega)
    · intro r hr
      rw [v2 h h'] at hr
      cases hr
  · rw [(k2 c1).1 (by omega)]; exact Post.pure nofun

theorem ambe2400_decode_pitch (he : Exp2Acc m) {d : Nat → Int} (hd : Bits 49 d) (lax : Bool) {cur prev : Parms (IEEE m)} (hp : SetOk prev)
    (t : Tls (IEEE m)) : Post (decodeAmbe2400 lax d cur prev t) fun r => r.bad = 0 → Pitch r.cur.w0 r.cur.L := by
  obtain ⟨k1, k2⟩ := decodeAmbe2400_eq hd lax cur prev t
  by_cases c2 : ambeFund2400 d < 126
  · rw [k1 c2]
    have hr := ltabPlus_check _ c2
    have hlo := hp.lo
    have hhi := hp.hi
    obtain ⟨v1, v2⟩ := ambe2400Voice_split he (lax := lax) hd c2 { cur with repeat_ := prev.repeat_ } prev t
      (p := prev.L.toNat) (by omega) (by omega)
    rcases noOver_or (lax := lax) (p := prev.L.toNat) (L := (AmbePlusLtable.getD (ambeFund2400 d) 0).toNat) (by omega) (by omega) (by omega) with h | ⟨h, h'⟩
    · refine (Post.both (v1 h).post (ambe2400Voice_w0 lax d _ _ prev t)).mono fun r hr _ => ?_
      obtain ⟨⟨_, eL, _⟩, ew⟩ := hr
      rw [eL, ew]
      exact ambe2400_pitch he c2
    · intro r hr
      rw [v2 h h'] at hr
      cases hr
  · obtain ⟨k3, k4, k5⟩ := k2 (by omega)
    by_cases a1 : 5 ≤ toneIdx2400 d ∧ toneIdx2400 d ≤ 122
    · rw [k3 a1]; refine Post.pure fun h => ?_; dsimp only at h; omega
    by_cases a2 : 128 ≤ toneIdx2400 d ∧ toneIdx2400 d ≤ 163
    · rw [k4 a2]; exact Post.pure nofun
    · refine (k5 ⟨a1, a2⟩).post.mono fun r hr h => ?_
      rw [hr.1] at h
      cases h

theorem ambe2450_fin (hm : TrigAcc m) {E : Env (IEEE m)} (hE : Runs E) {C : Call (IEEE m)} {c0 : Option Int} {errs2 : Int} {d : Nat → Int}
    (hd : Bits 49 d) (h20 : errs2 ≤ 20) {s : St (IEEE m)} (hs : StOk s) (hf : FinSt s) :
    Post (processAmbe2450 E C c0 errs2 d s) fun o => AmpsOk o.st.prev → Made E o.pcm ∧ FinSt o.st := by
  intro o ho ha
  obtain ⟨s1, r, v, p, P⟩ := processAmbe2450_parts ho
  have hf1 := ambePrepare_fin h20 hf s1 P.prepare
  have hs1 : StOk s1 := by
    obtain ⟨x, e, h, _⟩ := ambePrepare_u errs2 hs
    rw [P.prepare] at e
    cases e
    exact h
  obtain ⟨hF, hb, hn⟩ := decodeAmbe2450_frame _ _ _ _ _ _ r P.decode
  obtain ⟨f1, f2, f3, f4, f5⟩ := hF.fin (decodeAmbe2450_keep _ _ _ _ _ _ r P.decode) hf1.cur hf1.prev hf1.spk hf1.plan
  obtain ⟨o1, o2⟩ := (decodeAmbe2450_u (U := fun _ => True) (.inr trivial) hd errs2 s1.tls hs1.cur hs1.prev).toPost r P.decode
  have hp := ambe2450_decode_pitch hd _ _ hs1.prev _ r P.decode
  have hw : ∃ q : ℚ, Val r.cur.w0 q ∧ (q = 0 ∨ 1 / 64 ≤ q) ∧ q ≤ 5 / 8 := by
    by_cases c : r.bad = 0
    · exact (hp c).ord
    · rw [(hn c).1]; exact hf1.cur.wo
  have hV := P.verdict
  have hR := P.render
  rw [P.pcm, P.st]
  rw [P.st] at ha
  unfold ambe2450Verdict at hV
  unfold ambe2450Render at hR
  rcases hb with hb | hb | hb
  · rw [if_neg (by omega), if_neg (by omega)] at hV
    rw [if_pos hb] at hR
    have key : FinSet v.1 ∧ Spk v.1 ∧ 9 ≤ v.1.L ∧ v.1.L ≤ 56 := by
      split at hV
      · obtain ⟨q, e, hV⟩ := bind_ok hV
        cases hV
        have := repeatLast_inv e
        subst this
        exact ⟨f2.congr rfl rfl rfl rfl rfl f2.et, f3, o2.lo, o2.hi⟩
      · cases hV
        exact ⟨(f1 hw).congr rfl rfl rfl rfl rfl f5, .inl (hp hb), o1.lo, o1.hi⟩
    split at hR
    · obtain ⟨sp, e, hR⟩ := bind_ok hR
      cases hR
      have hsp := speak_frame _ _ _ sp e
      dsimp only at ha ⊢
      rw [hsp.prev_eq] at ha
      exact Voice.made <| speak_fin (s := ⟨v.1, r.prev, s1.enh, r.tls⟩) hm hE key.1 key.2.1 key.2.2 hf1.enh hf1.amps ⟨hs1.enh.lo, hs1.enh.hi⟩ f4 ha sp e
    · obtain ⟨q, e, hR⟩ := bind_ok hR
      cases hR
      exact Voice.made <| noiseAndReset_fin E (s := ⟨v.1, r.prev, s1.enh, r.tls⟩) f4 q e
  · rw [if_pos hb] at hV
    obtain ⟨q, e, hV⟩ := bind_ok hV
    cases hV
    rw [setAmbeErasureParms_eq] at e
    cases e
    rw [if_neg (by omega), if_neg (by omega), if_pos hb] at hR
    obtain ⟨q, e, hR⟩ := bind_ok hR
    cases hR
    obtain ⟨g1, g2, g3⟩ := erasure_fin (c := { r.cur with repeat_ := 0, repeatCount := 0 }) f2 f5
    refine ⟨.inl (comfort_made E _ _ q e), g1, g1, g1, g2, g3, f4.of_eq ?_⟩
    show q.2.plan = _
    rw [comfortNoisef_frame _ _ q e]
  · rw [if_neg (by omega), if_pos (.inr hb)] at hV
    cases hV
    rw [if_neg (by omega), if_pos hb] at hR
    obtain ⟨b, e, hR⟩ := bind_ok hR
    have hc : FinSet { r.cur with repeat_ := 0, repeatCount := 0 } := (f1 hw).congr rfl rfl rfl rfl rfl f5
    split at hR
    · obtain ⟨q, e, hR⟩ := bind_ok hR
      cases hR
      refine ⟨.inr ⟨synthesizeTonef_fin hm hd q e, _, _, _, q, e, rfl⟩, ?_, f2, hf1.enh, hf1.amps, f3, f4⟩
      have := synthesizeTonef_frame _ _ _ q e
      show FinSet q.2
      rw [this]
      exact hc.congr rfl rfl rfl rfl rfl f5
    · split at hR
      · obtain ⟨q, e, hR⟩ := bind_ok hR
        cases hR
        exact Voice.made <| noiseAndReset_fin E (s := ⟨{ r.cur with repeat_ := 0, repeatCount := 0 }, r.prev, s1.enh, r.tls⟩) f4 q e
      · obtain ⟨q, e, hR⟩ := bind_ok hR
        cases hR
        unfold replayEnhanced at e
        obtain ⟨z, e', e⟩ := bind_ok e
        cases e
        have hL := And.intro hs1.enh.lo hs1.enh.hi
        obtain ⟨z1, z2, z3, z4⟩ := synthesize_fin hm hE hf1.enh hf1.amps hL hf1.enh hf1.amps hL f4 z e'
        exact ⟨.inl z1, hc, f2, z2, z3, f3, z4⟩

theorem ambe2400_fin (hm : TrigAcc m) (he : Exp2Acc m) {E : Env (IEEE m)} (hE : Runs E) {C : Call (IEEE m)} {errs errs2 : Int} {d : Nat → Int}
    (hd : Bits 49 d) (h20 : errs2 ≤ 20) {s : St (IEEE m)} (hs : StOk s) (hf : FinSt s) :
    Post (processAmbe2400 E C errs errs2 d s) fun o => AmpsOk o.st.prev → Made E o.pcm ∧ FinSt o.st := by
  intro o ho ha
  obtain ⟨s1, r, v, p, P⟩ := processAmbe2400_parts ho
  have hf1 := ambePrepare_fin h20 hf s1 P.prepare
  have hs1 : StOk s1 := by
    obtain ⟨x, e, h, _⟩ := ambePrepare_u errs2 hs
    rw [P.prepare] at e
    cases e
    exact h
  obtain ⟨hF, hb, hn⟩ := decodeAmbe2400_frame _ _ _ _ _ r P.decode
  obtain ⟨f1, f2, f3, f4, f5⟩ := hF.fin (decodeAmbe2400_keep _ _ _ _ _ r P.decode) hf1.cur hf1.prev hf1.spk hf1.plan
  obtain ⟨o1, o2⟩ := (decodeAmbe2400_u he (U := fun _ => True) (.inr trivial) hd s1.tls hs1.cur hs1.prev).toPost r P.decode
  have hp := ambe2400_decode_pitch he hd _ hs1.prev _ r P.decode
  have hV := P.verdict
  have hR := P.render
  rw [P.pcm, P.st]
  rw [P.st] at ha
  unfold ambe2400Render at hR
  by_cases c : r.bad = 0
  · unfold ambe2400Verdict at hV
    rw [if_neg (by omega), if_neg (by omega), if_neg (by omega)] at hV
    rw [if_pos c] at hR
    have key : FinSet v.cur ∧ Spk v.cur ∧ 9 ≤ v.cur.L ∧ v.cur.L ≤ 56 := by
      split at hV
      · obtain ⟨q, e, hV⟩ := bind_ok hV
        cases hV
        have := repeatLast_inv e
        subst this
        exact ⟨f2.congr rfl rfl rfl rfl rfl f2.et, f3, o2.lo, o2.hi⟩
      · cases hV
        exact ⟨(f1 (hp c).ord).congr rfl rfl rfl rfl rfl f5, .inl (hp c), o1.lo, o1.hi⟩
    split at hR
    · obtain ⟨sp, e, hR⟩ := bind_ok hR
      cases hR
      have hsp := speak_frame _ _ _ sp e
      dsimp only at ha ⊢
      rw [hsp.prev_eq] at ha
      exact Voice.made <| speak_fin (s := ⟨v.cur, v.prev, s1.enh, r.tls⟩) hm hE key.1 key.2.1 key.2.2 hf1.enh hf1.amps ⟨hs1.enh.lo, hs1.enh.hi⟩ f4 ha sp e
    · obtain ⟨q, e, hR⟩ := bind_ok hR
      cases hR
      exact Voice.made <| noiseAndReset_fin E (s := ⟨v.cur, v.prev, s1.enh, r.tls⟩) f4 q e
  · rw [if_neg c, if_neg (by omega)] at hR
    obtain ⟨q, e, hR⟩ := bind_ok hR
    cases hR
    exact Voice.made <| noiseAndReset_fin E (s := ⟨v.cur, v.prev, s1.enh, r.tls⟩) f4 q e

end Verif.Model
