import Verif.Lemmas.FinUnvoiced
import Verif.Lemmas.VoicedOut
import Verif.Lemmas.UnvoicedBlock
import Verif.Lemmas.NanRun
import Verif.Lemmas.Smooth
import Verif.Lemmas.SimdSafeStep
import Verif.Props.Sound

/-!
# Finite samples: smoothing and the whole synthesis
-/

namespace Verif.Model
open Verif Verif.Gen Verif.Spec Verif.Num Arith
variable {m : Libm}

theorem Post.both {α : Type} {x : Exec α} {P Q : α → Prop} (h : Post x P) (g : Post x Q) : Post x fun a => P a ∧ Q a :=
  fun a ha => ⟨h a ha, g a ha⟩

/-- Enhanced amplitudes: in `[0, 2^32]`; or, in a frame with fundamental frequency 0, NaN in bands that are unvoiced. -/
def EnhOk (p : Parms (IEEE m)) : Prop :=
  (∀ l : Fin 57, 1 ≤ l.val → (l.val : Int) ≤ p.L → ∃ q, Val (p.Ml l) q ∧ 0 ≤ q ∧ q ≤ pow2 32) ∨
  (Val p.w0 0 ∧ ∀ l : Fin 57, 1 ≤ l.val → (l.val : Int) ≤ p.L → p.Ml l = (qnan : IEEE m) ∧ p.Vl l = 0)

theorem EnhOk.voi {p : Parms (IEEE m)} (h : EnhOk p) : VoiMag p.L p := by
  intro l h1 h2 hv
  rcases h with h | h
  · obtain ⟨q, v, q0, q1⟩ := h l h1 h2
    exact ⟨q, v, by rwa [abs_of_nonneg q0]⟩
  · have := (h.2 l h1 h2).2
    omega

theorem EnhOk.unv {p : Parms (IEEE m)} (h : EnhOk p) : UnvMag p := by
  rcases h with h | h
  · refine .inl fun l h1 h2 _ => ?_
    obtain ⟨q, v, q0, q1⟩ := h l h1 h2
    exact ⟨q, v, by rwa [abs_of_nonneg q0]⟩
  · exact .inr h.1

theorem EnhOk.bnd {p : Parms (IEEE m)} (h : EnhOk p) : UnvoicedBnd (2 ^ 32) p := by
  rcases h.unv with h | h
  · exact .inl fun l l1 l2 lv => (h l l1 l2 lv).mono (by rw [pow2_eq]; norm_num)
  · exact .inr h

/-- The parts of a parameter set that the oscillators, the noise and the overlap-add read. -/
structure FinSet (p : Parms (IEEE m)) : Prop where
  wo : ∃ q : ℚ, Val p.w0 q ∧ (q = 0 ∨ 1 / 64 ≤ q) ∧ q ≤ 5 / 8
  ph : PhasesOk p
  psi : AllMag 15 p.PSIl
  phi : AllMag 16 p.PHIl
  uw : AllMag 93 p.previousUw
  blk : CosAcc m → SinAcc m → StoredBlock p.previousUw
  ov : AllMag 16 p.noiseOverlap
  et : p.errorCountTotal ≤ 20

theorem FinSet.w {p : Parms (IEEE m)} (h : FinSet p) : Mag 0 p.w0 := by
  obtain ⟨q, v, q0, q1⟩ := h.wo
  refine ⟨q, v, ?_⟩
  rw [pow2_eq, abs_of_nonneg (by rcases q0 with h | h <;> linarith)]
  norm_num
  linarith

theorem FinSet.congr {p q : Parms (IEEE m)} (h : FinSet p) (e1 : q.w0 = p.w0) (e2 : q.PSIl = p.PSIl) (e3 : q.PHIl = p.PHIl)
    (e4 : q.previousUw = p.previousUw) (e5 : q.noiseOverlap = p.noiseOverlap) (e6 : q.errorCountTotal ≤ 20) : FinSet q :=
  ⟨e1 ▸ h.wo, fun l hl => ⟨by rw [e3]; exact (h.ph l hl).1, by rw [e2]; exact (h.ph l hl).2⟩, e2 ▸ h.psi, e3 ▸ h.phi, e4 ▸ h.uw, e4 ▸ h.blk, e5 ▸ h.ov, e6⟩

/-! ## Smoothing -/

theorem i32_post (n : Int) : Post (i32 n) fun r => r = n ∧ n ≤ 2147483647 := by
  intro r h
  unfold i32 at h
  split at h
  · cases h; exact ⟨rfl, by omega⟩
  · cases h

theorem smoothTm_pos {x : IEEE m} {e p : Int} (he : e ≤ 20) : Post (smoothTm x e p) fun t => 0 < t ∧ t ≤ 2147483647 := by
  unfold smoothTm
  dsimp only
  split
  · exact Post.pure ⟨by norm_num, by norm_num⟩
  · refine Post.bind (i32_post _) fun a ha => Post.bind (i32_post _) fun b hb => (i32_post _).mono fun c hc => ?_
    obtain ⟨rfl, _⟩ := ha
    obtain ⟨rfl, _⟩ := hb
    obtain ⟨rfl, h⟩ := hc
    refine ⟨?_, h⟩
    split <;> omega

theorem ofInt_val {n : Int} (h0 : 0 ≤ n) (h1 : n ≤ 2147483647) : ∃ t, Val (ofInt n : IEEE m) t ∧ 0 ≤ t := by
  have e0 : (0 : ℚ) ≤ n := by exact_mod_cast h0
  have e1 : (n : ℚ) ≤ 2147483647 := by exact_mod_cast h1
  refine ⟨rnd F32 (n : ℚ), Val.round32 (s := false) ?_, rnd_nonneg e0⟩
  rw [abs_of_nonneg e0]
  exact e1.trans (le_trans (by norm_num) big_ge)

theorem repr_k32 {k : Nat} (hk : k ≤ 2 ^ 20) : Repr F32 (k * pow2 32) :=
  ⟨k, 32, by simp, by
    rw [abs_of_nonneg (by omega)]
    exact_mod_cast hk.trans (by decide : 2 ^ 20 ≤ 2 ^ 24), by decide⟩

theorem k32_big {k : Nat} (hk : k ≤ 2 ^ 20) : (k : ℚ) * pow2 32 ≤ Val.big := by
  have h1 : (k : ℚ) ≤ 2 ^ 20 := by exact_mod_cast hk
  have e : pow2 32 = 2 ^ 32 := by rw [pow2_eq]; norm_num
  rw [e]
  refine le_trans ?_ big_ge
  have : (k : ℚ) * 2 ^ 32 ≤ 2 ^ 20 * 2 ^ 32 := mul_le_mul_of_nonneg_right h1 (by norm_num)
  exact this.trans (by norm_num)

theorem smoothAm_val {L : Int} (hL : L ≤ 56) {Ml : Arr 57 (IEEE m)}
    (h : ∀ l : Fin 57, 1 ≤ l.val → (l.val : Int) ≤ L → ∃ q, Val (Ml l) q ∧ 0 ≤ q ∧ q ≤ pow2 32) :
    Post (smoothAm L Ml) fun a => ∃ q, Val a q ∧ 0 ≤ q := by
  unfold smoothAm loopTo
  refine (loopFT_post (fun l (a : IEEE m) => ∃ q, Val a q ∧ 0 ≤ q ∧ q ≤ (l : ℚ) * pow2 32) (by omega) ⟨0, ⟨false, rfl⟩, le_rfl, ?_⟩
    fun l l1 l2 a ha => ?_).mono fun a ha => ?_
  · have := pow2_pos 32
    push_cast
    linarith
  · obtain ⟨q, v, q0, q1⟩ := ha
    obtain ⟨r, w, r0, r1⟩ := h ⟨l, by omega⟩ l1 (by show (l : Int) ≤ L; omega)
    rw [Arr.rd_nat (show l < 57 by omega), ok_bind]
    have hs : q + r ≤ ((l + 1 : Nat) : ℚ) * pow2 32 := by push_cast; linarith
    have hs0 : 0 ≤ q + r := by linarith
    refine Post.pure ⟨_, v.add w (by rw [abs_of_nonneg hs0]; exact hs.trans (k32_big (by omega))), rnd_nonneg hs0,
      rnd_le_of_repr F32_p (repr_k32 (by omega)) hs⟩
  · obtain ⟨q, v, q0, _⟩ := ha
    exact ⟨q, v, q0⟩

theorem smoothAm_nan {L : Int} (h1 : 1 ≤ L) (hL : L ≤ 56) {Ml : Arr 57 (IEEE m)}
    (h : ∀ l : Fin 57, 1 ≤ l.val → (l.val : Int) ≤ L → Ml l = (qnan : IEEE m)) : Post (smoothAm L Ml) fun a => a = (qnan : IEEE m) := by
  unfold smoothAm loopTo
  refine (loopFT_post (fun l (a : IEEE m) => l = 1 ∨ a = (qnan : IEEE m)) (by omega) (.inl rfl) fun l l1 l2 a ha => ?_).mono fun a ha => ?_
  · rw [Arr.rd_nat (show l < 57 by omega), ok_bind, h ⟨l, by omega⟩ l1 (by show (l : Int) ≤ L; omega)]
    exact Post.pure (.inr (qadd_nan _))
  · rcases ha with ha | ha
    · omega
    · exact ha

theorem applySmoothing_fin {addr : Nat} {cur prev : Parms (IEEE m)} {t : Tls (IEEE m)} (h : EnhOk cur) (he : cur.errorCountTotal ≤ 20)
    (h1 : 1 ≤ cur.L) (hL : cur.L ≤ 56) : Post (applySmoothing addr cur prev t) fun r => EnhOk r.1 := by
  unfold applySmoothing
  refine Post.bind Post.true fun r _ => ?_
  obtain ⟨rm0, t'⟩ := r
  dsimp only
  rw [smoothVoicing_eq hL, ok_bind]
  rcases h with h | ⟨h0, h⟩
  · refine Post.bind (smoothAm_val hL h) fun am ham => Post.bind (smoothTm_pos he) fun tm htm => ?_
    rw [smoothScale_eq hL, ok_bind]
    refine Post.pure (.inl fun l l1 l2 => ?_)
    dsimp only at l2 ⊢
    obtain ⟨q, v, q0, q1⟩ := h l l1 l2
    split
    · rename_i c
      obtain ⟨_, c1, c2⟩ := c
      obtain ⟨a, va, a0⟩ := ham
      obtain ⟨x, vx, x0⟩ := ofInt_val (m := m) htm.1.le htm.2
      rw [vx.lt va, decide_eq_true_eq] at c1
      have ap : 0 < a := lt_of_le_of_lt x0 c1
      have d0 : 0 ≤ x / a := div_nonneg x0 ap.le
      have d1 : x / a ≤ 1 := by rw [div_le_one ap]; exact c1.le
      have vs := vx.div va ap.ne' (by rw [abs_of_nonneg d0]; exact d1.trans (le_trans (by norm_num) big_ge))
      have r0 : 0 ≤ rnd F32 (x / a) := rnd_nonneg d0
      have r1 : rnd F32 (x / a) ≤ 1 := by
        have := rnd_le_of_repr F32_p (repr32_pow2 (k := 0) (by norm_num)) (d1.trans pow2_zero'.ge)
        rwa [pow2_zero'] at this
      have m0 : 0 ≤ q * rnd F32 (x / a) := mul_nonneg q0 r0
      have m1 : q * rnd F32 (x / a) ≤ pow2 32 := (mul_le_of_le_one_right q0 r1).trans q1
      exact ⟨_, v.mul vs (by rw [abs_of_nonneg m0]; exact m1.trans (pow2_big (by norm_num))), rnd_nonneg m0,
        rnd_le_of_repr F32_p (repr32_pow2 (by norm_num)) m1⟩
    · exact ⟨q, v, q0, q1⟩
  · refine Post.bind (smoothAm_nan h1 hL fun l l1 l2 => (h l l1 l2).1) fun am ham => Post.bind Post.true fun tm _ => ?_
    rw [smoothScale_eq hL, ok_bind]
    refine Post.pure (.inr ⟨h0, fun l l1 l2 => ?_⟩)
    dsimp only at l2 ⊢
    obtain ⟨e1, e2⟩ := h l l1 l2
    rw [ham, if_neg (by rw [qlt_nan]; simp), if_pos ⟨l1, l2⟩, e1, qlt_nan, if_neg (by simp)]
    exact ⟨rfl, e2⟩

/-! ## Synthesis -/

theorem clip_fin {x : FP} {k : Int} (h : Mag k x) : ∃ q, Val (clipSample x : IEEE m) q := by
  rw [show clipSample (F := IEEE m) x = clipR x from clipSample_ieee (m := m) x]
  obtain ⟨q, ⟨s, rfl⟩, _⟩ := h
  obtain ⟨u, hu⟩ := clipR_fin s q
  exact ⟨_, u, hu⟩

theorem FinSet.ordinary {p : Parms (IEEE m)} (h : FinSet p) (hv : VoiMag p.L p) : OrdinarySet p :=
  ⟨h.wo, fun l h1 h2 h3 => (hv l h1 h2 h3).mono (by rw [pow2_eq]; norm_num), fun i => (h.ov i).mono (by rw [pow2_eq]; norm_num)⟩

/-- The block is the output of the synthesis for a frame that is not muted, from parameter sets of ordinary size. -/
def Spoken (E : Env (IEEE m)) (out : Arr 160 (IEEE m)) : Prop :=
  ∃ cur prev t r, synthUnmuted E cur prev t = .ok r ∧ out = r.out ∧ OrdinarySet cur ∧ OrdinarySet prev ∧ PhasesOk prev ∧
    (9 ≤ cur.L ∧ cur.L ≤ 56) ∧ (9 ≤ prev.L ∧ prev.L ≤ 56) ∧ PlanOk t ∧ AllMag 93 prev.previousUw ∧ AllMag 93 r.cur.previousUw ∧
    UnvoicedBnd (2 ^ 32) cur ∧ (CosAcc m → SinAcc m → StoredBlock prev.previousUw) ∧ Runs E

/-- The block consists of numbers; it is speech or comfort noise. -/
def Voice (E : Env (IEEE m)) (out : Arr 160 (IEEE m)) : Prop :=
  AllFin out ∧ (Spoken E out ∨ ∃ buf t r, comfortNoisef (F := IEEE m) buf t = .ok r ∧ out = r.1)

/-- The block consists of numbers; it is speech, comfort noise or a tone. -/
def Made (E : Env (IEEE m)) (out : Arr 160 (IEEE m)) : Prop :=
  Voice E out ∨ AllFin out ∧ ∃ buf d cur r, synthesizeTonef (F := IEEE m) buf d cur = .ok r ∧ out = r.1

theorem Made.fin {E : Env (IEEE m)} {out : Arr 160 (IEEE m)} (h : Made E out) : AllFin out := by
  rcases h with h | h <;> exact h.1

theorem Voice.made {E : Env (IEEE m)} {out : Arr 160 (IEEE m)} {P : Prop} (h : Voice E out ∧ P) : Made E out ∧ P := ⟨.inl h.1, h.2⟩

/-- The unmuted synthesis from bounded parameter sets. -/
theorem synthUnmuted_fin0 (hm : TrigAcc m) {E : Env (IEEE m)} (hE : Runs E) {cur prev : Parms (IEEE m)} {t : Tls (IEEE m)} (hc : FinSet cur)
    (hv : EnhOk cur) (hL : 9 ≤ cur.L ∧ cur.L ≤ 56) (hp : FinSet prev) (hpv : VoiMag prev.L prev) (hpL : 9 ≤ prev.L ∧ prev.L ≤ 56)
    (ht : PlanOk t) : Post (synthUnmuted E cur prev t) fun r => AllFin r.out ∧ (PhasesOk r.cur → (CosAcc m → SinAcc m → StoredBlock r.cur.previousUw) → FinSet r.cur) ∧ EnhOk r.cur ∧ PlanOk r.tls := by
  unfold synthUnmuted
  refine Post.bind (Post.both (noiseOverlap_mag (AllMag.const (Mag.fi0 (m := m) _)) hc.ov) (noiseOverlap_frame _ _ _ _)) fun nr hnr => ?_
  obtain ⟨⟨nb, no⟩, nt⟩ := hnr
  refine Post.bind (countUv_le hL.2 _) fun nuv hnuv => ?_
  refine Post.bind (P := fun q : Parms (IEEE m) × Parms (IEEE m) × Int =>
    q.1 = { cur with noiseSeed := nr.seed, noiseOverlap := nr.overlap, Ml := q.1.Ml, Vl := q.1.Vl } ∧
    q.2.1 = { prev with Ml := q.2.1.Ml, Vl := q.2.1.Vl } ∧ q.2.2 ≤ 56 ∧ VoiMag q.2.2 q.1 ∧ VoiMag q.2.2 q.2.1 ∧
    (∀ l : Fin 57, (l.val : Int) ≤ cur.L → q.1.Ml l = cur.Ml l ∧ q.1.Vl l = cur.Vl l)) ?_ fun q hq => ?_
  · refine Post.ite (fun c => ?_) fun c => ?_
    · refine Post.bind (Post.both (extendBands_frame _ _ _) (extendBands_mag hpv)) fun p hp' => Post.pure
        ⟨rfl, hp'.1, hL.2, hv.voi, hp'.2, fun l _ => ⟨rfl, rfl⟩⟩
    · have hk : ∀ l : Fin 57, (l.val : Int) ≤ cur.L → Post (extendBands cur.L prev.L { cur with noiseSeed := nr.seed, noiseOverlap := nr.overlap })
          fun q => q.Ml l = cur.Ml l ∧ q.Vl l = cur.Vl l := fun l hl => by
        unfold extendBands
        refine loop_post' (fun q : Parms (IEEE m) => q.Ml l = cur.Ml l ∧ q.Vl l = cur.Vl l) ⟨rfl, rfl⟩ fun i q hq => ?_
        refine Post.bind Arr.wr_post fun M hM => Post.bind Arr.wr_post fun V hV => Post.pure ?_
        dsimp only at hV ⊢
        rw [hM.2.2, hV.2.2, Arr.set_ne (by omega), Arr.set_ne (by omega)]
        exact hq
      intro r hr
      obtain ⟨c', hc', hr⟩ := bind_ok hr
      have := ok_inj hr
      subst this
      have f1 := extendBands_frame _ _ _ c' hc'
      have f2 : VoiMag prev.L c' := extendBands_mag (p := { cur with noiseSeed := nr.seed, noiseOverlap := nr.overlap }) hv.voi c' hc'
      exact ⟨f1, rfl, hpL.2, f2, hpv, fun l hl => hk l hl c' hc'⟩
  obtain ⟨c, p, ml⟩ := q
  dsimp only at hq ⊢
  obtain ⟨q1, q2, q3, q4, q5, q6⟩ := hq
  have cL : c.L = cur.L := by rw [q1]
  refine Post.bind (Post.both (phaseUpdate_frame _ _ _ _ _ _) (phaseUpdate_mag nb hnuv hc.w hp.w (by rw [cL]; exact hL)
    (by rw [q1]; exact hc.psi) (by rw [q1]; exact hc.phi) (by rw [q2]; exact hp.psi))) fun q hq => ?_
  obtain ⟨c', p'⟩ := q
  dsimp only at hq ⊢
  obtain ⟨⟨r1, r2⟩, s1, s2, s3⟩ := hq
  have v1 : VoiMag ml c' := by rw [r1]; exact q4
  have v2 : VoiMag ml p' := by rw [r2]; exact q5
  have p2 : AllMag 16 p'.PHIl := by rw [r2, q2]; exact hp.phi
  refine Post.bind (voicedLoop_mag hm q3 hc.w hp.w s2 p2 v1 v2) fun out hout => ?_
  refine Post.bind (getPlan_planOk (E := E) (t := nr.tls) (ht.of_eq (by rw [nt]))) fun q hq => ?_
  obtain ⟨pl, t'⟩ := q
  dsimp only at hq ⊢
  obtain ⟨hq, hpl⟩ := hq
  have e1 : c'.L = cur.L := by rw [r1]; exact cL
  have e2 : c'.w0 = cur.w0 := by rw [r1, q1]
  have e3 : ∀ l : Fin 57, (l.val : Int) ≤ cur.L → c'.Ml l = cur.Ml l ∧ c'.Vl l = cur.Vl l := by rw [r1]; exact q6
  have hEnh : EnhOk c' := by
    rcases hv with h | ⟨h0, h⟩
    · refine .inl fun l h1 h2 => ?_
      rw [e1] at h2
      rw [(e3 l h2).1]
      exact h l h1 h2
    · refine .inr ⟨by rw [e2]; exact h0, fun l h1 h2 => ?_⟩
      rw [e1] at h2
      rw [(e3 l h2).1, (e3 l h2).2]
      exact h l h1 h2
  have hov : AllMag 16 c'.noiseOverlap := by rw [r1, q1]; exact no
  have het : c'.errorCountTotal ≤ 20 := by rw [r1, q1]; exact hc.et
  cases pl with
  | some P =>
    have hP := hq P rfl
    subst hP
    have pu : AllMag 93 p'.previousUw := by rw [r2, q2]; exact hp.uw
    refine Post.bind (unvoiced_mag (runs_fftBnd hm hE) nb hEnh.unv (by rw [e1]; exact hL.2) pu hout) fun r hr => ?_
    rw [clipBuffer_eq, ok_bind]
    refine Post.pure ⟨fun i => clip_fin (hr.1 i), fun ho hb => ⟨by rw [show _ = c'.w0 from rfl, e2]; exact hc.wo, ho, s1, s2, hr.2, hb, hov, het⟩, hEnh, hpl⟩
  | none =>
    rw [clipBuffer_eq, ok_bind]
    have : AllMag 93 c'.previousUw := by rw [r1, q1]; exact hc.uw
    exact Post.pure ⟨fun i => clip_fin (hout i), fun ho hb => ⟨by rw [e2]; exact hc.wo, ho, s1, s2, this, hb, hov, het⟩, hEnh, hpl⟩

theorem synthUnmuted_fin (hm : TrigAcc m) {E : Env (IEEE m)} (hE : Runs E) {cur prev : Parms (IEEE m)} {t : Tls (IEEE m)} (hc : FinSet cur)
    (hv : EnhOk cur) (hL : 9 ≤ cur.L ∧ cur.L ≤ 56) (hp : FinSet prev) (hpv : VoiMag prev.L prev) (hpL : 9 ≤ prev.L ∧ prev.L ≤ 56)
    (ht : PlanOk t) : Post (synthUnmuted E cur prev t) fun r => Voice E r.out ∧ FinSet r.cur ∧ EnhOk r.cur ∧ PlanOk r.tls := by
  intro r h
  obtain ⟨h1, h2, h3, h4⟩ := synthUnmuted_fin0 hm hE hc hv hL hp hpv hpL ht r h
  have ho := hc.ordinary hv.voi
  have hq := hp.ordinary hpv
  have hu := hv.bnd
  have hb : CosAcc m → SinAcc m → StoredBlock r.cur.previousUw := fun hcos hsin => by
    obtain ⟨nr, b1, b2, b3⟩ := synthUnmuted_block hcos hsin hE hL.2 hpL.2 (by omega) ho.w0 ho.noise r h
    by_cases c : r.tls.plan = none
    · rw [b2 c]
      exact hc.blk hcos hsin
    · exact .inr ⟨E, cur, prev, t, r, nr, h, b1, rfl, hu, fun A a0 a1 a2 => b3 c A a0 a1 a2⟩
  have hf := h2 (synthUnmuted_near hm ho hq hp.ph hL hpL ht r h).2.2.2.1 hb
  exact ⟨⟨h1, .inl ⟨cur, prev, t, r, h, rfl, ho, hq, hp.ph, hL, hpL, ht, hp.uw, hf.uw, hu, hp.blk, hE⟩⟩, hf, h3, h4⟩

theorem comfort_fin (buf : Arr 160 (IEEE m)) (t : Tls (IEEE m)) : Post (comfortNoisef buf t) fun r => AllFin r.1 := by
  refine (Props.comfortNoisef_bnd buf t).mono fun r hr i => ?_
  obtain ⟨v, hv, e⟩ := hr i
  rw [e]
  exact ⟨_, comfortSample_val hv⟩

theorem comfort_made (E : Env (IEEE m)) (buf : Arr 160 (IEEE m)) (t : Tls (IEEE m)) : Post (comfortNoisef buf t) fun r => Voice E r.1 :=
  fun r hr => ⟨comfort_fin buf t r hr, .inr ⟨buf, t, r, hr, rfl⟩⟩

/-- From bounded parameter sets the synthesis delivers numbers, and its parameter set is bounded again. -/
theorem synthesize_fin (hm : TrigAcc m) {E : Env (IEEE m)} (hE : Runs E) {addr : Nat} {out : Arr 160 (IEEE m)} {cur prev : Parms (IEEE m)}
    {t : Tls (IEEE m)} {uvq : Int} (hc : FinSet cur) (hv : EnhOk cur) (hL : 9 ≤ cur.L ∧ cur.L ≤ 56) (hp : FinSet prev) (hpv : EnhOk prev)
    (hpL : 9 ≤ prev.L ∧ prev.L ≤ 56) (ht : PlanOk t) :
    Post (synthesizeSpeechf E addr out cur prev t uvq) fun r => Voice E r.out ∧ FinSet r.cur ∧ EnhOk r.cur ∧ PlanOk r.tls := by
  unfold synthesizeSpeechf
  refine Post.bind (Post.both (applySmoothing_frame _ _ _ _) (applySmoothing_fin hv hc.et (by omega) hL.2)) fun q hq => ?_
  obtain ⟨c, t'⟩ := q
  dsimp only at hq ⊢
  obtain ⟨⟨f1, f2⟩, f3⟩ := hq
  have hc' : FinSet c := by rw [f1]; exact hc.congr rfl rfl rfl rfl rfl hc.et
  split
  · refine Post.bind (Post.both (comfort_made E _ _) (comfortNoisef_frame _ _)) fun r hr => Post.pure ⟨hr.1, hc', f3, ?_⟩
    refine ht.of_eq ?_
    show r.2.plan = _
    rw [hr.2, f2]
  · refine synthUnmuted_fin hm hE hc' f3 (by rw [f1]; exact hL) hp hpv.voi hpL (ht.of_eq (by rw [f2]))

end Verif.Model
