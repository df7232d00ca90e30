import Verif.Spec.SimdHist
import Verif.Spec.FftVec
import Verif.Lemmas.FinHist
import Verif.Lemmas.EnhSimdSum
import Verif.Lemmas.VoicedSimd
import Verif.Lemmas.UnvoicedSimd
import Verif.Props.VoicedAcc

/-!
# Finite samples of the vector build: one frame
-/

namespace Verif.Model
open Verif Verif.Gen Verif.Spec Verif.Num Arith
variable {m : Libm}

/-! ## The erasure model -/

theorem rm01Simd_unit (isa : Isa) {Ml : Arr 57 (IEEE m)} {ct : Loc 57 (IEEE m)}
    (h : ∀ l : Fin 57, 1 ≤ l.val → (l.val : Int) ≤ 9 → Val (Ml l) ((1 : Int) : ℚ))
    (hct : ∀ l : Fin 57, 1 ≤ l.val → (l.val : Int) ≤ 9 → ∃ c : IEEE m, ct l = some c ∧ Val c ((1 : Int) : ℚ)) :
    Post (rm01Simd isa 9 Ml ct) fun s => Val s.1 ((9 : Int) : ℚ) ∧ Val s.2 ((9 : Int) : ℚ) := by
  have h0c : Val (lit 0 1 : IEEE m) ((0 : Int) : ℚ) := ⟨false, by simp; rfl⟩
  unfold rm01Simd
  rw [if_pos (by decide)]
  dsimp only
  refine Post.bind (P := fun s : V4 (IEEE m) × V4 (IEEE m) =>
    (Val s.1.a ((2 : Int) : ℚ) ∧ Val s.1.b ((2 : Int) : ℚ) ∧ Val s.1.c ((2 : Int) : ℚ) ∧ Val s.1.d ((2 : Int) : ℚ)) ∧
    Val s.2.a ((2 : Int) : ℚ) ∧ Val s.2.b ((2 : Int) : ℚ) ∧ Val s.2.c ((2 : Int) : ℚ) ∧ Val s.2.d ((2 : Int) : ℚ)) ?_ fun s hs => ?_
  · refine loop_post (n := 2) (fun k (s : V4 (IEEE m) × V4 (IEEE m)) =>
      (Val s.1.a ((k : Int) : ℚ) ∧ Val s.1.b ((k : Int) : ℚ) ∧ Val s.1.c ((k : Int) : ℚ) ∧ Val s.1.d ((k : Int) : ℚ)) ∧
      Val s.2.a ((k : Int) : ℚ) ∧ Val s.2.b ((k : Int) : ℚ) ∧ Val s.2.c ((k : Int) : ℚ) ∧ Val s.2.d ((k : Int) : ℚ))
      ⟨⟨h0c, h0c, h0c, h0c⟩, h0c, h0c, h0c, h0c⟩ ?_
    rintro k hk s ⟨⟨a1, a2, a3, a4⟩, b1, b2, b3, b4⟩
    have L9 : ∀ j, j < 4 → ((1 + 4 * k + j : Nat) : Int) ≤ 9 := fun j hj => by omega
    have T : ∀ j, (hj : j < 4) → ∃ c : IEEE m, ct ⟨1 + 4 * k + j, by omega⟩ = some c ∧
        (∀ x : IEEE m, Val x ((k : Int) : ℚ) → Val (x +ᶠ (Ml ⟨1 + 4 * k + j, by omega⟩ *ᶠ Ml ⟨1 + 4 * k + j, by omega⟩) : IEEE m) (((k + 1 : Nat) : Int) : ℚ)) ∧
        ∀ x : IEEE m, Val x ((k : Int) : ℚ) →
          Val (x +ᶠ ((Ml ⟨1 + 4 * k + j, by omega⟩ *ᶠ Ml ⟨1 + 4 * k + j, by omega⟩) *ᶠ c) : IEEE m) (((k + 1 : Nat) : Int) : ℚ) := fun j hj => by
      obtain ⟨c, e1, e2⟩ := hct ⟨1 + 4 * k + j, by omega⟩ (by dsimp only; omega) (L9 j hj)
      have z := h ⟨1 + 4 * k + j, by omega⟩ (by dsimp only; omega) (L9 j hj)
      have z2 := Val.mulI z z (by norm_num)
      have z3 := Val.mulI z2 e2 (by norm_num)
      refine ⟨c, e1, fun x hx => ?_, fun x hx => ?_⟩
      · have := Val.addI hx z2 (by rw [abs_of_nonneg (by omega)]; omega)
        simpa using this
      · have := Val.addI hx z3 (by rw [abs_of_nonneg (by omega)]; omega)
        simpa using this
    obtain ⟨c0, e0, f0, g0⟩ := T 0 (by decide)
    obtain ⟨c1, e1, f1, g1⟩ := T 1 (by decide)
    obtain ⟨c2, e2, f2, g2⟩ := T 2 (by decide)
    obtain ⟨c3, e3, f3, g3⟩ := T 3 (by decide)
    rw [rd4_nat Ml (show 1 + 4 * k + 3 < 57 by omega), ok_bind, locRd4_nat ct (show 1 + 4 * k + 3 < 57 by omega) e0 e1 e2 e3, ok_bind]
    exact Post.pure ⟨⟨f0 _ a1, f1 _ a2, f2 _ a3, f3 _ a4⟩, g0 _ b1, g1 _ b2, g2 _ b3, g3 _ b4⟩
  · obtain ⟨⟨a1, a2, a3, a4⟩, b1, b2, b3, b4⟩ := hs
    have H : ∀ v : V4 (IEEE m), Val v.a ((2 : Int) : ℚ) → Val v.b ((2 : Int) : ℚ) → Val v.c ((2 : Int) : ℚ) → Val v.d ((2 : Int) : ℚ) →
        Val (hsum (F := IEEE m) isa v) ((8 : Int) : ℚ) := by
      intro v h1 h2 h3 h4
      cases isa
      · exact Val.addI (Val.addI h1 h2 (by norm_num)) (Val.addI h3 h4 (by norm_num)) (by norm_num)
      · exact Val.addI (Val.addI h1 h3 (by norm_num)) (Val.addI h2 h4 (by norm_num)) (by norm_num)
    refine loopFT_post (lo := 9) (hi := 9) (s := (hsum isa s.1, hsum isa s.2)) (fun i (s : IEEE m × IEEE m) => Val s.1 (((i : Int) - 1 : Int) : ℚ) ∧ Val s.2 (((i : Int) - 1 : Int) : ℚ)) (by decide)
      ⟨by simpa using H _ a1 a2 a3 a4, by simpa using H _ b1 b2 b3 b4⟩ fun i i1 i2 s hs => ?_
    obtain ⟨c, e1, e2⟩ := hct ⟨i, by omega⟩ (by dsimp only; omega) (by dsimp only; omega)
    have z := h ⟨i, by omega⟩ (by dsimp only; omega) (by dsimp only; omega)
    rw [Arr.rd_nat (show i < 57 by omega), ok_bind, Loc.rd_nat (show i < 57 by omega) e1, ok_bind]
    have z2 := Val.mulI z z (by norm_num)
    have z3 := Val.mulI z2 e2 (by norm_num)
    have a := Val.addI hs.1 z2 (by rw [abs_of_nonneg (by omega)]; omega)
    have b := Val.addI hs.2 z3 (by rw [abs_of_nonneg (by omega)]; omega)
    have e : ((i + 1 : Nat) : Int) - 1 = (i : Int) - 1 + 1 * 1 := by push_cast; ring
    have e' : ((i + 1 : Nat) : Int) - 1 = (i : Int) - 1 + 1 * 1 * 1 := by push_cast; ring
    exact Post.pure ⟨by rw [e]; exact a, by rw [e']; exact b⟩

theorem enhSumSimd_nan (isa : Isa) {Ml : Arr 57 (IEEE m)} (h : Ml 9 = (qnan : IEEE m)) : Post (enhSumSimd isa 9 Ml) fun s => s = (qnan : IEEE m) := by
  unfold enhSumSimd
  rw [if_pos (by decide)]
  dsimp only
  refine Post.bind Post.true fun s _ => ?_
  refine (loopFT_post (lo := 9) (hi := 9) (fun i (s : IEEE m) => i = 9 ∨ s = (qnan : IEEE m)) (by decide) (.inl rfl) fun i i1 i2 s _ => ?_).mono fun s hs => ?_
  · obtain rfl : i = 9 := by omega
    rw [Arr.rd_nat (show 9 < 57 by decide), ok_bind, show Ml ⟨9, by decide⟩ = (qnan : IEEE m) from h, qnan_lt, if_neg (by simp), qnan_mul, qadd_nan]
    exact Post.pure (.inr rfl)
  · rcases hs with hs | hs
    · omega
    · exact hs

/-- As `enhance_erase`, for the nine bands that an erasure leaves. -/
theorem enhanceSimd_erase (hm : TrigAcc m) (isa : Isa) {addr : Nat} {cur : Parms (IEEE m)} {t : Tls (IEEE m)} (hw : Val cur.w0 0) (h9 : cur.L = 9)
    (h : ∀ l : Fin 57, 1 ≤ l.val → (l.val : Int) ≤ 9 → Val (cur.Ml l) 1) :
    Post (spectralAmpEnhanceSimd isa addr cur t) fun r => ∀ l : Fin 57, 1 ≤ l.val → (l.val : Int) ≤ 9 → r.1.Ml l = (qnan : IEEE m) := by
  have h0c : Val (lit 0 1 : IEEE m) 0 := ⟨false, rfl⟩
  rw [spectralAmpEnhanceSimd_with isa addr cur t (by omega)]
  unfold enhanceWith
  rw [h9]
  refine Post.bind (Ok.post (cosTab_zero hm hw (by decide))) fun ct hct => ?_
  refine Post.bind (rm01Simd_unit isa (fun l l1 l2 => by simpa using h l l1 l2) hct) fun r hr => ?_
  obtain ⟨c, hc1, hc2⟩ := hct 9 (by decide) (by decide)
  refine Post.bind (enhWeights_nan' (k := 9) hc1 (enhWeight_zero (by decide) (by decide) hw hr.1 hr.2 hc2) (by decide) (by decide) (by decide) ?_)
    fun M hM => ?_
  · rw [(h 9 (by decide) (by decide)).eq h0c]
    simp
  refine Post.bind (enhSumSimd_nan isa hM) fun s hs => ?_
  rw [hs, enhScale_eq (by decide), ok_bind]
  refine Post.pure fun l h1 h2 => ?_
  dsimp only
  rw [if_pos ⟨h1, h2⟩]
  unfold enhGamma
  rw [qnan_eq, if_neg (by simp), qdiv_nan, qsqrt_nan, qnan_mul]

/-! ## Parameter sets -/

/-- As `FinSet`. -/
structure VecSet (isa : Isa) (p : Parms (IEEE m)) : Prop where
  wo : ∃ q : ℚ, Val p.w0 q ∧ (q = 0 ∨ 1 / 64 ≤ q) ∧ q ≤ 5 / 8
  ph : PhasesOk p
  blk : StoredBlockSimd isa p.previousUw
  ov : AllMag 16 p.noiseOverlap
  et : p.errorCountTotal ≤ 20

variable {isa : Isa}

theorem VecSet.congr {p q : Parms (IEEE m)} (h : VecSet isa p) (e1 : q.w0 = p.w0) (e2 : q.PSIl = p.PSIl) (e3 : q.PHIl = p.PHIl)
    (e4 : q.previousUw = p.previousUw) (e5 : q.noiseOverlap = p.noiseOverlap) (e6 : q.errorCountTotal ≤ 20) : VecSet isa q :=
  ⟨e1 ▸ h.wo, fun l hl => ⟨by rw [e3]; exact (h.ph l hl).1, by rw [e2]; exact (h.ph l hl).2⟩, e4 ▸ h.blk, e5 ▸ h.ov, e6⟩

theorem VecSet.ordinary {p : Parms (IEEE m)} (h : VecSet isa p) (hv : VoiMag p.L p) : OrdinarySet p :=
  ⟨h.wo, fun l h1 h2 h3 => (hv l h1 h2 h3).mono (by rw [pow2_eq]; norm_num), fun i => (h.ov i).mono (by rw [pow2_eq]; norm_num)⟩

theorem storedSimd_bnd {u : Arr 256 (IEEE m)} (h : StoredBlockSimd isa u) (i : Fin 256) : Bnd (u i) (148 * 2 ^ 32 + 1 / 2 ^ 78) := by
  rcases h with h | ⟨_, _, _, _, _, _, _, _, _, h1, h2⟩
  · exact ⟨0, h i, by norm_num⟩
  · exact (h2 (2 ^ 32) (by norm_num) le_rfl h1).1 i

/-- As `Voice`. -/
def VoiceV (isa : Isa) (E : Env (IEEE m)) (out : Arr 160 (IEEE m)) : Prop :=
  AllFin out ∧ (HeardSimd isa E out ∨ ∃ buf t r, comfortNoisef (F := IEEE m) buf t = .ok r ∧ out = r.1)

/-- As `Made`. -/
def MadeV (isa : Isa) (E : Env (IEEE m)) (out : Arr 160 (IEEE m)) : Prop :=
  VoiceV isa E out ∨ AllFin out ∧ ∃ buf d cur r, synthesizeTonef (F := IEEE m) buf d cur = .ok r ∧ out = r.1

theorem MadeV.fin {E : Env (IEEE m)} {out : Arr 160 (IEEE m)} (h : MadeV isa E out) : AllFin out := by
  rcases h with h | h <;> exact h.1

theorem VoiceV.made {E : Env (IEEE m)} {out : Arr 160 (IEEE m)} {P : Prop} (h : VoiceV isa E out ∧ P) : MadeV isa E out ∧ P := ⟨.inl h.1, h.2⟩

theorem synthSimd_vec (hm : TrigAcc m) (hcos : CosAcc m) (hsin : SinAcc m) {E : Env (IEEE m)} (hE : RunsV E) {cur prev : Parms (IEEE m)} {t : Tls (IEEE m)}
    (hc : VecSet isa cur) (hv : EnhOk cur) (hL : 9 ≤ cur.L ∧ cur.L ≤ 56) (hp : VecSet isa prev) (hpv : VoiMag prev.L prev)
    (hpL : 9 ≤ prev.L ∧ prev.L ≤ 56) (ht : PlanOk t) :
    Post (synthUnmutedSimd isa E cur prev t) fun r => VoiceV isa E r.out ∧ VecSet isa r.cur ∧ EnhOk r.cur ∧ PlanOk r.tls := by
  intro r h
  have ho := hc.ordinary hv.voi
  have hq := hp.ordinary hpv
  have hu := hv.bnd
  have hplan := synthUnmutedSimd_plan isa E cur prev ht r h
  have hfr := synthUnmutedSimd_frame isa E cur prev t r h
  have h' := h
  rw [synthUnmutedSimd_with] at h'
  obtain ⟨x, hx⟩ := synthWith_near hm ho hq hp.ph hL hpL ht
  obtain ⟨hF, hS⟩ := hx (oscSimd_near hm) (overlaps_simd isa E) r h'
  obtain ⟨nr, b1, b2, b3⟩ := synthWith_block (fun a b c _ d e f => unvoicedSimd_shape hcos hsin isa hE a b c d e f) hL.2 hpL.2 (by omega) ho.w0 ho.noise r h'
  have hblk : StoredBlockSimd isa r.cur.previousUw := by
    by_cases c : r.tls.plan = none
    · rw [b2 c]
      exact hc.blk
    · exact .inr ⟨E, cur, prev, t, r, nr, h, b1, rfl, hu, fun A a0 a1 a2 => b3 c A a0 a1 a2⟩
  have hF0 := hF
  obtain ⟨⟨f1, f2, f3, f4⟩, _, ⟨nr', _, _, n2, n3, _⟩, f5, _, _⟩ := hF0
  have e3 : ∀ l : Fin 57, (l.val : Int) ≤ cur.L → r.cur.Ml l = cur.Ml l ∧ r.cur.Vl l = cur.Vl l := fun l hl => by
    rw [f3, f4]
    exact ⟨if_neg (by omega), if_neg (by omega)⟩
  have hEnh : EnhOk r.cur := by
    rcases hv with h | ⟨h0, h⟩
    · refine .inl fun l h1 h2 => ?_
      rw [f1] at h2
      rw [(e3 l h2).1]
      exact h l h1 h2
    · refine .inr ⟨by rw [f2]; exact h0, fun l h1 h2 => ?_⟩
      rw [f1] at h2
      rw [(e3 l h2).1, (e3 l h2).2]
      exact h l h1 h2
  have hset : VecSet isa r.cur := ⟨by rw [f2]; exact hc.wo, f5, hblk, by rw [n2]; exact n3, by rw [hfr.1]; exact hc.et⟩
  refine ⟨⟨?_, .inl ⟨cur, prev, t, r, nr, h, rfl, hL, hpL, b1, hp.blk, hu, fun A a0 a1 a2 => ⟨fun c => b3 c A a0 a1 a2, fun hb => ⟨x, ?_⟩⟩⟩⟩, hset, hEnh, hplan⟩
  · obtain ⟨_, _, k⟩ := Props.frame_of hF hS (U := 148 * 2 ^ 32 + 1 / 2 ^ 78) (by norm_num) (by norm_num) fun _ i => ⟨storedSimd_bnd hp.blk i, storedSimd_bnd hblk i⟩
    intro i
    obtain ⟨v, vv, _⟩ := k i
    exact ⟨v, vv⟩
  · have a0' : (0 : ℝ) ≤ A := by exact_mod_cast a0
    obtain ⟨x1, x2, x3⟩ := Props.frame_of hF hS (U := 148 * A + 1 / 2 ^ 78) (by positivity) (by norm_num at a1 ⊢; linarith)
      fun c i => ⟨hb i, (b3 c A a0 a1 a2).1 i⟩
    refine ⟨x1, x2, fun n => ?_⟩
    obtain ⟨v, vv, hv⟩ := x3 n
    refine ⟨v, vv, hv.trans ?_⟩
    push_cast
    norm_num
    linarith

theorem comfort_vec (isa : Isa) (E : Env (IEEE m)) (buf : Arr 160 (IEEE m)) (t : Tls (IEEE m)) : Post (comfortNoisef buf t) fun r => VoiceV isa E r.1 :=
  fun r hr => ⟨comfort_fin buf t r hr, .inr ⟨buf, t, r, hr, rfl⟩⟩

theorem synthesizeSimd_vec (hm : TrigAcc m) (hcos : CosAcc m) (hsin : SinAcc m) {E : Env (IEEE m)} (hE : RunsV E) {addr : Nat} {out : Arr 160 (IEEE m)}
    {cur prev : Parms (IEEE m)} {t : Tls (IEEE m)} {uvq : Int} (hc : VecSet isa cur) (hv : EnhOk cur) (hL : 9 ≤ cur.L ∧ cur.L ≤ 56) (hp : VecSet isa prev)
    (hpv : EnhOk prev) (hpL : 9 ≤ prev.L ∧ prev.L ≤ 56) (ht : PlanOk t) :
    Post (synthesizeSpeechfSimd isa E addr out cur prev t uvq) fun r => VoiceV isa E r.out ∧ VecSet isa r.cur ∧ EnhOk r.cur ∧ PlanOk r.tls := by
  unfold synthesizeSpeechfSimd
  refine Post.bind (Post.both (applySmoothing_frame _ _ _ _) (applySmoothing_fin hv hc.et (by omega) hL.2)) fun q hq => ?_
  obtain ⟨c, t'⟩ := q
  dsimp only at hq ⊢
  obtain ⟨⟨f1, f2⟩, f3⟩ := hq
  have hc' : VecSet isa c := by rw [f1]; exact hc.congr rfl rfl rfl rfl rfl hc.et
  split
  · refine Post.bind (Post.both (comfort_vec isa E _ _) (comfortNoisef_frame _ _)) fun r hr => Post.pure ⟨hr.1, hc', f3, ?_⟩
    refine ht.of_eq ?_
    show r.2.plan = _
    rw [hr.2, f2]
  · refine synthSimd_vec hm hcos hsin hE hc' f3 (by rw [f1]; exact hL) hp hpv.voi hpL (ht.of_eq (by rw [f2]))

/-! ## Enhancement and synthesis -/

/-- As `Spk`. -/
def VSpk (p : Parms (IEEE m)) : Prop :=
  Pitch p.w0 p.L ∨ (Val p.w0 0 ∧ p.L = 9 ∧ ∀ l : Fin 57, 1 ≤ l.val → (l.val : Int) ≤ p.L → Val (p.Ml l) 1 ∧ p.Vl l = 0)

/-- As `FinSt`. -/
structure VecSt (isa : Isa) (s : St (IEEE m)) : Prop where
  cur : VecSet isa s.cur
  prev : VecSet isa s.prev
  enh : VecSet isa s.enh
  amps : EnhOk s.enh
  spk : VSpk s.prev
  plan : PlanOk s.tls

theorem speakSimd_vec (hm : TrigAcc m) (hcos : CosAcc m) (hsin : SinAcc m) {E : Env (IEEE m)} (hE : RunsV E) {C : Call (IEEE m)} {s : St (IEEE m)}
    (hc : VecSet isa s.cur) (hs : VSpk s.cur) (hL : 9 ≤ s.cur.L ∧ s.cur.L ≤ 56) (he : VecSet isa s.enh) (hv : EnhOk s.enh)
    (heL : 9 ≤ s.enh.L ∧ s.enh.L ≤ 56) (ht : PlanOk s.tls) (ha : AmpsOk s.cur) :
    Post (speakSimd isa E C s) fun o => VoiceV isa E o.1 ∧ VecSt isa o.2 := by
  unfold speakSimd
  refine Post.bind (P := fun r : Parms (IEEE m) × Tls (IEEE m) => (r.1 = { s.cur with Ml := r.1.Ml } ∧ r.2.plan = s.tls.plan) ∧ EnhOk r.1) ?_ fun q hq => ?_
  · refine Post.both ((spectralAmpEnhanceSimd_frame _ _ _ _).mono fun r hr => ⟨hr.1, by rw [hr.2]⟩) ?_
    rcases hs with hp | ⟨h0, h9, h1⟩
    · obtain ⟨w, v, w1, w2, hp⟩ := hp
      rw [spectralAmpEnhanceSimd_with isa _ _ _ hL.2]
      refine (enhanceWith_fin (sumsNear_simd isa).toSumsVal hm v w1 (by linarith) hp (by omega) hL.2 ha).mono fun r hr => ?_
      obtain ⟨a, h, _⟩ := hr
      refine .inl fun l l1 l2 => ⟨_, (h l l1 l2).1, (h l l1 l2).2.1, (h l l1 l2).2.2.trans (by rw [pow2_eq]; norm_num)⟩
    · refine (Post.both (spectralAmpEnhanceSimd_frame _ _ _ _) (enhanceSimd_erase hm isa h0 h9 fun l l1 l2 => (h1 l l1 (by omega)).1)).mono fun r hr => ?_
      obtain ⟨⟨f, _⟩, h⟩ := hr
      have e1 : r.1.L = s.cur.L := by rw [f]
      have e2 : r.1.w0 = s.cur.w0 := by rw [f]
      have e3 : r.1.Vl = s.cur.Vl := by rw [f]
      refine .inr ⟨e2 ▸ h0, fun l l1 l2 => ⟨h l l1 (by omega), ?_⟩⟩
      rw [e3]
      exact (h1 l l1 (e1 ▸ l2)).2
  obtain ⟨c, t⟩ := q
  dsimp only at hq ⊢
  obtain ⟨⟨f, g⟩, hv'⟩ := hq
  have hc' : VecSet isa c := by rw [f]; exact hc.congr rfl rfl rfl rfl rfl hc.et
  refine Post.bind (synthesizeSimd_vec hm hcos hsin hE hc' hv' (by rw [f]; exact hL) he hv heL (ht.of_eq g)) fun r hr => Post.pure ?_
  exact ⟨hr.1, hr.2.1, hc, hr.2.1, hr.2.2.1, hs, hr.2.2.2⟩

end Verif.Model
