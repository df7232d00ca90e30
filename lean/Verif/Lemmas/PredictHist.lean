import Verif.Lemmas.Contract
import Verif.Lemmas.Steps
import Verif.Spec.History

/-!
# Log amplitudes along a history, in exact arithmetic
-/

set_option linter.unusedSectionVars false

namespace Verif.Model
open Verif Verif.Gen Verif.Spec Arith

theorem cacheBnd_imbe {E : Env ℝ} {t : Tls ℝ} (h : CacheOk E t) : CacheBnd (imbeGetCache t).1 := by
  have : (imbeGetCache t).1 = fillCache 7 11 := by
    unfold imbeGetCache
    cases h1 : t.imbeCache with
    | some c => exact h.1 c h1
    | none => rfl
  rw [this]; exact fillCache_bnd _ _

theorem cacheBnd_ambe2450 {E : Env ℝ} {t : Tls ℝ} (h : CacheOk E t) : CacheBnd (ambe2450GetCache t).1 := by
  have : (ambe2450GetCache t).1 = fillCache 9 18 := by
    unfold ambe2450GetCache
    cases h1 : t.ambe2450Cache with
    | some c => exact h.2.1 c h1
    | none => rfl
  rw [this]; exact fillCache_bnd _ _

theorem cacheBnd_ambe2400 {E : Env ℝ} {t : Tls ℝ} (h : CacheOk E t) : CacheBnd (ambe2400GetCache t).1 := by
  have : (ambe2400GetCache t).1 = fillCache 9 18 := by
    unfold ambe2400GetCache
    cases h1 : t.ambe2400Cache with
    | some c => exact h.2.2.1 c h1
    | none => rfl
  rw [this]; exact fillCache_bnd _ _

/-! ## IMBE -/

theorem extendPrev_zero {L : Int} {prev : Parms ℝ} (h : 0 ≤ prev.L) :
    Post (extendPrev L prev) fun q => q.log2Ml 0 = prev.log2Ml 0 := by
  unfold extendPrev
  refine Post.ite (fun _ => ?_) (fun _ => Post.pure rfl)
  refine (loop_post' (fun q => q.log2Ml 0 = prev.log2Ml 0 ∧ q.L = prev.L) ⟨rfl, rfl⟩ fun i p hp => ?_).mono fun _ h => h.1
  refine Post.bind Post.true fun _ _ => Post.bind Post.true fun M hM => Post.bind Post.true fun _ _ =>
    Post.bind Arr.wr_post fun G hG => Post.pure ⟨?_, hp.2⟩
  obtain ⟨_, _, rfl⟩ := hG
  have := hp.2
  have hne : (0 : Fin 57).val ≠ (p.L + 1 + i).toNat := by show 0 ≠ _; omega
  dsimp only
  rw [Arr.set_ne hne]
  exact hp.1

/-- What an accepted IMBE frame leaves behind. -/
structure ImbeVoiceR (lax : Bool) (c : Prop) (z : ℝ) (r : DecodeRes ℝ) : Prop where
  L_lo : 9 ≤ r.cur.L
  L_hi : r.cur.L ≤ 56
  form : ∃ Tl : Arr 57 ℝ, (∀ l : Fin 57, 1 ≤ l.val → l.val ≤ r.cur.L.toNat → r.cur.log2Ml l =
        Tl l + imbeRho r.cur.L * predQ lax r.cur.L r.prev l -
          imbeRho r.cur.L / r.cur.L * (∑ k ∈ Finset.Icc 1 r.cur.L.toNat, predQ lax r.cur.L r.prev k)) ∧
      (c → ∀ l, |Tl l| ≤ 37.12)
  zero_cur : r.cur.log2Ml 0 = z

theorem decodeImbe4400_r (lax : Bool) (d : Nat → Int) (cur prev : Parms ℝ) (t : Tls ℝ) :
    Post (decodeImbe4400 lax d cur prev t) fun r =>
      (r.bad = 0 → ImbeVoiceR lax (CacheBnd (imbeGetCache t).1) (cur.log2Ml 0) r) := by
  unfold decodeImbe4400
  refine Post.bind Post.true fun b0 _ => ?_
  refine Post.ite (fun _ => Post.pure fun h => by cases h) fun _ => ?_
  refine Post.bind Post.true fun L _ => ?_
  refine Post.ite (fun _ => Post.pure fun h => by cases h) fun hL => ?_
  refine Post.bind Post.true fun K _ => ?_
  refine (imbeBody_r _ _ _ _ _).mono fun r hr _ => ?_
  obtain ⟨Tl, h1, h2, h3, h4⟩ := hr
  have h3 : r.cur.L = L := h3
  refine ⟨by omega, by omega, ⟨Tl, ?_, h4⟩, ?_⟩
  · rw [h3]; exact fun l a b => (h1 l a b).1
  · exact h2 0 (.inl (by decide))

theorem decodeImbe4400_zero {lax : Bool} {d : Nat → Int} {cur prev : Parms ℝ} {t : Tls ℝ} (h0 : 0 ≤ prev.L) :
    Post (decodeImbe4400 lax d cur prev t) fun r => r.prev.log2Ml 0 = prev.log2Ml 0 := by
  unfold decodeImbe4400
  refine Post.bind Post.true fun b0 _ => ?_
  refine Post.ite (fun _ => Post.pure rfl) fun _ => ?_
  refine Post.bind Post.true fun L _ => ?_
  refine Post.ite (fun _ => Post.pure rfl) fun _ => ?_
  refine Post.bind Post.true fun K _ => ?_
  unfold imbeDecodeBody
  iterate 6 refine Post.bind Post.true fun _ _ => ?_
  refine Post.bind (extendPrev_zero h0) fun p hp => ?_
  refine Post.bind Post.true fun _ _ => ?_
  exact Post.bind Post.true fun c hc => Post.pure hp

/-- Bounds on the log amplitudes of a parameter set: element 0, differences of elements `0 .. L`, bands. -/
structure PSet (A S B : ℝ) (p : Parms ℝ) : Prop where
  lo : 9 ≤ p.L
  hi : p.L ≤ 56
  zero : |p.log2Ml 0| ≤ A
  diff : ∀ i j : Fin 57, (i.val : Int) ≤ p.L → (j.val : Int) ≤ p.L → p.log2Ml i - p.log2Ml j ≤ S
  band : ∀ i : Fin 57, 1 ≤ i.val → (i.val : Int) ≤ p.L → |p.log2Ml i| ≤ B

theorem pset_zero {A S B : ℝ} (hA : 0 ≤ A) (hS : 0 ≤ S) (hB : 0 ≤ B) {p : Parms ℝ} (h1 : 9 ≤ p.L) (h2 : p.L ≤ 56)
    (h : ∀ i, p.log2Ml i = 0) : PSet A S B p :=
  ⟨h1, h2, by rw [h, abs_zero]; exact hA, fun i j _ _ => by rw [h, h, sub_zero]; exact hS,
    fun i _ _ => by rw [h, abs_zero]; exact hB⟩

theorem PSet.of_keep {A S B : ℝ} {p q : Parms ℝ} (h : PSet A S B p) (hL : q.L = p.L) (h0 : q.log2Ml 0 = p.log2Ml 0)
    (hk : ∀ l : Fin 57, 1 ≤ l.val → (l.val : Int) ≤ p.L → q.log2Ml l = p.log2Ml l) : PSet A S B q := by
  have e : ∀ l : Fin 57, (l.val : Int) ≤ p.L → q.log2Ml l = p.log2Ml l := by
    intro l hl
    by_cases c : l.val = 0
    · rw [show l = 0 from Fin.ext c]; exact h0
    · exact hk l (by omega) hl
  refine ⟨by rw [hL]; exact h.lo, by rw [hL]; exact h.hi, by rw [h0]; exact h.zero, fun i j hi hj => ?_, fun i h1 h2 => ?_⟩
  · rw [hL] at hi hj
    rw [e i hi, e j hj]; exact h.diff i j hi hj
  · rw [hL] at h2
    rw [e i h2]; exact h.band i h1 h2

/-- The constants fit together for IMBE frames. -/
structure Fits (A S B : ℝ) : Prop where
  A0 : 0 ≤ A
  S0 : 0 ≤ S
  one : 74.24 + 7 / 10 * S ≤ S
  two : A + (37.12 + 7 / 10 * S) ≤ S
  three : 37.12 + 7 / 10 * S ≤ B

theorem pset_imbe {A S B : ℝ} (F : Fits A S B) {lax : Bool} {z : ℝ} {p : Parms ℝ} {r : DecodeRes ℝ} {c : Prop} (hc : c)
    (h : ImbeVoiceR lax c z r) (hz : |z| ≤ A) (hp : PSet A S B p) (hL : r.prev.L = p.L) (h0 : r.prev.log2Ml 0 = p.log2Ml 0)
    (hk : KeepAmps p r.prev) : PSet A S B r.cur := by
  have hq : PSet A S B r.prev := hp.of_keep hL h0 fun l a b => (hk l a b).2
  obtain ⟨Tl, hf, hT⟩ := h.form
  have hL1 := h.L_lo
  have hL2 := h.L_hi
  obtain ⟨r1, r2⟩ := imbeRho_range hL1
  obtain ⟨k1, k2⟩ := contract (lax := lax) (p := r.prev) (L := r.cur.L) (Tl := fun l => Tl.getD l 0) (B := 37.12)
    (by have := hq.lo; omega) hq.hi (by omega) (fun l => by
      by_cases c : l < 57
      · rw [Arr.getD_lt c]; exact hT hc _
      · unfold Arr.getD; rw [dif_neg c, abs_zero]; norm_num) r1 r2 F.S0 hq.diff
  have e : ∀ l : Fin 57, 1 ≤ l.val → (l.val : Int) ≤ r.cur.L → r.cur.log2Ml l =
      (fun l => Tl.getD l 0) l.val + imbeRho r.cur.L * predQ lax r.cur.L r.prev l -
          imbeRho r.cur.L / r.cur.L * (∑ k ∈ Finset.Icc 1 r.cur.L.toNat, predQ lax r.cur.L r.prev k) := by
    intro l a b
    rw [hf l a (by omega)]
    dsimp only
    rw [Arr.getD_lt l.isLt]
  have hb : ∀ l : Fin 57, 1 ≤ l.val → (l.val : Int) ≤ r.cur.L → |r.cur.log2Ml l| ≤ 37.12 + 7 / 10 * S := by
    intro l a b
    rw [e l a b]
    exact k2 l b
  have hz' : |r.cur.log2Ml 0| ≤ A := by rw [h.zero_cur]; exact hz
  have F2 := F.two
  have F3 := F.three
  have F1 := F.one
  refine ⟨hL1, hL2, hz', fun i j hi hj => ?_, fun l a b => (hb l a b).trans F3⟩
  by_cases ci : i.val = 0
  · have ci : i = 0 := Fin.ext ci
    subst ci
    by_cases cj : j.val = 0
    · have cj : j = 0 := Fin.ext cj
      subst cj
      rw [sub_self]; exact F.S0
    · have a := abs_le.mp hz'
      have b := abs_le.mp (hb j (by omega) hj)
      linarith
  · by_cases cj : j.val = 0
    · have cj : j = 0 := Fin.ext cj
      subst cj
      have a := abs_le.mp hz'
      have b := abs_le.mp (hb i (by omega) hi)
      linarith
    · rw [e i (by omega) hi, e j (by omega) hj]
      have := k1 i j hi hj
      linarith

theorem imbeDefaultL_r : imbeLOfW0 (imbeDefaultW0 : ℝ) = .ok 39 := by
  have h : (imbeDefaultW0 : ℝ) = 4 * Real.pi / ((134 : ℕ) + 79 / 2) := by
    unfold imbeDefaultW0
    rw [RealArith.toF_r, RealArith.ddiv_r, RealArith.dmul_r, RealArith.dadd_r, RealArith.mpi_r, RealArith.dlit_r _ _ (by decide),
      RealArith.dlit_r _ _ (by decide), RealArith.dlit_r _ _ (by decide)]
    push_cast
    norm_num
  rw [imbeLOfW0_r (by norm_num) h]
  rfl

theorem lit0_zero : (lit 0 1 : ℝ) = 0 := lit0_r

/-- One IMBE call. -/
theorem imbeStep_r {A S B : ℝ} (F : Fits A S B) {E : Env ℝ} {C : Call ℝ} {c0 : Option Int} {errs2 : Int} {d : Nat → Int} {s : St ℝ}
    {o : Out ℝ} (h : processImbe4400 E C c0 errs2 d s = .ok o) (hc : CacheOk E s.tls) (h0 : |s.cur.log2Ml 0| ≤ A)
    (hp : PSet A S B s.prev) :
    PSet A S B o.st.prev ∧ |o.st.cur.log2Ml 0| ≤ A ∧
      (o.st.prev.mutingThreshold = mutingImbe ∨
        (o.st.prev.mutingThreshold = s.prev.mutingThreshold ∧ o.st.prev.gamma = s.prev.gamma ∧ o.st.prev.L = s.prev.L ∧
          KeepAmps s.prev o.st.prev ∧ o.st.prev.log2Ml 0 = s.prev.log2Ml 0)) := by
  obtain ⟨r, cur, sp, P⟩ := processImbe4400_parts h
  obtain ⟨hd, hg, hbad⟩ := decodeImbe4400_frame _ _ _ _ _ _ P.decode
  have hk := decodeImbe4400_keep _ _ _ _ _ _ P.decode
  have hz := decodeImbe4400_zero (by have := hp.lo; omega) _ P.decode
  have hv := decodeImbe4400_r _ _ _ _ _ _ P.decode
  have hf := speak_frame E C _ _ P.spoken
  have hprev : o.st.prev = cur := by rw [P.st]; exact hf.prev_eq
  have hcur : o.st.cur.log2Ml = cur.log2Ml := by rw [P.st, hf.cur_eq]
  have hL : r.prev.L = s.prev.L := by rw [hd.prev_eq]
  have B0 : 0 ≤ B := by have := F.three; have := F.S0; linarith
  suffices hs : PSet A S B cur ∧ (cur.mutingThreshold = mutingImbe ∨
        (cur.mutingThreshold = s.prev.mutingThreshold ∧ cur.gamma = s.prev.gamma ∧ cur.L = s.prev.L ∧
          KeepAmps s.prev cur ∧ cur.log2Ml 0 = s.prev.log2Ml 0)) by
    rw [hprev, hcur]
    exact ⟨hs.1, hs.1.zero, hs.2⟩
  have hr := P.repeated
  unfold imbeRepeat at hr
  split at hr
  · split at hr
    · rw [imbeReset_eq, imbeDefaultL_r, ok_bind] at hr
      rw [← ok_inj hr]
      exact ⟨pset_zero F.A0 F.S0 B0 (show (9 : Int) ≤ 39 by decide) (show (39 : Int) ≤ 56 by decide)
        (fun i => lit0_zero), .inl rfl⟩
    · have e := repeatLast_inv hr
      have hK : KeepAmps s.prev cur := by
        intro l a b
        rw [e]; exact hk l a b
      have hL' : cur.L = s.prev.L := by rw [e]; exact hL
      have hz' : cur.log2Ml 0 = s.prev.log2Ml 0 := by rw [e]; exact hz
      refine ⟨hp.of_keep hL' hz' fun l a b => (hK l a b).2, .inr ⟨?_, ?_, hL', hK, hz'⟩⟩
      · rw [e]; dsimp only; rw [hd.prev_eq]
      · rw [e]; dsimp only; rw [hd.prev_eq]
  · rename_i hrep
    have hb : r.bad = 0 := by
      rcases hbad with hb | hb
      · exact hb
      · exfalso
        apply hrep
        unfold imbeRepeatRequired
        rw [if_pos hb]
    rw [← ok_inj hr]
    have := pset_imbe F (cacheBnd_imbe hc) (hv hb) (by rw [imbePrepare_cur]; exact h0) hp hL hz hk
    refine ⟨⟨this.lo, this.hi, this.zero, this.diff, this.band⟩, .inl ?_⟩
    dsimp only
    rw [hd.cur_eq, imbePrepare_cur]

/-! ## AMBE -/

theorem thr_imbe_r : lt (lit 1 1000000 : ℝ) (Arith.abs ((mutingImbe : ℝ) -ᶠ mutingAmbe)) = true := by
  unfold mutingImbe mutingAmbe
  rw [RealArith.lt_r, RealArith.abs_r, RealArith.sub_r, RealArith.lit_r _ _ (by decide), RealArith.lit_r _ _ (by decide),
    RealArith.lit_r _ _ (by decide)]
  norm_num [abs_of_neg]

theorem thr_ambe_r : lt (lit 1 1000000 : ℝ) (Arith.abs ((mutingAmbe : ℝ) -ᶠ mutingAmbe)) = false := by
  rw [← Bool.not_eq_true, RealArith.lt_r, RealArith.abs_r, RealArith.sub_r, RealArith.lit_r _ _ (by decide), sub_self]
  norm_num

/-- Bounds on a parameter set left by an AMBE decoder. -/
structure ASet (p : Parms ℝ) : Prop where
  lo : 9 ≤ p.L
  hi : p.L ≤ 56
  thr : p.mutingThreshold = mutingAmbe
  zero : |p.log2Ml 0| ≤ 264
  spread : SpreadLe 246 p
  gamma : |p.gamma| ≤ 13.8
  band : ∀ i : Fin 57, 1 ≤ i.val → (i.val : Int) ≤ p.L → |p.log2Ml i| ≤ 264

theorem ASet.pset {p : Parms ℝ} (h : ASet p) : PSet 264 1004 740 p := by
  have e : ∀ l : Fin 57, (l.val : Int) ≤ p.L → |p.log2Ml l| ≤ 264 := by
    intro l hl
    by_cases c : l.val = 0
    · rw [show l = 0 from Fin.ext c]; exact h.zero
    · exact h.band l (by omega) hl
  refine ⟨h.lo, h.hi, h.zero, fun i j hi hj => ?_, fun i a b => (h.band i a b).trans (by norm_num)⟩
  have a := abs_le.mp (e i hi)
  have b := abs_le.mp (e j hj)
  linarith

theorem aset_init : ASet (ambeInit : Parms ℝ) :=
  ⟨show (9 : Int) ≤ 15 by decide, show (15 : Int) ≤ 56 by decide, rfl, by
      show |(lit 0 1 : ℝ)| ≤ _
      rw [lit0_zero]; norm_num, fun i j _ _ _ _ => by
      show (lit 0 1 : ℝ) - (lit 0 1 : ℝ) ≤ _
      rw [sub_self]; norm_num, by
      show |(lit 0 1 : ℝ)| ≤ _
      rw [lit0_zero]; norm_num, fun i _ _ => by
      show |(lit 0 1 : ℝ)| ≤ _
      rw [lit0_zero]; norm_num⟩

theorem aset_erasure {p q : Parms ℝ} (h : p.mutingThreshold = mutingAmbe) : ASet (ambeErasure p q) :=
  ⟨show (9 : Int) ≤ 9 by decide, show (9 : Int) ≤ 56 by decide, h, by
      show |(lit 0 1 : ℝ)| ≤ _
      rw [lit0_zero]; norm_num, fun i j _ _ _ _ => by
      show (lit 0 1 : ℝ) - (lit 0 1 : ℝ) ≤ _
      rw [sub_self]; norm_num, by
      show |(lit 0 1 : ℝ)| ≤ _
      rw [lit0_zero]; norm_num, fun i _ _ => by
      show |(lit 0 1 : ℝ)| ≤ _
      rw [lit0_zero]; norm_num⟩

/-- A repeated frame. -/
theorem ASet.repeated {p q : Parms ℝ} (h : ASet p) (hL : q.L = p.L) (ht : q.mutingThreshold = p.mutingThreshold)
    (hg : q.gamma = p.gamma) (hk : KeepAmps p q) (h0 : |q.log2Ml 0| ≤ 264) : ASet q := by
  refine ⟨by rw [hL]; exact h.lo, by rw [hL]; exact h.hi, by rw [ht]; exact h.thr, h0, fun i j a b c d => ?_, by rw [hg]; exact h.gamma,
    fun i a b => ?_⟩
  · rw [hL] at b d
    rw [(hk i a b).2, (hk j c d).2]
    exact h.spread i j a b c d
  · rw [hL] at b
    rw [(hk i a b).2]
    exact h.band i a b

theorem half_log_bound {L : Int} (h1 : 9 ≤ L) (h2 : L ≤ 56) : 0 ≤ 1 / 2 * Real.logb 2 L ∧ 1 / 2 * Real.logb 2 L ≤ 3 := by
  have a : (9 : ℝ) ≤ L := by exact_mod_cast h1
  have b : (L : ℝ) ≤ 56 := by exact_mod_cast h2
  constructor
  · have := Real.logb_nonneg (b := 2) (by norm_num) (show (1 : ℝ) ≤ L by linarith)
    linarith
  · have : Real.logb 2 L ≤ Real.logb 2 ((2 : ℝ) ^ (6 : ℝ)) :=
      Real.logb_le_logb_of_le (by norm_num) (by linarith) (by norm_num; linarith)
    rw [Real.logb_rpow (by norm_num) (by norm_num)] at this
    linarith

/-- A voice frame. -/
theorem aset_voice {lax : Bool} {T : AmbeTabs} {c : Prop} (hc : c) {z : ℝ} {p : Parms ℝ} {r : DecodeRes ℝ} {g : Int}
    (h : AmbeVoiceR lax T c z p r g) (hz : |z| ≤ 264) (hp : ASet p) (hL : r.prev.L = p.L) (hk : KeepAmps p r.prev)
    (ht : r.cur.mutingThreshold = mutingAmbe) : ASet r.cur ∧ |r.prev.log2Ml 0| ≤ 264 := by
  have hlo := hp.lo
  have hhi := hp.hi
  have h01 : r.prev.log2Ml 0 = p.log2Ml 1 := by
    rw [h.zero]; exact (hk 1 (by decide) (show ((1 : Nat) : Int) ≤ p.L by omega)).2
  have hz0 : |r.prev.log2Ml 0| ≤ 264 := by
    rw [h01]; exact hp.band 1 (by decide) (show ((1 : Nat) : Int) ≤ p.L by omega)
  have ee : ∀ l : Fin 57, (l.val : Int) ≤ p.L → ∃ k : Fin 57, 1 ≤ k.val ∧ (k.val : Int) ≤ p.L ∧ r.prev.log2Ml l = p.log2Ml k := by
    intro l hl
    by_cases c : l.val = 0
    · exact ⟨1, by decide, show ((1 : Nat) : Int) ≤ p.L by omega, by rw [show l = 0 from Fin.ext c]; exact h01⟩
    · exact ⟨l, by omega, hl, (hk l (by omega) hl).2⟩
  have hdiff : ∀ i j : Fin 57, (i.val : Int) ≤ r.prev.L → (j.val : Int) ≤ r.prev.L → r.prev.log2Ml i - r.prev.log2Ml j ≤ 246 := by
    intro i j hi hj
    rw [hL] at hi hj
    obtain ⟨i', a1, a2, a3⟩ := ee i hi
    obtain ⟨j', b1, b2, b3⟩ := ee j hj
    rw [a3, b3]
    exact hp.spread i' j' a1 a2 b1 b2
  obtain ⟨Tl, hf, hT⟩ := h.form
  have hL1 := h.L_lo
  have hL2 := h.L_hi
  obtain ⟨k1, _⟩ := contract (lax := lax) (p := r.prev) (L := r.cur.L) (Tl := fun l => Tl.getD l 0) (B := 43) (c := 65 / 100)
    (rho := 65 / 100) (by omega) (by omega) (by omega) (fun l => by
      by_cases c : l < 57
      · rw [Arr.getD_lt c]; exact hT hc _
      · unfold Arr.getD; rw [dif_neg c, abs_zero]; norm_num) (by norm_num) (le_refl _) (by norm_num) hdiff
  have hsp : SpreadLe 246 r.cur := by
    intro i j a b c d
    rw [hf i a (by omega), hf j c (by omega)]
    have := k1 i j b d
    rw [Arr.getD_lt i.isLt, Arr.getD_lt j.isLt] at this
    linarith
  have hgam : |r.cur.gamma| ≤ 13.8 := by
    rw [h.gamma]
    have a := abs_le.mp h.dg
    have b := abs_le.mp hp.gamma
    rw [abs_le]
    constructor <;> linarith
  refine ⟨⟨hL1, hL2, ht, by rw [h.zero_cur]; exact hz, hsp, hgam, fun i a b => ?_⟩, hz0⟩
  obtain ⟨m1, m2⟩ := mean_range (L := r.cur.L) (f := fun l => r.cur.log2Ml.getD l 0) (lo := r.cur.log2Ml i - 246)
    (hi := r.cur.log2Ml i + 246) (by omega) fun l c d => by
      have hl : l < 57 := by omega
      rw [Arr.getD_lt hl]
      have := hsp i ⟨l, hl⟩ a b c d
      have := hsp ⟨l, hl⟩ i c d a b
      constructor <;> linarith
  rw [h.mean] at m1 m2
  obtain ⟨n1, n2⟩ := half_log_bound hL1 hL2
  have g := abs_le.mp hgam
  rw [abs_le]
  constructor <;> linarith

/-- Invariant of the state in which an AMBE call ends. -/
def AInv (s : St ℝ) : Prop := ASet s.prev ∧ |s.cur.log2Ml 0| ≤ 264

theorem ainv_init (t : Tls ℝ) : AInv (⟨ambeInit, ambeInit, ambeInit, t⟩ : St ℝ) := ⟨aset_init, aset_init.zero⟩

theorem ambePrepare_r {errs2 : Int} {s s1 : St ℝ} (h : ambePrepare errs2 s = .ok s1)
    (hs : s.prev.mutingThreshold = mutingImbe ∨ AInv s) :
    AInv s1 ∧ s1.tls = s.tls ∧ s1.cur.mutingThreshold = mutingAmbe := by
  unfold ambePrepare ensureAmbeDefaults at h
  rcases hs with hs | hs
  · rw [hs, thr_imbe_r, if_pos rfl, initAmbeState_eq, ok_bind] at h
    rw [← ok_inj h]
    exact ⟨⟨aset_init, aset_init.zero⟩, rfl, rfl⟩
  · rw [hs.1.thr, thr_ambe_r, if_neg (by decide), ok_bind] at h
    rw [← ok_inj h]
    exact ⟨⟨hs.1, hs.2⟩, rfl, rfl⟩

theorem speak_ainv {E : Env ℝ} {C : Call ℝ} {s : St ℝ} {o : Arr 160 ℝ × St ℝ} (h : speak E C s = .ok o) (hs : ASet s.cur) :
    AInv o.2 := by
  have f := speak_frame E C s _ h
  refine ⟨by rw [f.prev_eq]; exact hs, ?_⟩
  rw [f.cur_eq]
  exact hs.zero

theorem noiseAndReset_ainv {C : Call ℝ} {s : St ℝ} {o : Arr 160 ℝ × St ℝ} (h : noiseAndReset C s = .ok o) : AInv o.2 := by
  unfold noiseAndReset at h
  obtain ⟨a, _, h⟩ := bind_ok h
  rw [initAmbeState_eq, ok_bind] at h
  rw [← ok_inj h]
  exact ainv_init _

theorem ambeSpeech_ainv {E : Env ℝ} {C : Call ℝ} {s : St ℝ} {p : Arr 160 ℝ × Option Char × St ℝ}
    (h : (if s.cur.repeat_ ≤ 3 then do
        let o ← speak E C s
        Except.ok (o.1, none, o.2)
      else do
        let o ← noiseAndReset C s
        Except.ok (o.1, some 'M', o.2) : Exec (Arr 160 ℝ × Option Char × St ℝ)) = .ok p) (hs : ASet s.cur) : AInv p.2.2 := by
  split at h
  · obtain ⟨o, h1, h⟩ := bind_ok h
    rw [← ok_inj h]
    exact speak_ainv h1 hs
  · obtain ⟨o, h1, h⟩ := bind_ok h
    rw [← ok_inj h]
    exact noiseAndReset_ainv h1

/-- One AMBE 2450 call. -/
theorem ambe2450Step_r {E : Env ℝ} {C : Call ℝ} {c0 : Option Int} {errs2 : Int} {d : Nat → Int} {s : St ℝ} {o : Out ℝ}
    (h : processAmbe2450 E C c0 errs2 d s = .ok o) (hc : CacheOk E s.tls) (hs : s.prev.mutingThreshold = mutingImbe ∨ AInv s) :
    AInv o.st := by
  obtain ⟨s1, r, v, p, P⟩ := processAmbe2450_parts h
  obtain ⟨hI, htls, hmt⟩ := ambePrepare_r P.prepare hs
  obtain ⟨hd, hbad, hne⟩ := decodeAmbe2450_frame _ _ _ _ _ _ _ P.decode
  have hk := decodeAmbe2450_keep _ _ _ _ _ _ _ P.decode
  have hvr := decodeAmbe2450_r _ _ _ _ _ _ _ P.decode
  have hL : r.prev.L = s1.prev.L := by rw [hd.prev_eq]
  have hmt' : r.cur.mutingThreshold = mutingAmbe := by rw [hd.cur_eq]; exact hmt
  have hv := P.verdict
  have hp := P.render
  rw [P.st]
  unfold ambe2450Verdict at hv
  unfold ambe2450Render at hp
  by_cases b0 : r.bad = 0
  · obtain ⟨g, _, _, _, hvr⟩ := hvr b0
    obtain ⟨k1, k2⟩ := aset_voice (by rw [htls]; exact cacheBnd_ambe2450 hc) hvr hI.2 hI.1 hL hk hmt'
    rw [if_neg (by omega), if_neg (by omega)] at hv
    rw [if_pos b0] at hp
    refine ambeSpeech_ainv hp ?_
    dsimp only
    split at hv
    · obtain ⟨q, h1, h2⟩ := bind_ok hv
      rw [← ok_inj h2]
      have e := repeatLast_inv h1
      dsimp only
      rw [e]
      exact hI.1.repeated hL (by dsimp only; rw [hd.prev_eq]) (by dsimp only; rw [hd.prev_eq]) hk k2
    · rw [← ok_inj hv]
      exact ⟨k1.lo, k1.hi, k1.thr, k1.zero, k1.spread, k1.gamma, k1.band⟩
  · obtain ⟨e1, e2, e3⟩ := hne b0
    rw [if_neg b0] at hp
    split at hp
    · rename_i b7
      rw [if_neg (by omega), if_pos (.inr b7)] at hv
      rw [← ok_inj hv, e2] at hp
      dsimp only at hp
      have hcur : |r.cur.log2Ml 0| ≤ 264 := by rw [e1]; exact hI.2
      obtain ⟨b, _, hp⟩ := bind_ok hp
      split at hp
      · obtain ⟨q, h1, h2⟩ := bind_ok hp
        have := synthesizeTonef_frame _ _ _ _ h1
        rw [← ok_inj h2]
        refine ⟨hI.1, ?_⟩
        dsimp only
        rw [this]
        exact hcur
      · split at hp
        · obtain ⟨q, h1, h2⟩ := bind_ok hp
          rw [← ok_inj h2]
          exact noiseAndReset_ainv h1
        · obtain ⟨q, h1, h2⟩ := bind_ok hp
          rw [← ok_inj h2]
          unfold replayEnhanced at h1
          obtain ⟨q', _, h3⟩ := bind_ok h1
          rw [← ok_inj h3]
          exact ⟨hI.1, hcur⟩
    · split at hp
      · rename_i b2
        rw [if_pos b2, setAmbeErasureParms_eq, ok_bind] at hv
        rw [← ok_inj hv] at hp
        obtain ⟨q, h1, h2⟩ := bind_ok hp
        rw [← ok_inj h2]
        have := aset_erasure (p := { r.cur with repeat_ := 0, repeatCount := 0 }) (q := r.prev) hmt'
        exact ⟨this, this.zero⟩
      · obtain ⟨q, h1, h2⟩ := bind_ok hp
        rw [← ok_inj h2]
        exact noiseAndReset_ainv h1

/-- One AMBE 2400 call. -/
theorem ambe2400Step_r {E : Env ℝ} {C : Call ℝ} {errs errs2 : Int} {d : Nat → Int} {s : St ℝ} {o : Out ℝ}
    (h : processAmbe2400 E C errs errs2 d s = .ok o) (hc : CacheOk E s.tls) (hs : s.prev.mutingThreshold = mutingImbe ∨ AInv s) :
    AInv o.st := by
  obtain ⟨s1, r, v, p, P⟩ := processAmbe2400_parts h
  obtain ⟨hI, htls, hmt⟩ := ambePrepare_r P.prepare hs
  obtain ⟨hd, hbad, hne⟩ := decodeAmbe2400_frame _ _ _ _ _ _ P.decode
  have hk := decodeAmbe2400_keep _ _ _ _ _ _ P.decode
  have hvr := decodeAmbe2400_r _ _ _ _ _ _ P.decode
  have hL : r.prev.L = s1.prev.L := by rw [hd.prev_eq]
  have hmt' : r.cur.mutingThreshold = mutingAmbe := by rw [hd.cur_eq]; exact hmt
  have hv := P.verdict
  have hp := P.render
  rw [P.st]
  unfold ambe2400Verdict at hv
  unfold ambe2400Render at hp
  by_cases b0 : r.bad = 0
  · obtain ⟨g, _, _, _, hvr⟩ := hvr b0
    obtain ⟨k1, k2⟩ := aset_voice (by rw [htls]; exact cacheBnd_ambe2400 hc) hvr hI.2 hI.1 hL hk hmt'
    rw [if_neg (by omega), if_neg (by omega), if_neg (by omega)] at hv
    rw [if_pos b0] at hp
    refine ambeSpeech_ainv hp ?_
    dsimp only
    split at hv
    · obtain ⟨q, h1, h2⟩ := bind_ok hv
      rw [← ok_inj h2]
      have e := repeatLast_inv h1
      dsimp only
      rw [e]
      exact hI.1.repeated hL (by dsimp only; rw [hd.prev_eq]) (by dsimp only; rw [hd.prev_eq]) hk k2
    · rw [← ok_inj hv]
      exact ⟨k1.lo, k1.hi, k1.thr, k1.zero, k1.spread, k1.gamma, k1.band⟩
  · rw [if_neg b0, if_neg (by omega)] at hp
    obtain ⟨q, h1, h2⟩ := bind_ok hp
    rw [← ok_inj h2]
    exact noiseAndReset_ainv h1

/-! ## Histories -/

theorem fits_imbe : Fits 0 248 211 := by constructor <;> norm_num
theorem fits_any : Fits 264 1004 740 := by constructor <;> norm_num

theorem imbeOp_r {A S B : ℝ} (F : Fits A S B) {E : Env ℝ} {op : ImbeOp ℝ} {s : St ℝ} {o : Out ℝ} (h : op.run E s = .ok o)
    (hc : CacheOk E s.tls) (h0 : |s.cur.log2Ml 0| ≤ A) (hp : PSet A S B s.prev) :
    CacheOk E o.st.tls ∧ PSet A S B o.st.prev ∧ |o.st.cur.log2Ml 0| ≤ A ∧
      (o.st.prev.mutingThreshold = mutingImbe ∨
        (o.st.prev.mutingThreshold = s.prev.mutingThreshold ∧ o.st.prev.gamma = s.prev.gamma ∧ o.st.prev.L = s.prev.L ∧
          KeepAmps s.prev o.st.prev ∧ o.st.prev.log2Ml 0 = s.prev.log2Ml 0)) := by
  obtain ⟨b, hb, hs⟩ := (imbeOp_sim op ⟨rfl, rfl, rfl, Sim.refl hc⟩).of_ok h
  refine ⟨hs.st.tls.l, ?_⟩
  obtain ⟨C, cs, e, d⟩ := op
  cases cs with
  | none => exact imbeStep_r F h hc h0 hp
  | some c => exact imbeStep_r F (s := { s with cur := { s.cur with errorCount4 := c.2 } }) h hc h0 hp

theorem ambeOp_r {E : Env ℝ} {op : AmbeOp ℝ} {s : St ℝ} {o : Out ℝ} (h : op.run E s = .ok o)
    (hc : CacheOk E s.tls) (hs : s.prev.mutingThreshold = mutingImbe ∨ AInv s) : CacheOk E o.st.tls ∧ AInv o.st := by
  obtain ⟨b, hb, hs'⟩ := (ambeOp_sim op ⟨rfl, rfl, rfl, Sim.refl hc⟩).of_ok h
  refine ⟨hs'.st.tls.l, ?_⟩
  cases op with
  | v2450 C c0 e d => exact ambe2450Step_r h hc hs
  | v2400 C e e2 d => exact ambe2400Step_r h hc hs

theorem initMbeState_r {s s' : St ℝ} (h : initMbeState s = .ok s') : s' = ⟨imbeInit 39, imbeInit 39, imbeInit 39, s.tls⟩ := by
  unfold initMbeState at h
  rw [initMbeParms_eq, imbeDefaultL_r, ok_bind, ok_bind] at h
  exact (ok_inj h).symm

theorem pset_imbeInit {A S B : ℝ} (hA : 0 ≤ A) (hS : 0 ≤ S) (hB : 0 ≤ B) : PSet A S B (imbeInit 39) :=
  pset_zero hA hS hB (show (9 : Int) ≤ 39 by decide) (show (39 : Int) ≤ 56 by decide) fun i => by
    show ((0 : Int) : ℝ) = 0
    norm_num

/-- Invariant for histories of both codecs. -/
structure HInv (E : Env ℝ) (s : St ℝ) : Prop where
  cache : CacheOk E s.tls
  pset : PSet 264 1004 740 s.prev
  zero : |s.cur.log2Ml 0| ≤ 264
  codec : s.prev.mutingThreshold = mutingImbe ∨ ASet s.prev

theorem hinv_imbeInit {E : Env ℝ} {t : Tls ℝ} (h : CacheOk E t) : HInv E ⟨imbeInit 39, imbeInit 39, imbeInit 39, t⟩ := by
  have := pset_imbeInit (A := 264) (S := 1004) (B := 740) (by norm_num) (by norm_num) (by norm_num)
  exact ⟨h, this, this.zero, .inl rfl⟩

theorem hinv_ambeInit {E : Env ℝ} {t : Tls ℝ} (h : CacheOk E t) : HInv E ⟨ambeInit, ambeInit, ambeInit, t⟩ :=
  ⟨h, aset_init.pset, aset_init.zero, .inr aset_init⟩

theorem fresh_hinv {E : Env ℝ} {s : St ℝ} (h : Fresh s) : HInv E s := by
  have hc := fresh_cacheOk (E := E) h
  obtain ⟨s0, h0, h | h⟩ := h
  · rw [initMbeState_r h] at hc ⊢
    exact hinv_imbeInit hc
  · rw [initAmbeState_eq] at h
    rw [← ok_inj h] at hc ⊢
    exact hinv_ambeInit hc

theorem op_hinv {E : Env ℝ} {op : Op ℝ} {s s' : St ℝ} (h : op.run E s = .ok s') (hs : HInv E s) : HInv E s' := by
  cases op with
  | imbe op =>
    obtain ⟨o, h1, h2⟩ := bind_ok h
    rw [← ok_inj h2]
    obtain ⟨k1, k2, k3, k4⟩ := imbeOp_r fits_any h1 hs.cache hs.zero hs.pset
    refine ⟨k1, k2, k3, ?_⟩
    rcases k4 with k4 | ⟨a, b, c, d, e⟩
    · exact .inl k4
    · rcases hs.codec with hc | hc
      · exact .inl (a.trans hc)
      · exact .inr (hc.repeated c a b d (by rw [e]; exact hc.zero))
  | ambe op =>
    obtain ⟨o, h1, h2⟩ := bind_ok h
    rw [← ok_inj h2]
    obtain ⟨k1, k2⟩ := ambeOp_r h1 hs.cache (hs.codec.imp_right fun h => ⟨h, hs.zero⟩)
    exact ⟨k1, k2.1.pset, k2.2, .inr k2.1⟩
  | initMbe =>
    rw [initMbeState_r h]
    exact hinv_imbeInit hs.cache
  | initAmbe =>
    have h : initAmbeState s = .ok s' := h
    rw [initAmbeState_eq] at h
    rw [← ok_inj h]
    exact hinv_ambeInit hs.cache
  | seed n =>
    rw [← ok_inj h]
    exact ⟨(setThreadRngSeed_sim n (Sim.refl hs.cache)).l, hs.pset, hs.zero, hs.codec⟩

theorem runHist_hinv {E : Env ℝ} (ops : List (Op ℝ)) {s s' : St ℝ} (h : runHist E ops s = .ok s') (hs : HInv E s) : HInv E s' := by
  induction ops generalizing s with
  | nil => rw [← ok_inj h]; exact hs
  | cons op ops ih =>
    obtain ⟨s1, h1, h2⟩ := bind_ok h
    exact ih h2 (op_hinv h1 hs)

theorem runImbe_pset {E : Env ℝ} (ops : List (ImbeOp ℝ)) {s s' : St ℝ} (h : runOps (ImbeOp.run E) ops s = .ok s')
    (hc : CacheOk E s.tls) (h0 : |s.cur.log2Ml 0| ≤ 0) (hp : PSet 0 248 211 s.prev) : PSet 0 248 211 s'.prev := by
  induction ops generalizing s with
  | nil => rw [← ok_inj h]; exact hp
  | cons op ops ih =>
    obtain ⟨o, h1, h2⟩ := bind_ok h
    obtain ⟨k1, k2, k3, _⟩ := imbeOp_r fits_imbe h1 hc h0 hp
    exact ih h2 k1 k3 k2

theorem runHist_append {F : Type} [Arith F] {E : Env F} (a b : List (Op F)) (s : St F) :
    runHist E (a ++ b) s = runHist E a s >>= runHist E b := by
  induction a generalizing s with
  | nil => rfl
  | cons op a ih =>
    show (op.run E s >>= runHist E (a ++ b)) = (op.run E s >>= runHist E a) >>= runHist E b
    cases op.run E s with
    | error e => rfl
    | ok x => exact ih x

end Verif.Model
