import Verif.Spec.Desync
import Verif.Props.Spectrum

/-!
# Two decoders that receive the same frames
-/

set_option linter.unusedSectionVars false

namespace Verif.Model
open Verif Verif.Gen Verif.Spec Arith

/-! ## Prediction -/

theorem stretched_range {a : Nat → ℝ} {M L l : Nat} {lo hi : ℝ} (h : ∀ i, i ≤ M → lo ≤ a i ∧ a i ≤ hi) (hL : 1 ≤ L) (hl : l ≤ L) :
    lo ≤ stretched a M L l ∧ stretched a M L l ≤ hi := by
  obtain ⟨h1, h2⟩ := posR_range (p := (M : Int)) (L := (L : Int)) (l := l) (by omega) (by omega) (by omega)
  have e : posR (M : Int) (L : Int) l = (M : ℝ) / L * l := by unfold posR; push_cast; rfl
  rw [e] at h1 h2
  unfold stretched interp
  have f0 : 0 ≤ ⌊(M : ℝ) / L * l⌋ := Int.floor_nonneg.mpr h1
  have f1 : ⌊(M : ℝ) / L * l⌋ ≤ M := by
    have : (⌊(M : ℝ) / L * l⌋ : ℝ) ≤ ((M : Int) : ℝ) := (Int.floor_le _).trans h2
    exact_mod_cast this
  have k := h _ (show ⌊(M : ℝ) / L * l⌋.toNat ≤ M by omega)
  by_cases c : ⌊(M : ℝ) / L * l⌋ = M
  · have : Int.fract ((M : ℝ) / L * l) = 0 := by
      have h3 := Int.floor_le ((M : ℝ) / L * l)
      rw [c] at h3
      have h4 : (M : ℝ) / L * l = ((M : Int) : ℝ) := le_antisymm h2 h3
      rw [h4, Int.fract_intCast]
    rw [this, zero_mul, sub_zero, one_mul, add_zero]
    exact k
  · have k1 := h _ (show ⌊(M : ℝ) / L * l⌋.toNat + 1 ≤ M by omega)
    have g0 := Int.fract_nonneg ((M : ℝ) / L * l)
    have g1 := (Int.fract_lt_one ((M : ℝ) / L * l)).le
    generalize Int.fract ((M : ℝ) / L * l) = x at *
    generalize a _ = u at *
    generalize a _ = v at *
    constructor <;> nlinarith

theorem prediction_sub (rho : ℝ) (a b : Nat → ℝ) (M L l : Nat) :
    prediction rho (fun i => a i - b i) M L l = prediction rho a M L l - prediction rho b M L l := by
  have e : ∀ k, stretched (fun i => a i - b i) M L k = stretched a M L k - stretched b M L k := by
    intro k
    unfold stretched interp
    ring
  unfold prediction
  rw [e, Finset.sum_congr rfl fun k _ => e k, Finset.sum_sub_distrib]
  ring

/-- Pairwise differences of `a 0 .. a M`. -/
def Pairs (S : ℝ) (M : Nat) (a : Nat → ℝ) : Prop := ∀ i j, i ≤ M → j ≤ M → a i - a j ≤ S

theorem prediction_bound {rho c S : ℝ} {a : Nat → ℝ} {M L : Nat} (h0 : 0 ≤ rho) (h1 : rho ≤ c) (hL : 1 ≤ L) (h : Pairs S M a) :
    (∀ l, l ≤ L → |prediction rho a M L l| ≤ c * S) ∧
      ∀ l k, l ≤ L → k ≤ L → prediction rho a M L l - prediction rho a M L k ≤ c * S := by
  have hS : 0 ≤ S := by have := h 0 0 (by omega) (by omega); linarith
  obtain ⟨j, hj, hm⟩ := Finset.exists_min_image (Finset.range (M + 1)) a ⟨0, by simp⟩
  rw [Finset.mem_range] at hj
  have hq : ∀ l, l ≤ L → a j ≤ stretched a M L l ∧ stretched a M L l ≤ a j + S := fun l hl =>
    stretched_range (fun i hi => ⟨hm i (by simp; omega), by have := h i j hi (by omega); linarith⟩) hL hl
  obtain ⟨m1, m2⟩ := mean_range (L := (L : Int)) (f := stretched a M L) (by omega) fun l _ h2 => hq l (by omega)
  simp only [Int.toNat_natCast, Int.cast_natCast] at m1 m2
  refine ⟨fun l hl => ?_, fun l k hl hk => ?_⟩
  · obtain ⟨q1, q2⟩ := hq l hl
    refine rho_mul_abs h0 h1 hS ?_
    rw [abs_le]
    constructor <;> linarith
  · obtain ⟨q1, q2⟩ := hq l hl
    obtain ⟨q3, q4⟩ := hq k hk
    have := rho_mul h0 h1 hS (x := stretched a M L l - stretched a M L k) (by linarith)
    unfold prediction
    linarith

/-- The same for two predictions from different spectra. -/
theorem prediction_bound2 {rho c S S' : ℝ} {a b : Nat → ℝ} {M M' L : Nat} (h0 : 0 ≤ rho) (h1 : rho ≤ c) (hL : 1 ≤ L) (h : Pairs S M a)
    (h' : Pairs S' M' b) :
    (∀ l, l ≤ L → |prediction rho a M L l - prediction rho b M' L l| ≤ c * (S + S')) ∧
      ∀ l k, l ≤ L → k ≤ L → (prediction rho a M L l - prediction rho b M' L l) - (prediction rho a M L k - prediction rho b M' L k) ≤
        c * (S + S') := by
  obtain ⟨a1, a2⟩ := prediction_bound (L := L) h0 h1 hL h
  obtain ⟨b1, b2⟩ := prediction_bound (L := L) h0 h1 hL h'
  refine ⟨fun l hl => ?_, fun l k hl hk => ?_⟩
  · have x := abs_le.mp (a1 l hl)
    have y := abs_le.mp (b1 l hl)
    rw [abs_le]
    constructor <;> linarith
  · have x := a2 l k hl hk
    have y := b2 k l hk hl
    linarith

theorem imbeRhoSpec_range {L : Nat} (h : 9 ≤ L) : 0 ≤ imbeRhoSpec L ∧ imbeRhoSpec L ≤ 0.7 := by
  have := imbeRho_range (L := (L : Int)) (by omega)
  rw [imbeRho_spec] at this
  norm_num at this ⊢
  exact this

/-! ## IMBE -/

/-- State of an IMBE decoder. -/
structure ImbeI (E : Env ℝ) (s : St ℝ) : Prop where
  cache : CacheOk E s.tls
  zero : |s.cur.log2Ml 0| ≤ 0
  pset : PSet 0 248 211 s.prev

theorem runImbe_inv {E : Env ℝ} (ops : List (ImbeOp ℝ)) {s s' : St ℝ} (h : runOps (ImbeOp.run E) ops s = .ok s')
    (hs : ImbeI E s) : ImbeI E s' := by
  induction ops generalizing s with
  | nil => rw [← ok_inj h]; exact hs
  | cons op ops ih =>
    obtain ⟨o, h1, h2⟩ := bind_ok h
    obtain ⟨k1, k2, k3, _⟩ := imbeOp_r fits_imbe h1 hs.cache hs.zero hs.pset
    exact ih h2 ⟨k1, k3, k2⟩

/-- What a good frame leaves as previous frame. -/
structure ImbeFacts (d : Nat → Int) (pv p : Parms ℝ) : Prop where
  w0 : p.w0 = 4 * Real.pi / (imbeFund d + 39.5)
  L_eq : p.L = imbeHarmonics (imbeFund d)
  gain : ∀ m, 1 ≤ m → m ≤ 6 → dct 6 (fun i => blockDct (blockLens p.L.toNat) (imbeResidual p pv) i 1) m = imbeGain d p.L.toNat m
  higher : ∀ i, 1 ≤ i → i ≤ 6 → ∀ k, 2 ≤ k → k ≤ len (blockLens p.L.toNat) i →
    blockDct (blockLens p.L.toNat) (imbeResidual p pv) i k = imbeHigher d p.L.toNat i k
  amp : ∀ l, 1 ≤ l → l ≤ p.L.toNat → p.Ml.getD l 0 = (2 : ℝ) ^ logAmp p l

theorem imbeGood_step {E : Env ℝ} {op : ImbeOp ℝ} {s : St ℝ} {o : Out ℝ} (h : op.run E s = .ok o) (hg : ImbeOp.Good op)
    (hs : ImbeI E s) : ImbeFacts op.d s.prev o.st.prev := by
  obtain ⟨hd, hf, he, hc0⟩ := hg
  have key : ∀ (s : St ℝ) (c0 : Option Int), processImbe4400 E op.call c0 op.errs2 op.d s = .ok o → (∀ c, c0 = some c → c < 2) →
      ImbeI E s → ImbeFacts op.d s.prev o.st.prev := by
    intro s c0 h hc0 hs
    obtain ⟨r, cur, sp, P⟩ := processImbe4400_parts h
    have hf' := speak_frame E op.call _ _ P.spoken
    have hprev : o.st.prev = cur := by rw [P.st]; exact hf'.prev_eq
    have hdec : decodeImbe4400 true op.d (imbePrepare c0 op.errs2 s).cur s.prev s.tls = .ok r := by
      have := P.decode
      cases hl : E.lax with
      | true => rw [hl] at this; exact this
      | false => rw [hl] at this; exact (decodeImbe4400_lax _ _ _ _).ok this
    have hlo := hs.pset.lo
    obtain ⟨r', L, h1, h2, h3, h4, h5, h6, h7, h8⟩ := Props.C53_imbe op.d hd hf E (imbePrepare c0 op.errs2 s).cur s.prev s.tls hs.cache
      (by omega) hs.pset.hi
    rw [hdec] at h1
    cases h1
    have hr := P.repeated
    have hrep : imbeRepeatRequired r.bad c0 op.errs2 r.cur.errorRate = false := by
      unfold imbeRepeatRequired
      rw [if_neg (by omega)]
      cases c0 with
      | none => exact decide_eq_false (by omega)
      | some c => exact Bool.and_eq_false_imp.mpr fun hc => by have := of_decide_eq_true hc; have := hc0 c rfl; omega
    unfold imbeRepeat at hr
    rw [hrep, if_neg (by decide)] at hr
    rw [hprev, ← ok_inj hr]
    subst h5
    exact ⟨h3, h4, h6, h7, h8⟩
  unfold ImbeOp.run at h
  split at h
  · rename_i c0 c4 hc
    refine key { s with cur := { s.cur with errorCount4 := c4 } } (some c0) h (fun c e => ?_) ⟨hs.cache, hs.zero, hs.pset⟩
    cases e
    exact hc0 (c0, c4) hc
  · exact key s none h (fun c e => by cases e) hs

theorem imbeGood_zero {E : Env ℝ} {op : ImbeOp ℝ} {s : St ℝ} {o : Out ℝ} (h : op.run E s = .ok o) (hg : ImbeOp.Good op)
    (h0 : 0 ≤ s.prev.L) (h56 : s.prev.L ≤ 56) :
    o.st.prev.log2Ml 0 = s.cur.log2Ml 0 ∧ o.st.cur.log2Ml 0 = s.cur.log2Ml 0 ∧ 0 ≤ o.st.prev.L ∧ o.st.prev.L ≤ 56 := by
  obtain ⟨hd, hf, he, hc0⟩ := hg
  have key : ∀ (s : St ℝ) (c0 : Option Int), processImbe4400 E op.call c0 op.errs2 op.d s = .ok o → (∀ c, c0 = some c → c < 2) →
      0 ≤ s.prev.L → s.prev.L ≤ 56 →
      o.st.prev.log2Ml 0 = s.cur.log2Ml 0 ∧ o.st.cur.log2Ml 0 = s.cur.log2Ml 0 ∧ 0 ≤ o.st.prev.L ∧ o.st.prev.L ≤ 56 := by
    intro s c0 h hc0 h0 h56
    obtain ⟨r, cur, sp, P⟩ := processImbe4400_parts h
    have hf' := speak_frame E op.call _ _ P.spoken
    have hprev : o.st.prev = cur := by rw [P.st]; exact hf'.prev_eq
    have hcur : o.st.cur.log2Ml = cur.log2Ml := by rw [P.st, hf'.cur_eq]
    obtain ⟨M, hM⟩ := Int.eq_ofNat_of_zero_le h0
    have hdec : decodeImbe4400 true op.d (imbePrepare c0 op.errs2 s).cur s.prev s.tls = .ok r := by
      have := P.decode
      cases hl : E.lax with
      | true => rw [hl] at this; exact this
      | false => rw [hl] at this; exact (decodeImbe4400_lax _ _ _ _).ok this
    obtain ⟨r', hr', _, _, hb⟩ := decodeImbe4400_total_r hd (p := M) (imbePrepare c0 op.errs2 s).cur s.prev s.tls hM (by omega)
    rw [hdec] at hr'
    cases hr'
    have h2 := (hb hf).1
    have hv := decodeImbe4400_r _ _ _ _ _ _ P.decode h2
    have hr := P.repeated
    have hrep : imbeRepeatRequired r.bad c0 op.errs2 r.cur.errorRate = false := by
      unfold imbeRepeatRequired
      rw [if_neg (by omega)]
      cases c0 with
      | none => exact decide_eq_false (by omega)
      | some c => exact Bool.and_eq_false_imp.mpr fun hc => by have := of_decide_eq_true hc; have := hc0 c rfl; omega
    unfold imbeRepeat at hr
    rw [hrep, if_neg (by decide)] at hr
    have hz : cur.log2Ml 0 = s.cur.log2Ml 0 := by
      rw [← ok_inj hr]
      refine hv.zero_cur.trans ?_
      rw [imbePrepare_cur]
    have hlo := hv.L_lo
    rw [hprev, hcur]
    refine ⟨hz, hz, ?_, ?_⟩ <;> rw [← ok_inj hr]
    · exact le_trans (by decide) hv.L_lo
    · exact hv.L_hi
  unfold ImbeOp.run at h
  split at h
  · rename_i c0 c4 hc
    refine key { s with cur := { s.cur with errorCount4 := c4 } } (some c0) h (fun c e => ?_) h0 h56
    cases e
    exact hc0 (c0, c4) hc
  · exact key s none h (fun c e => by cases e) h0 h56

theorem pairs_pset {A S B : ℝ} {p : Parms ℝ} (h : PSet A S B p) : Pairs S p.L.toNat (logAmp p) := by
  intro i j hi hj
  have := h.lo
  have := h.hi
  unfold logAmp
  rw [Arr.getD_lt (show i < 57 by omega), Arr.getD_lt (show j < 57 by omega)]
  exact h.diff _ _ (show (i : Int) ≤ p.L by omega) (show (j : Int) ≤ p.L by omega)

/-- Two frames with the same payload: the difference is the difference of the predictions. -/
theorem imbe_diff {d : Nat → Int} {pv qv p q : Parms ℝ} (hp : ImbeFacts d pv p) (hq : ImbeFacts d qv q) (h9 : 9 ≤ p.L) (h56 : p.L ≤ 56) :
    q.L = p.L ∧ q.w0 = p.w0 ∧ ∀ l, 1 ≤ l → l ≤ p.L.toNat → logDiff p q l =
      prediction (imbeRhoSpec p.L.toNat) (logAmp pv) pv.L.toNat p.L.toNat l -
        prediction (imbeRhoSpec p.L.toNat) (logAmp qv) qv.L.toNat p.L.toNat l := by
  have hL : q.L = p.L := by rw [hp.L_eq, hq.L_eq]
  refine ⟨hL, by rw [hp.w0, hq.w0], fun l l1 l2 => ?_⟩
  have g := hq.gain
  have hh := hq.higher
  rw [hL] at g hh
  have := Props.C53_unique_imbe p.L.toNat (by omega) (by omega) (imbeResidual p pv) (imbeResidual q qv)
    (fun m m1 m2 => (hp.gain m m1 m2).trans (g m m1 m2).symm)
    (fun i i1 i2 k k1 k2 => (hp.higher i i1 i2 k k1 k2).trans (hh i i1 i2 k k1 k2).symm) l l1 l2
  unfold imbeResidual at this
  rw [hL] at this
  unfold logDiff
  linarith

theorem pairs_zero {S : ℝ} {L : Nat} {a : Nat → ℝ} (h0 : a 0 = 0) (h1 : ∀ l, 1 ≤ l → l ≤ L → |a l| ≤ S)
    (h2 : ∀ l k, 1 ≤ l → l ≤ L → 1 ≤ k → k ≤ L → a l - a k ≤ S) (hS : 0 ≤ S) : Pairs S L a := by
  intro i j hi hj
  by_cases ci : i = 0
  · subst ci
    by_cases cj : j = 0
    · subst cj; rw [sub_self]; exact hS
    · have := abs_le.mp (h1 j (by omega) hj)
      rw [h0]; linarith
  · by_cases cj : j = 0
    · subst cj
      have := abs_le.mp (h1 i (by omega) hi)
      rw [h0]; linarith
    · exact h2 i j (by omega) hi (by omega) hj

/-- Two decoders after a common frame. -/
structure ImbeClose (S : ℝ) (p q : Parms ℝ) : Prop where
  L_eq : q.L = p.L
  w0 : q.w0 = p.w0
  pairs : Pairs S p.L.toNat (logDiff p q)
  band : ∀ l, 1 ≤ l → l ≤ p.L.toNat → |logDiff p q l| ≤ S
  ampP : ∀ l, 1 ≤ l → l ≤ p.L.toNat → p.Ml.getD l 0 = (2 : ℝ) ^ logAmp p l
  ampQ : ∀ l, 1 ≤ l → l ≤ p.L.toNat → q.Ml.getD l 0 = (2 : ℝ) ^ logAmp q l

theorem logAmp_zero {S B : ℝ} {p : Parms ℝ} (h : PSet 0 S B p) : logAmp p 0 = 0 := by
  unfold logAmp
  rw [Arr.getD_lt (by decide)]
  exact abs_nonpos_iff.mp h.zero

theorem imbe_close {d : Nat → Int} {S B : ℝ} {pv qv p q : Parms ℝ} (hp : ImbeFacts d pv p) (hq : ImbeFacts d qv q)
    (zp : PSet 0 S B p) (zq : PSet 0 S B q) {T : ℝ} (hT : 0 ≤ T)
    (hb : ∀ rho, 0 ≤ rho → rho ≤ 0.7 → 
      (∀ l, l ≤ p.L.toNat → |prediction rho (logAmp pv) pv.L.toNat p.L.toNat l - prediction rho (logAmp qv) qv.L.toNat p.L.toNat l| ≤ T) ∧
      ∀ l k, l ≤ p.L.toNat → k ≤ p.L.toNat →
        (prediction rho (logAmp pv) pv.L.toNat p.L.toNat l - prediction rho (logAmp qv) qv.L.toNat p.L.toNat l) -
        (prediction rho (logAmp pv) pv.L.toNat p.L.toNat k - prediction rho (logAmp qv) qv.L.toNat p.L.toNat k) ≤ T) : ImbeClose T p q := by
  have hlo := zp.lo
  obtain ⟨e1, e2, e3⟩ := imbe_diff hp hq zp.lo zp.hi
  obtain ⟨r1, r2⟩ := imbeRhoSpec_range (L := p.L.toNat) (by omega)
  obtain ⟨b1, b2⟩ := hb _ r1 r2
  have band : ∀ l, 1 ≤ l → l ≤ p.L.toNat → |logDiff p q l| ≤ T := fun l l1 l2 => by rw [e3 l l1 l2]; exact b1 l l2
  refine ⟨e1, e2, pairs_zero ?_ band (fun l k l1 l2 k1 k2 => ?_) hT, band, hp.amp, by rw [← e1]; exact hq.amp⟩
  · unfold logDiff
    rw [logAmp_zero zp, logAmp_zero zq, sub_zero]
  · rw [e3 l l1 l2, e3 k k1 k2]
    exact b2 l k l2 k2

/-- The first common frame. -/
theorem imbe_first {E E' : Env ℝ} {a b : ImbeOp ℝ} {s t : St ℝ} {o u : Out ℝ} (hs : ImbeI E s) (ht : ImbeI E' t)
    (ha : a.run E s = .ok o) (hb : b.run E' t = .ok u) (ga : ImbeOp.Good a) (gb : ImbeOp.Good b) (hab : ImbeOp.SameFrame a b)
    (zs : ImbeI E o.st) (zt : ImbeI E' u.st) : ImbeClose (496 * 0.7) o.st.prev u.st.prev := by
  have fa := imbeGood_step ha ga hs
  have fb := imbeGood_step hb gb ht
  rw [← (show a.d = b.d from hab)] at fb
  have := zs.pset.lo
  refine imbe_close fa fb zs.pset zt.pset (by norm_num) fun rho r1 r2 => ?_
  have := prediction_bound2 (L := o.st.prev.L.toNat) r1 r2 (by omega) (pairs_pset hs.pset) (pairs_pset ht.pset)
  norm_num at this ⊢
  exact this

/-- A further common frame. -/
theorem imbe_next {E E' : Env ℝ} {a b : ImbeOp ℝ} {s t : St ℝ} {o u : Out ℝ} {S : ℝ} (hs : ImbeI E s) (ht : ImbeI E' t)
    (ha : a.run E s = .ok o) (hb : b.run E' t = .ok u) (ga : ImbeOp.Good a) (gb : ImbeOp.Good b) (hab : ImbeOp.SameFrame a b)
    (zs : ImbeI E o.st) (zt : ImbeI E' u.st) (hc : ImbeClose S s.prev t.prev) : ImbeClose (0.7 * S) o.st.prev u.st.prev := by
  have fa := imbeGood_step ha ga hs
  have fb := imbeGood_step hb gb ht
  rw [← (show a.d = b.d from hab)] at fb
  have := zs.pset.lo
  have hS : 0 ≤ S := by have := hc.pairs 0 0 (by omega) (by omega); linarith
  refine imbe_close fa fb zs.pset zt.pset (by positivity) fun rho r1 r2 => ?_
  rw [hc.L_eq]
  have := prediction_bound (L := o.st.prev.L.toNat) r1 r2 (by omega) hc.pairs
  have e : logDiff s.prev t.prev = fun i => logAmp s.prev i - logAmp t.prev i := rfl
  rw [e] at this
  simp only [prediction_sub] at this
  exact this

theorem imbe_run {E E' : Env ℝ} {as bs : List (ImbeOp ℝ)} (hab : List.Forall₂ ImbeOp.SameFrame as bs) {s t s' t' : St ℝ} {S : ℝ}
    (ga : ∀ a ∈ as, ImbeOp.Good a) (gb : ∀ b ∈ bs, ImbeOp.Good b) (hs : ImbeI E s) (ht : ImbeI E' t)
    (ha : runOps (ImbeOp.run E) as s = .ok s') (hb : runOps (ImbeOp.run E') bs t = .ok t') (hc : ImbeClose S s.prev t.prev) :
    ImbeClose (S * 0.7 ^ as.length) s'.prev t'.prev := by
  induction hab generalizing s t S with
  | nil =>
    rw [← ok_inj ha, ← ok_inj hb]
    simpa using hc
  | @cons a b as bs h _ ih =>
    obtain ⟨o, h1, h2⟩ := bind_ok ha
    obtain ⟨u, h3, h4⟩ := bind_ok hb
    obtain ⟨k1, k2, k3, _⟩ := imbeOp_r fits_imbe h1 hs.cache hs.zero hs.pset
    obtain ⟨m1, m2, m3, _⟩ := imbeOp_r fits_imbe h3 ht.cache ht.zero ht.pset
    have zs : ImbeI E o.st := ⟨k1, k3, k2⟩
    have zt : ImbeI E' u.st := ⟨m1, m3, m2⟩
    have := ih (fun a h => ga a (List.mem_cons_of_mem _ h)) (fun b h => gb b (List.mem_cons_of_mem _ h)) zs zt h2 h4
      (imbe_next hs ht h1 h3 (ga a List.mem_cons_self) (gb b List.mem_cons_self) h zs zt hc)
    rw [List.length_cons, show S * 0.7 ^ (as.length + 1) = 0.7 * S * 0.7 ^ as.length by ring]
    exact this

/-! ## AMBE -/

/-- What a voice frame leaves as previous frame. -/
structure AmbeFacts (S : Shape) (L : Int) (w0 step : ℝ) (pv p : Parms ℝ) : Prop where
  L_eq : p.L = L
  w0 : p.w0 = w0
  gamma : p.gamma = step + 1 / 2 * pv.gamma
  mean : meanLog p = p.gamma - 1 / 2 * Real.logb 2 p.L
  shape : HasShape S p.L.toNat (ambeResidual p pv)

/-- The contents of a voice frame. -/
noncomputable def opShape : AmbeOp ℝ → Shape
  | .v2450 _ _ _ d => shape2450Of d
  | .v2400 _ _ _ d => shape2400Of d

noncomputable def opL : AmbeOp ℝ → Int
  | .v2450 _ _ _ d => ambeHarmonics2450 (ambeFund2450 d)
  | .v2400 _ _ _ d => AmbePlusLtable.getD (ambeFund2400 d) 0

noncomputable def opW0 : AmbeOp ℝ → ℝ
  | .v2450 _ _ _ d => 2 * Real.pi * ambeF0_2450 (ambeFund2450 d)
  | .v2400 _ _ _ d => 2 * Real.pi * ambeF0_2400 (ambeFund2400 d)

noncomputable def opStep : AmbeOp ℝ → ℝ
  | .v2450 _ _ _ d => gainStep2450 d
  | .v2400 _ _ _ d => gainStep2400 d

theorem sameFrame_op {a b : AmbeOp ℝ} (h : AmbeOp.SameFrame a b) :
    opShape b = opShape a ∧ opL b = opL a ∧ opW0 b = opW0 a ∧ opStep b = opStep a := by
  cases a <;> cases b <;> first | exact h.elim | (cases h; exact ⟨rfl, rfl, rfl, rfl⟩)

theorem speech_prev {E : Env ℝ} {C : Call ℝ} {s : St ℝ} {p : Arr 160 ℝ × Option Char × St ℝ} (hr : s.cur.repeat_ = 0)
    (h : (if s.cur.repeat_ ≤ 3 then do
        let o ← speak E C s
        Except.ok (o.1, none, o.2)
      else do
        let o ← noiseAndReset C s
        Except.ok (o.1, some 'M', o.2) : Exec (Arr 160 ℝ × Option Char × St ℝ)) = .ok p) : p.2.2.prev = s.cur := by
  rw [if_pos (by omega)] at h
  obtain ⟨o, h1, h⟩ := bind_ok h
  rw [← ok_inj h]
  exact (speak_frame E C s _ h1).prev_eq

theorem ambePrepare_prev {errs2 : Int} {s s1 : St ℝ} (h : ambePrepare errs2 s = .ok s1) (hs : AInv s) : s1.prev = s.prev := by
  unfold ambePrepare ensureAmbeDefaults at h
  rw [hs.1.thr, thr_ambe_r, if_neg (by decide), ok_bind] at h
  rw [← ok_inj h]

theorem ambeGood_step {E : Env ℝ} {op : AmbeOp ℝ} {s : St ℝ} {o : Out ℝ} (h : op.run E s = .ok o) (hg : AmbeOp.Good op)
    (hc : CacheOk E s.tls) (hs : s.prev.mutingThreshold = mutingImbe ∨ AInv s) :
    ∃ pv, ASet pv ∧ (AInv s → pv = s.prev) ∧ AmbeFacts (opShape op) (opL op) (opW0 op) (opStep op) pv o.st.prev := by
  obtain ⟨hd, hk⟩ := hg
  cases op with
  | v2450 C c0 e d =>
    have hd : Bits 49 d := hd
    obtain ⟨s1, r, v, p, P⟩ := processAmbe2450_parts h
    obtain ⟨hI, htls, hmt⟩ := ambePrepare_r P.prepare hs
    unfold AmbeOp.kind at hk
    dsimp only at hk
    split at hk
    · cases hk
    rename_i hk1
    split at hk
    · cases hk
    rename_i hk2
    split at hk
    · cases hk
    rename_i hk3
    have hlo := hI.1.lo
    obtain ⟨r', h1, h2, h3, h4, h5, h6, _⟩ := Props.C53_2450 d hd e hk1 (by omega) E s1.cur s1.prev s1.tls (by rw [htls]; exact hc)
      (by omega) hI.1.hi
    obtain ⟨r2, h1', _, _, _, h7, h8⟩ := Props.C44_mean_2450 d hd e s1.cur s1.prev s1.tls (by omega) hI.1.hi hk1 (by omega)
    have hdec : decodeAmbe2450 true d e s1.cur s1.prev s1.tls = .ok r := by
      have := P.decode
      cases hl : E.lax with
      | true => rw [hl] at this; exact this
      | false => rw [hl] at this; exact (decodeAmbe2450_lax _ _ _ _ _).ok this
    rw [hdec] at h1 h1'
    cases h1
    cases h1'
    have hv := P.verdict
    have hp := P.render
    unfold ambe2450Verdict at hv
    rw [if_neg (by omega), if_neg (by omega), ambe2450Repeat_spec, if_neg hk3] at hv
    unfold ambe2450Render at hp
    rw [if_pos h2, ← ok_inj hv] at hp
    have hprev := speech_prev rfl hp
    rw [← P.st] at hprev
    refine ⟨s1.prev, hI.1, ambePrepare_prev P.prepare, ?_⟩
    rw [hprev]
    exact ⟨h3, h4, h7, h8, h5⟩
  | v2400 C e0 e d =>
    have hd : Bits 49 d := hd
    obtain ⟨s1, r, v, p, P⟩ := processAmbe2400_parts h
    obtain ⟨hI, htls, hmt⟩ := ambePrepare_r P.prepare hs
    unfold AmbeOp.kind at hk
    dsimp only at hk
    split at hk
    · cases hk
    rename_i hk1
    split at hk
    · cases hk
    rename_i hk2
    have hlo := hI.1.lo
    obtain ⟨r', h1, h2, h3, h4, h5, h6, _⟩ := Props.C53_2400 d hd (by omega) E s1.cur s1.prev s1.tls (by rw [htls]; exact hc)
      (by omega) hI.1.hi
    obtain ⟨r2, h1', _, _, _, h7, h8⟩ := Props.C44_mean_2400 d hd s1.cur s1.prev s1.tls (by omega) hI.1.hi (by omega)
    have hdec : decodeAmbe2400 true d s1.cur s1.prev s1.tls = .ok r := by
      have := P.decode
      cases hl : E.lax with
      | true => rw [hl] at this; exact this
      | false => rw [hl] at this; exact (decodeAmbe2400_lax _ _ _ _).ok this
    rw [hdec] at h1 h1'
    cases h1
    cases h1'
    have hv := P.verdict
    have hp := P.render
    unfold ambe2400Verdict at hv
    rw [if_neg (by omega), if_neg (by omega), if_neg (by omega), if_neg (by omega)] at hv
    unfold ambe2400Render at hp
    rw [if_pos h2, ← ok_inj hv] at hp
    have hprev := speech_prev rfl hp
    rw [← P.st] at hprev
    refine ⟨s1.prev, hI.1, ambePrepare_prev P.prepare, ?_⟩
    rw [hprev]
    exact ⟨h3, h4, h7, h8, h5⟩

/-- The previous spectrum as the AMBE prediction reads it. -/
noncomputable def ambeAmps (p : Parms ℝ) (i : Nat) : ℝ := logAmp p (max 1 i)

theorem pairs_aset {p : Parms ℝ} (h : ASet p) : Pairs 246 p.L.toNat (ambeAmps p) := by
  intro i j hi hj
  have := h.lo
  have := h.hi
  unfold ambeAmps logAmp
  rw [Arr.getD_lt (show max 1 i < 57 by omega), Arr.getD_lt (show max 1 j < 57 by omega)]
  exact h.spread _ _ (show 1 ≤ max 1 i by omega) (show ((max 1 i : Nat) : Int) ≤ p.L by omega) (show 1 ≤ max 1 j by omega)
    (show ((max 1 j : Nat) : Int) ≤ p.L by omega)

theorem opShape_facts (op : AmbeOp ℝ) {L : Nat} (h9 : 9 ≤ L) (h56 : L ≤ 56) : ((opShape op).lens.getD L []).length = 4 ∧
    ((opShape op).lens.getD L []).sum = L ∧ ∀ i, 1 ≤ i → i ≤ 4 → 2 ≤ len ((opShape op).lens.getD L []) i := by
  cases op with
  | v2450 C c0 e d =>
    obtain ⟨a, _, b⟩ := shape2450.lmr L (by omega) (by omega)
    exact ⟨a, b, fun i i1 i2 => lens2450_ge L (by omega) (by omega) i (by omega) i1⟩
  | v2400 C e0 e d =>
    obtain ⟨a, _, b⟩ := shape2400.lmr L (by omega) (by omega)
    exact ⟨a, b, fun i i1 i2 => lens2400_ge L (by omega) (by omega) i (by omega) i1⟩

/-- Two voice frames with the same payload: the difference is the difference of the predictions and a constant. -/
theorem ambe_diff {op : AmbeOp ℝ} {L : Int} {w0 step : ℝ} {pv qv p q : Parms ℝ} (hp : AmbeFacts (opShape op) L w0 step pv p)
    (hq : AmbeFacts (opShape op) L w0 step qv q) (h9 : 9 ≤ p.L) (h56 : p.L ≤ 56) :
    q.L = p.L ∧ q.w0 = p.w0 ∧ p.gamma - q.gamma = 1 / 2 * (pv.gamma - qv.gamma) ∧
    (∑ l ∈ Finset.Icc 1 p.L.toNat, logDiff p q l) / p.L = p.gamma - q.gamma ∧
    ∃ κ, ∀ l, 1 ≤ l → l ≤ p.L.toNat → logDiff p q l =
      prediction 0.65 (ambeAmps pv) pv.L.toNat p.L.toNat l - prediction 0.65 (ambeAmps qv) qv.L.toNat p.L.toNat l + κ := by
  have hL : q.L = p.L := by rw [hp.L_eq, hq.L_eq]
  refine ⟨hL, by rw [hp.w0, hq.w0], by rw [hp.gamma, hq.gamma]; ring, ?_, ?_⟩
  · have a := hp.mean
    have b := hq.mean
    rw [hL] at b
    have b : meanLog q = (∑ l ∈ Finset.Icc 1 q.L.toNat, logAmp q l) / q.L := rfl
    have a : meanLog p = (∑ l ∈ Finset.Icc 1 p.L.toNat, logAmp p l) / p.L := rfl
    unfold logDiff
    rw [Finset.sum_sub_distrib, sub_div, ← a]
    rw [hL] at b
    rw [← b, hp.mean, hq.mean, hL]
    ring
  · obtain ⟨f1, f2, f3⟩ := opShape_facts op (L := p.L.toNat) (by omega) (by omega)
    have hs := hq.shape
    rw [hL] at hs
    obtain ⟨κ, hκ⟩ := hasShape_unique f1 f2 f3 hp.shape hs
    refine ⟨κ, fun l l1 l2 => ?_⟩
    have := hκ l l1 l2
    unfold ambeResidual at this
    rw [hL] at this
    unfold logDiff
    show _ = prediction 0.65 (fun i => logAmp pv (max 1 i)) _ _ _ - prediction 0.65 (fun i => logAmp qv (max 1 i)) _ _ _ + _
    linarith

/-- Two AMBE decoders after a common frame: `S` bounds the variation of the difference, `G` the difference of the
gains. -/
structure AmbeClose (S G : ℝ) (p q : Parms ℝ) : Prop where
  L_eq : q.L = p.L
  w0 : q.w0 = p.w0
  gamma : |p.gamma - q.gamma| ≤ G
  mean : (∑ l ∈ Finset.Icc 1 p.L.toNat, logDiff p q l) / p.L = p.gamma - q.gamma
  pairs : Pairs S p.L.toNat (fun i => ambeAmps p i - ambeAmps q i)

theorem ambe_close {op : AmbeOp ℝ} {L : Int} {w0 step : ℝ} {pv qv p q : Parms ℝ} (hp : AmbeFacts (opShape op) L w0 step pv p)
    (hq : AmbeFacts (opShape op) L w0 step qv q) (zp : ASet p) {T G : ℝ} (hG : |pv.gamma - qv.gamma| ≤ G)
    (hb : ∀ l k, l ≤ p.L.toNat → k ≤ p.L.toNat →
        (prediction 0.65 (ambeAmps pv) pv.L.toNat p.L.toNat l - prediction 0.65 (ambeAmps qv) qv.L.toNat p.L.toNat l) -
        (prediction 0.65 (ambeAmps pv) pv.L.toNat p.L.toNat k - prediction 0.65 (ambeAmps qv) qv.L.toNat p.L.toNat k) ≤ T) :
    AmbeClose T (1 / 2 * G) p q := by
  have hlo := zp.lo
  obtain ⟨e1, e2, e3, e4, κ, e5⟩ := ambe_diff hp hq zp.lo zp.hi
  refine ⟨e1, e2, ?_, e4, fun i j hi hj => ?_⟩
  · rw [e3, abs_mul, abs_of_nonneg (by norm_num : (0 : ℝ) ≤ 1 / 2)]
    linarith
  · show logDiff p q (max 1 i) - logDiff p q (max 1 j) ≤ T
    rw [e5 _ (by omega) (by omega), e5 _ (by omega) (by omega)]
    have := hb (max 1 i) (max 1 j) (by omega) (by omega)
    linarith

theorem ambe_first {E E' : Env ℝ} {a b : AmbeOp ℝ} {s t : St ℝ} {o u : Out ℝ}
    (cs : CacheOk E s.tls) (ct : CacheOk E' t.tls) (hs : s.prev.mutingThreshold = mutingImbe ∨ AInv s)
    (ht : t.prev.mutingThreshold = mutingImbe ∨ AInv t) (ha : a.run E s = .ok o) (hb : b.run E' t = .ok u) (ga : AmbeOp.Good a)
    (gb : AmbeOp.Good b) (hab : AmbeOp.SameFrame a b) (zs : AInv o.st) : AmbeClose (492 * 0.65) (27.6 * 0.5) o.st.prev u.st.prev := by
  obtain ⟨pv, z1, _, fa⟩ := ambeGood_step ha ga cs hs
  obtain ⟨qv, z2, _, fb⟩ := ambeGood_step hb gb ct ht
  obtain ⟨q1, q2, q3, q4⟩ := sameFrame_op hab
  rw [q1, q2, q3, q4] at fb
  have := zs.1.lo
  have g1 := abs_le.mp z1.gamma
  have g2 := abs_le.mp z2.gamma
  have k := ambe_close fa fb zs.1 (G := 27.6) (T := 0.65 * (246 + 246)) (by rw [abs_le]; constructor <;> linarith)
    (prediction_bound2 (L := o.st.prev.L.toNat) (by norm_num) (le_refl _) (by omega) (pairs_aset z1) (pairs_aset z2)).2
  norm_num at k ⊢
  exact k

theorem ambe_next {E E' : Env ℝ} {a b : AmbeOp ℝ} {s t : St ℝ} {o u : Out ℝ} {S G : ℝ}
    (cs : CacheOk E s.tls) (ct : CacheOk E' t.tls) (hs : AInv s) (ht : AInv t) (ha : a.run E s = .ok o) (hb : b.run E' t = .ok u)
    (ga : AmbeOp.Good a) (gb : AmbeOp.Good b) (hab : AmbeOp.SameFrame a b) (zs : AInv o.st) (hc : AmbeClose S G s.prev t.prev) :
    AmbeClose (0.65 * S) (1 / 2 * G) o.st.prev u.st.prev := by
  obtain ⟨pv, z1, e1, fa⟩ := ambeGood_step ha ga cs (.inr hs)
  obtain ⟨qv, z2, e2, fb⟩ := ambeGood_step hb gb ct (.inr ht)
  obtain ⟨q1, q2, q3, q4⟩ := sameFrame_op hab
  rw [q1, q2, q3, q4] at fb
  rw [e1 hs] at fa
  rw [e2 ht] at fb
  have := zs.1.lo
  refine ambe_close fa fb zs.1 hc.gamma ?_
  rw [hc.L_eq]
  have := (prediction_bound (L := o.st.prev.L.toNat) (rho := 0.65) (by norm_num) (le_refl _) (by omega) hc.pairs).2
  simp only [prediction_sub] at this
  exact this

theorem ambe_run {E E' : Env ℝ} {as bs : List (AmbeOp ℝ)} (hab : List.Forall₂ AmbeOp.SameFrame as bs) {s t s' t' : St ℝ} {S G : ℝ}
    (ga : ∀ a ∈ as, AmbeOp.Good a) (gb : ∀ b ∈ bs, AmbeOp.Good b) (cs : CacheOk E s.tls) (ct : CacheOk E' t.tls) (hs : AInv s) (ht : AInv t)
    (ha : runOps (AmbeOp.run E) as s = .ok s') (hb : runOps (AmbeOp.run E') bs t = .ok t') (hc : AmbeClose S G s.prev t.prev) :
    AInv s' ∧ AmbeClose (S * 0.65 ^ as.length) (G * 0.5 ^ as.length) s'.prev t'.prev := by
  induction hab generalizing s t S G with
  | nil =>
    rw [← ok_inj ha, ← ok_inj hb]
    simpa using ⟨hs, hc⟩
  | @cons a b as bs h _ ih =>
    obtain ⟨o, h1, h2⟩ := bind_ok ha
    obtain ⟨u, h3, h4⟩ := bind_ok hb
    obtain ⟨k1, k2⟩ := ambeOp_r h1 cs (.inr hs)
    obtain ⟨m1, m2⟩ := ambeOp_r h3 ct (.inr ht)
    have := ih (fun a h => ga a (List.mem_cons_of_mem _ h)) (fun b h => gb b (List.mem_cons_of_mem _ h)) k1 m1 k2 m2 h2 h4
      (ambe_next cs ct hs ht h1 h3 (ga a List.mem_cons_self) (gb b List.mem_cons_self) h k2 hc)
    rw [List.length_cons, show S * 0.65 ^ (as.length + 1) = 0.65 * S * 0.65 ^ as.length by ring,
      show G * 0.5 ^ (as.length + 1) = 1 / 2 * G * 0.5 ^ as.length by ring]
    exact this

theorem AmbeClose.band {S G : ℝ} {p q : Parms ℝ} (h : AmbeClose S G p q) (hp : ASet p) {l : Nat} (l1 : 1 ≤ l) (l2 : l ≤ p.L.toNat) :
    |logDiff p q l| ≤ S + G := by
  have hlo := hp.lo
  have e : ∀ k, 1 ≤ k → logDiff p q k = ambeAmps p k - ambeAmps q k := by
    intro k hk
    unfold ambeAmps logDiff
    rw [max_eq_right hk]
  obtain ⟨m1, m2⟩ := mean_range (L := p.L) (f := logDiff p q) (lo := logDiff p q l - S) (hi := logDiff p q l + S) (by omega)
    fun k k1 k2 => by
      rw [e k k1, e l l1]
      have a := h.pairs k l (by omega) l2
      have b := h.pairs l k l2 (by omega)
      constructor <;> linarith
  rw [h.mean] at m1 m2
  have g := abs_le.mp h.gamma
  rw [abs_le]
  constructor <;> linarith

end Verif.Model
