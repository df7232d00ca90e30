import Verif.Lemmas.LogSim
import Verif.Lemmas.Steps
import Verif.Lemmas.RepeatHist
import Verif.Lemmas.Cache
import Verif.Lemmas.ImbeDecode
import Verif.Spec.Track

/-!
# The IMBE log amplitudes in binary32 against exact arithmetic: histories
-/

namespace Verif.Model
open Verif Verif.Gen Verif.Spec Verif.Num Arith
variable {m : Libm}

theorem cacheNear_imbe (hm : LibmAcc m) {E : Env (IEEE m)} {t : Tls (IEEE m)} (h : CacheOk E t) :
    CacheNear (imbeGetCache t).1 (imbeGetCache (Tls.start : Tls ℝ)).1 := by
  have h1 : (imbeGetCache t).1 = fillCache 7 11 := by
    unfold imbeGetCache
    cases h1 : t.imbeCache with
    | some c => exact h.1 c h1
    | none => rfl
  rw [h1]
  exact fillCache_near hm (by decide) (by decide) (by decide)

theorem decodeImbe4400_good_r {d : Nat → Int} (hd : Bits 88 d) (h : imbeFund d ≤ 207) (lax : Bool) (cur prev : Parms ℝ) (t : Tls ℝ) :
    decodeImbe4400 lax d cur prev t =
      imbeDecodeBody lax d (imbeLTab (imbeFund d) : Nat) (imbeBands (imbeLTab (imbeFund d)) : Nat)
        { cur with repeat_ := prev.repeat_, w0 := imbeW0 (imbeFund d), L := (imbeLTab (imbeFund d) : Nat),
                   K := (imbeBands (imbeLTab (imbeFund d)) : Nat) } prev t := by
  unfold decodeImbe4400
  obtain ⟨r1, r2⟩ := imbeLTab_range (imbeFund d) (by omega)
  rw [imbeFund_field hd, ok_bind, if_neg (by omega)]
  simp only []
  rw [imbeLOfW0_r (show imbeFund d < 1000 by omega) (imbeW0_r _), ok_bind, if_neg (by omega), imbeKOfL_r r1 (by omega), ok_bind]

/-- A frame decoded in exact arithmetic keeps the bounds of the log amplitudes. -/
theorem exactFrame_pset {d : Nat → Int} (hd : Bits 88 d) (hf : imbeFund d ≤ 207) {p : Parms ℝ} (hp : PSet 0 248 211 p) :
    ∃ r', decodeImbe4400 true d p p Tls.start = .ok r' ∧ exactFrame d p = r'.cur ∧ r'.cur.L = (imbeLTab (imbeFund d) : Nat) ∧
      PSet 0 248 211 r'.cur := by
  have plo := hp.lo
  have phi := hp.hi
  have pz : p.log2Ml 0 = 0 := abs_eq_zero.mp (le_antisymm hp.zero (abs_nonneg _))
  obtain ⟨P, hP⟩ := Int.eq_ofNat_of_zero_le (show 0 ≤ p.L by omega)
  obtain ⟨r', hr', _, _, hg⟩ := decodeImbe4400_total_r hd p p Tls.start hP (by omega)
  obtain ⟨hb, hrL⟩ := hg hf
  have hx : exactFrame d p = r'.cur := by unfold exactFrame; rw [hr']
  obtain ⟨fd, _⟩ := decodeImbe4400_frame _ _ _ _ _ _ hr'
  have hL : r'.prev.L = p.L := by rw [fd.prev_eq]
  have h0 := decodeImbe4400_zero (by omega) _ hr'
  have hk := decodeImbe4400_keep _ _ _ _ _ _ hr'
  have hv := decodeImbe4400_r _ _ _ _ _ _ hr' hb
  refine ⟨r', hr', hx, hrL, pset_imbe fits_imbe (c := CacheBnd (imbeGetCache (Tls.start : Tls ℝ)).1) ?_ hv (by rw [pz]; simp) hp hL h0 hk⟩
  have : (imbeGetCache (Tls.start : Tls ℝ)).1 = fillCache 7 11 := by
    unfold imbeGetCache
    rfl
  rw [this]
  exact fillCache_bnd 7 11

/-- A decoded frame against the exact one. -/
theorem decodeImbe4400_close (hm : LibmAcc m) {lax : Bool} {d : Nat → Int} (hd : Bits 88 d) (hf : imbeFund d ≤ 207)
    {E : Env (IEEE m)} {cur prev : Parms (IEEE m)} {p : Parms ℝ} {t : Tls (IEEE m)} (hc : CacheOk E t) (hp : Close prev p) (ho : LogOk cur)
    {r : DecodeRes (IEEE m)} (h : decodeImbe4400 lax d cur prev t = .ok r) :
    Close r.cur (exactFrame d p) ∧ Close r.prev p := by
  have plo := hp.set.lo
  have phi := hp.set.hi
  have pz : p.log2Ml 0 = 0 := abs_eq_zero.mp (le_antisymm hp.set.zero (abs_nonneg _))
  obtain ⟨r', hr', hx, hrL, hpset⟩ := exactFrame_pset hd hf hp.set
  obtain ⟨r1, r2⟩ := imbeLTab_range (imbeFund d) (by omega)
  rw [decodeImbe4400_good hd hf] at h
  rw [decodeImbe4400_good_r hd hf] at hr'
  have hiL : r.cur.L = (imbeLTab (imbeFund d) : Nat) := by
    obtain ⟨_, V, e⟩ := imbeDecodeBody_post _ _ _ _ _ _ _ _ h
    rw [e]
  have hlog : ∀ (w : IEEE m) (L K : Int), LogOk { cur with repeat_ := prev.repeat_, w0 := w, L := L, K := K } :=
    fun _ _ _ => ⟨ho.num, ho.zero, ho.phi⟩
  have key := imbeBody_close hm r1 r2 (cacheNear_imbe hm hc) hp (hlog (imbeW0 (imbeFund d)) (imbeLTab (imbeFund d) : Nat) (imbeBands (imbeLTab (imbeFund d)) : Nat))
    (cur' := { p with repeat_ := p.repeat_, w0 := imbeW0 (imbeFund d), L := (imbeLTab (imbeFund d) : Nat), K := (imbeBands (imbeLTab (imbeFund d)) : Nat) })
    pz r r' h hr'
  obtain ⟨_, b1, b2, b3, b4, b5⟩ := key
  obtain ⟨_, _, _, _, e2, _⟩ := imbeDecodeBody_inv h
  rw [hx]
  have hL := hp.L_eq
  obtain ⟨x1, x2, x3, x4⟩ := extendPrev_logs (L := (imbeLTab (imbeFund d) : Nat)) (prev := prev) (by omega) (by omega) _ e2
  have hz : r.cur.log2Ml 0 = cur.log2Ml 0 := b1 0 (.inl (by decide))
  refine ⟨⟨by rw [hiL, hrL], ⟨fun i => ?_, ?_, ?_⟩, hpset, ?_, ?_⟩, ?_⟩
  · by_cases c : 1 ≤ i.val ∧ i.val ≤ imbeLTab (imbeFund d)
    · refine ⟨b3 i c.1 c.2, ?_⟩
      have u1 := b5 i c.2
      have u2 := hpset.band i c.1 (by rw [hrL]; exact_mod_cast c.2)
      unfold lerr at u1
      rw [abs_le] at u1 u2 ⊢
      constructor <;> linarith [u1.1, u1.2, u2.1, u2.2]
    · rw [b1 i (by omega)]
      exact ho.num i
  · rw [hz]; exact ho.zero
  · rw [b2]; exact ho.phi
  · intro i j hi hj
    rw [hrL] at hi hj
    exact b4 i j (by omega) (by omega)
  · intro i hi
    rw [hrL] at hi
    exact b5 i (by omega)
  · exact hp.of (hp.ok.of (x2 0 (by show (0 : Int) ≤ _; omega)) x3 (by rw [x4])) x1 rfl x2 fun _ _ => rfl

/-! ## One call -/

theorem lit0_val : Val (lit 0 1 : IEEE m) 0 := val_of_rng (show rngB (lit 0 1 : IEEE libm0) 0 0 = true by decide +kernel)

theorem fi0_val : Val (fi 0 : IEEE m) 0 := val_of_rng (show rngB (fi 0 : IEEE libm0) 0 0 = true by decide +kernel)

theorem logOk_zero {p : Parms (IEEE m)} (h : ∀ i, Val (p.log2Ml i) 0) (hp : Val (p.PHIl 0) 0) : LogOk p := by
  refine ⟨fun i => ?_, Val.fq_eq (h 0), hp⟩
  rw [Val.fq_eq (h i)]
  exact ⟨h i, by norm_num⟩

theorem close_zero {p : Parms (IEEE m)} (h : ∀ i, Val (p.log2Ml i) 0) (hp : Val (p.PHIl 0) 0) (hL : p.L = 39) (q : Parms ℝ) :
    Close p { q with L := 39, log2Ml := Arr.const 57 0 } := by
  have z : ∀ i, lerr p { q with L := 39, log2Ml := Arr.const 57 0 } i = 0 := by
    intro i
    unfold lerr
    rw [Val.fq_eq (h i)]
    show ((0 : ℚ) : ℝ) - 0 = 0
    norm_num
  refine ⟨hL, logOk_zero h hp, pset_zero (le_refl _) (by norm_num) (by norm_num) (show (9 : Int) ≤ 39 by decide)
    (show (39 : Int) ≤ 56 by decide) fun _ => rfl, fun i j _ _ => ?_, fun i _ => ?_⟩
  · rw [z, z]; norm_num
  · rw [z]; norm_num

/-- The invariant of a history. -/
structure Track (E : Env (IEEE m)) (s : St (IEEE m)) (a : ImbeAbs (IEEE m)) (p : Parms ℝ) : Prop where
  cache : CacheOk E s.tls
  close : Close s.prev p
  ok : LogOk s.cur
  inv : ImbeInv a s

theorem processImbe4400_close (hm : LibmAcc m) {E : Env (IEEE m)} {C : Call (IEEE m)} {c0 : Option Int} {errs2 : Int} {d : Nat → Int}
    (hd : Bits 88 d) {s : St (IEEE m)} {o : Out (IEEE m)} {p : Parms ℝ} (h : processImbe4400 E C c0 errs2 d s = .ok o)
    (hc : CacheOk E s.tls) (hp : Close s.prev p) (ho : LogOk s.cur) :
    Close o.st.prev (if imbeIsRepeat (imbeFund d) c0 errs2 (imbeRate s.prev.errorRate errs2) then
        (if 3 < s.prev.repeatCount then { p with L := 39, log2Ml := Arr.const 57 0 } else p) else exactFrame d p) ∧
      LogOk o.st.cur := by
  obtain ⟨r, cur, sp, P⟩ := processImbe4400_parts h
  obtain ⟨fd, _, _⟩ := decodeImbe4400_frame _ _ _ _ _ _ P.decode
  have hf := speak_frame E C _ _ P.spoken
  have hφ := speak_phi0 E C _ _ P.spoken
  have hrate : r.cur.errorRate = imbeRate s.prev.errorRate errs2 := by
    rw [fd.cur_eq, imbePrepare_cur]; rfl
  have hprev : o.st.prev = cur := by rw [P.st]; exact hf.prev_eq
  have hlog : o.st.cur.log2Ml = cur.log2Ml := by rw [P.st, hf.cur_eq]
  have hcnt : r.prev.repeatCount = s.prev.repeatCount := by rw [fd.prev_eq]
  have hrep := P.repeated
  rw [hrate, decodeImbe4400_bad_iff hd P.decode, imbeRepeatRequired_spec] at hrep
  have ho' : LogOk (imbePrepare c0 errs2 s).cur := by
    rw [imbePrepare_cur]
    exact ⟨ho.num, ho.zero, ho.phi⟩
  have hdec : LogOk r.cur ∧ Close r.prev p ∧ (imbeFund d ≤ 207 → Close r.cur (exactFrame d p)) := by
    by_cases hfd : imbeFund d ≤ 207
    · obtain ⟨a, b⟩ := decodeImbe4400_close hm hd hfd hc hp ho' P.decode
      exact ⟨a.ok, b, fun _ => a⟩
    · have e := P.decode
      rw [decodeImbe4400_bad hd (by omega)] at e
      rw [← ok_inj e]
      exact ⟨⟨ho'.num, ho'.zero, ho'.phi⟩, hp, fun h => absurd h hfd⟩
  obtain ⟨d1, d2, d3⟩ := hdec
  have key : Close cur (if imbeIsRepeat (imbeFund d) c0 errs2 (imbeRate s.prev.errorRate errs2) then
        (if 3 < s.prev.repeatCount then { p with L := 39, log2Ml := Arr.const 57 0 } else p) else exactFrame d p) := by
    have nr : imbeIsRepeat (imbeFund d) c0 errs2 (imbeRate s.prev.errorRate errs2) = false → imbeFund d ≤ 207 := by
      intro e
      unfold imbeIsRepeat at e
      by_contra c
      rw [decide_eq_true (by omega : 207 < imbeFund d)] at e
      simp at e
    generalize imbeIsRepeat (imbeFund d) c0 errs2 (imbeRate s.prev.errorRate errs2) = rep at hrep nr
    cases rep with
    | true =>
      rw [imbeRepeat, if_pos rfl] at hrep
      rw [if_pos rfl]
      by_cases c : 3 < s.prev.repeatCount
      · rw [if_pos (by omega), imbeReset_ieee] at hrep
        rw [if_pos c]
        have e : cur = imbeHeadroom 39 r.cur := (ok_inj hrep).symm
        have e1 : ∀ i, Val (cur.log2Ml i) 0 := fun i => by rw [e]; exact lit0_val (m := m)
        have e2 : Val (cur.PHIl 0) 0 := by rw [e]; exact d1.phi
        have e3 : cur.L = 39 := by rw [e]; rfl
        exact close_zero e1 e2 e3 p
      · rw [if_neg (by omega)] at hrep
        rw [if_neg c, repeatLast_inv hrep]
        exact d2.of ⟨d2.ok.num, d2.ok.zero, d2.ok.phi⟩ rfl rfl (fun _ _ => rfl) fun _ _ => rfl
    | false =>
      rw [imbeRepeat, if_neg (by decide)] at hrep
      rw [if_neg (by decide), ← ok_inj hrep]
      have k := d3 (nr rfl)
      exact k.of ⟨k.ok.num, k.ok.zero, k.ok.phi⟩ rfl rfl (fun _ _ => rfl) fun _ _ => rfl
  rw [hprev]
  refine ⟨key, ?_, ?_, ?_⟩
  · rw [hlog]; exact key.ok.num
  · rw [hlog]; exact key.ok.zero
  · rw [P.st, hφ]; exact key.ok.phi

theorem track_step (hm : LibmAcc m) {E : Env (IEEE m)} {op : ImbeOp (IEEE m)} (hd : Bits 88 op.d) {s : St (IEEE m)} {o : Out (IEEE m)}
    {a : ImbeAbs (IEEE m)} {p : Parms ℝ} (hT : Track E s a p) (h : op.run E s = .ok o) :
    Track E o.st (trackNext (a, p) op).1 (trackNext (a, p) op).2 := by
  obtain ⟨b, hb, hs⟩ := (imbeOp_sim op ⟨rfl, rfl, rfl, Sim.refl hT.cache⟩).of_ok h
  refine ⟨hs.st.tls.l, ?_, ?_, imbeInv_step hd hT.inv h⟩
  all_goals
    have key : Close o.st.prev (if imbeIsRepeat (imbeFund op.d) (op.counts.map (·.1)) op.errs2 (imbeRate s.prev.errorRate op.errs2) then
        (if 3 < s.prev.repeatCount then { p with L := 39, log2Ml := Arr.const 57 0 } else p) else exactFrame op.d p) ∧
        LogOk o.st.cur := by
      obtain ⟨C, cs, e, d⟩ := op
      cases cs with
      | none => exact processImbe4400_close hm hd h hT.cache hT.close hT.ok
      | some c =>
        exact processImbe4400_close hm hd (s := { s with cur := { s.cur with errorCount4 := c.2 } }) h hT.cache hT.close
          ⟨hT.ok.num, hT.ok.zero, hT.ok.phi⟩
    rw [hT.inv.rate, hT.inv.count] at key
  · have e : (3 < ((a.streak % 5 : Nat) : Int)) ↔ a.streak % 5 = 4 := by omega
    simp only [e] at key
    exact key.1
  · exact key.2

theorem track_run (hm : LibmAcc m) {E : Env (IEEE m)} {ops : List (ImbeOp (IEEE m))} (hd : ∀ op ∈ ops, Bits 88 op.d)
    {s s' : St (IEEE m)} {x : ImbeAbs (IEEE m) × Parms ℝ} (hT : Track E s x.1 x.2) (h : runOps (ImbeOp.run E) ops s = .ok s') :
    Track E s' (ops.foldl trackNext x).1 (ops.foldl trackNext x).2 := by
  induction ops generalizing s x with
  | nil => cases h; exact hT
  | cons op ops ih =>
    obtain ⟨o, h1, h2⟩ := bind_ok h
    exact ih (fun y hy => hd y (.tail _ hy)) (track_step hm (hd op (.head _)) hT h1) h2

theorem track_init {E : Env (IEEE m)} {t : Tls (IEEE m)} (h : CacheOk E t) (p : Parms ℝ) :
    Track E ⟨imbeInit 39, imbeInit 39, imbeInit 39, t⟩ ImbeAbs.init { p with L := 39, log2Ml := Arr.const 57 0 } :=
  ⟨h, close_zero (fun _ => fi0_val) fi0_val rfl p, logOk_zero (fun _ => fi0_val) fi0_val, imbeInv_init t⟩

end Verif.Model
