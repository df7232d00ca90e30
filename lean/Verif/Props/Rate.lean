import Verif.Spec.Rate
import Verif.Props.Repeat

/-!
# C59: the error rate
-/

namespace Verif.Props
open Verif Verif.Spec Verif.Model Verif.Num Verif.Gen Arith
variable {m : Libm}

/-! ## AMBE -/

/-- One AMBE frame follows the filter. -/
theorem ambeRate_step {E : Env (IEEE m)} {op : AmbeOp (IEEE m)} (hd : Bits 49 op.payload) {s : St (IEEE m)}
    {o : Out (IEEE m)} {a : AmbeAbs (IEEE m)} (hI : AmbeInv a.pending s) (hr : s.prev.errorRate = a.rate)
    (h : op.run E s = .ok o) : AmbeInv (a.next op).pending o.st ∧ o.st.prev.errorRate = (a.next op).rate := by
  have st := ambeOp_step hd hI h
  have he : ambeOpErrs op = op.errs2 := by cases op <;> rfl
  refine ⟨st.inv, ?_⟩
  have hn : a.pending ≤ 3 := by have := hI.prev.hi; have := hI.count; omega
  unfold AmbeAbs.next
  cases hk : op.kind with
  | voice => exact (st.counts (.inl hk)).1.trans (by rw [hr, he]; rfl)
  | erasure => exact (st.counts (.inr hk)).1.trans (by rw [hr, he]; rfl)
  | tone => rw [st.tone hk]; exact hr
  | noise => rw [(st.noise hk).2.2.1]; rfl
  | repeat_ =>
    dsimp only
    by_cases h3 : a.pending = 3
    · rw [if_pos h3, (st.mute hk h3).2.2.1]; rfl
    · rw [if_neg h3, (st.last hk (by omega)).1]; exact hr

/-- Over every history of AMBE frames of both rates the stored error rate is that of the filter: it runs for speech and
erasures, stands still for tones and repeats, and is cleared when four repeats in a row or a frame without speech reset
the decoder. -/
theorem C59_ambe_rate (E : Env (IEEE m)) (s0 s1 s : St (IEEE m)) (hi : initAmbeState s0 = .ok s1)
    (ops : List (AmbeOp (IEEE m))) (hd : ∀ op ∈ ops, Bits 49 op.payload) (h : runOps (AmbeOp.run E) ops s1 = .ok s) :
    s.prev.errorRate = (ops.foldl AmbeAbs.next AmbeAbs.init).rate ∧
    s.prev.repeatCount = (ops.foldl AmbeAbs.next AmbeAbs.init).pending := by
  rw [initAmbeState_eq] at hi
  cases hi
  have key : ∀ (ops : List (AmbeOp (IEEE m))) (a : AmbeAbs (IEEE m)) (s s' : St (IEEE m)),
      (∀ op ∈ ops, Bits 49 op.payload) → AmbeInv a.pending s → s.prev.errorRate = a.rate →
      runOps (AmbeOp.run E) ops s = .ok s' →
      s'.prev.errorRate = (ops.foldl AmbeAbs.next a).rate ∧ s'.prev.repeatCount = (ops.foldl AmbeAbs.next a).pending := by
    intro ops
    induction ops with
    | nil =>
      intro a s s' _ h1 h2 h
      cases h
      exact ⟨h2, h1.count⟩
    | cons op ops ih =>
      intro a s s' hd h1 h2 h
      obtain ⟨o, h3, h4⟩ := bind_ok h
      obtain ⟨g1, g2⟩ := ambeRate_step (hd op (.head _)) h1 h2 h3
      exact ih _ _ _ (fun x hx => hd x (.tail _ hx)) g1 g2 h4
  exact key ops AmbeAbs.init _ s hd (ambeInit_inv s0.tls) rfl h

/-- Speech, erasures: the counts that smoothing will look at are those of this frame; the coset 4 count is zero. -/
theorem C59_ambe_counts (E : Env (IEEE m)) (op : AmbeOp (IEEE m)) (hd : Bits 49 op.payload) (s : St (IEEE m)) (n : Nat)
    (hI : AmbeInv n s) (o : Out (IEEE m)) (h : op.run E s = .ok o) (hk : op.kind = .voice ∨ op.kind = .erasure) :
    o.st.prev.errorRate = ambeRate s.prev.errorRate op.errs2 ∧ o.st.prev.errorCountTotal = op.errs2 ∧
    o.st.prev.errorCount4 = 0 := by
  have he : ambeOpErrs op = op.errs2 := by cases op <;> rfl
  have := (ambeOp_step hd hI h).counts hk
  rw [he] at this
  exact this

/-! ## IMBE -/

theorem rateConst0 : IEEE.get (lit 95 100 : IEEE libm0) = FP.fin false (15938355 / 16777216) ∧
    IEEE.get (lit 365 1000000 : IEEE libm0) = FP.fin false (12541305 / 34359738368) ∧
    IEEE.get (lit 875 10000 : IEEE libm0) = FP.fin false (11744051 / 134217728) := by decide +kernel

/-- A rate between 0 and `T`. -/
def RateIn (T : ℚ) (x : FP) : Prop := ∃ q, Val x q ∧ 0 ≤ q ∧ q ≤ T

theorem RateIn.step {x : IEEE m} {T T' : ℚ} {N e : Int} (hx : RateIn T x) (h0 : 0 ≤ e) (he : e ≤ N) (hN : N ≤ 1000) (hT : T ≤ 1)
    (h : rnd F32 (rnd F32 (15938355 / 16777216 * T) + rnd F32 (12541305 / 34359738368 * N)) ≤ T') :
    RateIn T' (IEEE.get (imbeRate x e)) := by
  have c1 : Val (lit 95 100 : IEEE m) (15938355 / 16777216) := ⟨false, rateConst0.1⟩
  have c2 : Val (lit 365 1000000 : IEEE m) (12541305 / 34359738368) := ⟨false, rateConst0.2.1⟩
  obtain ⟨q, hq, q0, qT⟩ := hx
  have one : rnd F32 1 = 1 := by have := rnd_int F32_p F32_emin (n := 1) (by decide); exact_mod_cast this
  have e0 : (0 : ℚ) ≤ (e : ℚ) := by exact_mod_cast h0
  have eN : (e : ℚ) ≤ (N : ℚ) := by exact_mod_cast he
  have N1 : (N : ℚ) ≤ 1000 := by exact_mod_cast hN
  have b1 : (0 : ℚ) ≤ 15938355 / 16777216 * q := by positivity
  have b2 : (15938355 / 16777216 * q : ℚ) ≤ 1 := by linarith
  have b3 : (0 : ℚ) ≤ 12541305 / 34359738368 * e := by positivity
  have b4 : (12541305 / 34359738368 * e : ℚ) ≤ 1 := by linarith
  have hb : (2 : ℚ) ≤ Val.big := by rw [Val.big_eq]; norm_num
  have m1 := Val.mul (m := m) c1 hq (by rw [abs_of_nonneg b1]; linarith)
  have m2 := Val.mul (m := m) c2 (Val.ofInt (m := m) (n := e) (by rw [abs_of_nonneg h0]; omega)) (by rw [abs_of_nonneg b3]; linarith)
  have r1 : rnd F32 (15938355 / 16777216 * q) ≤ 1 := one ▸ rnd_mono F32_p b2
  have r2 : rnd F32 (12541305 / 34359738368 * e) ≤ 1 := one ▸ rnd_mono F32_p b4
  have r3 := rnd_nonneg (f := F32) b1
  have r4 := rnd_nonneg (f := F32) b3
  have a := Val.add m1 m2 (by rw [abs_of_nonneg (by linarith)]; linarith)
  refine ⟨_, a, rnd_nonneg (by linarith), le_trans (rnd_mono F32_p (add_le_add (rnd_mono F32_p ?_) (rnd_mono F32_p ?_))) h⟩
  · linarith
  · linarith

theorem RateIn.notAbove {x : IEEE m} (h : RateIn (11744051 / 134217728) x) : lt (lit 875 10000) x = false := by
  obtain ⟨q, hq, _, h⟩ := h
  have c : Val (lit 875 10000 : IEEE m) (11744051 / 134217728) := ⟨false, rateConst0.2.2⟩
  rw [Val.lt c hq]
  exact decide_eq_false (not_lt.2 h)

theorem RateIn.run {T : ℚ} {N : Int} (hN : N ≤ 1000) (hT : T ≤ 1)
    (h : rnd F32 (rnd F32 (15938355 / 16777216 * T) + rnd F32 (12541305 / 34359738368 * N)) ≤ T)
    (ops : List (ImbeOp (IEEE m))) (he : ∀ op ∈ ops, 0 ≤ op.errs2 ∧ op.errs2 ≤ N) (a : ImbeAbs (IEEE m))
    (ha : RateIn T (IEEE.get a.rate)) : RateIn T (IEEE.get (ops.foldl ImbeAbs.next a).rate) := by
  induction ops generalizing a with
  | nil => exact ha
  | cons op ops ih =>
    refine ih (fun x hx => he x (.tail _ hx)) _ ?_
    have hs : RateIn T (IEEE.get (imbeRate a.rate op.errs2)) :=
      RateIn.step ha (he op (.head _)).1 (he op (.head _)).2 hN hT h
    unfold ImbeAbs.next
    split
    · dsimp only
      split
      · exact hs
      · exact ha
    · exact hs

theorem RateIn.zero {T : ℚ} (h : 0 ≤ T) : RateIn T (IEEE.get (ImbeAbs.init (F := IEEE m)).rate) := ⟨0, ⟨false, rfl⟩, le_refl _, h⟩

/-- **Up to 11 errors per frame never mute.** If no frame has more than 11 errors, the error rate stays at or below
0.0875 and the only frames marked `M` are the fourth repeats of a five-frame cycle. -/
theorem C59_imbe_eleven (E : Env (IEEE m)) (s0 s1 s : St (IEEE m)) (hi : initMbeState s0 = .ok s1)
    (ops : List (ImbeOp (IEEE m))) (hd : ∀ op ∈ ops, Bits 88 op.d) (he : ∀ op ∈ ops, 0 ≤ op.errs2 ∧ op.errs2 ≤ 11)
    (h : runOps (ImbeOp.run E) ops s1 = .ok s)
    (op : ImbeOp (IEEE m)) (hop : Bits 88 op.d) (hoe : 0 ≤ op.errs2 ∧ op.errs2 ≤ 11) (o : Out (IEEE m))
    (ho : op.run E s = .ok o) :
    lt (lit 875 10000) o.st.prev.errorRate = false ∧
    ('M' ∈ o.str ↔ ((ops.foldl ImbeAbs.next ImbeAbs.init).next op).streak % 5 = 4) := by
  have hr : RateIn (11744051 / 134217728) (IEEE.get ((ops.foldl ImbeAbs.next ImbeAbs.init).next op).rate) := by
    have := RateIn.run (m := m) (T := 11744051 / 134217728) (N := 11) (by decide) (by norm_num) (by decide +kernel) (ops ++ [op])
      (by simpa using fun x hx => hx.elim (he x) (fun e => e ▸ hoe)) ImbeAbs.init (RateIn.zero (by norm_num))
    rw [List.foldl_append] at this
    exact this
  have hM := (C22_muting_exact E s0 s1 s hi ops hd h op hop o ho).1
  have hrun : runOps (ImbeOp.run E) (ops ++ [op]) s1 = .ok o.st := by
    rw [runOps_append, h, ok_bind]
    show (op.run E s >>= _) = _
    rw [ho]
    rfl
  have hrate := (C21_repeat_counter E s0 s1 o.st hi (ops ++ [op]) (by simpa using fun x hx => hx.elim (hd x) (fun e => e ▸ hop)) hrun).2
  rw [List.foldl_append] at hrate
  have hn : lt (lit 875 10000) ((ops.foldl ImbeAbs.next ImbeAbs.init).next op).rate = false := RateIn.notAbove (m := m) hr
  refine ⟨by rw [hrate]; exact hn, hM.trans ?_⟩
  unfold ImbeAbs.Muted
  rw [show lt (lit 875 10000) ((ops.foldl ImbeAbs.next ImbeAbs.init).next op).rate = false from hn]
  simp

/-- A clean frame runs the filter and is not a repeat. -/
theorem clean_next {a : ImbeAbs (IEEE m)} {op : ImbeOp (IEEE m)} (h : op.Clean) (h0 : RateIn 1 (IEEE.get a.rate)) :
    a.next op = ⟨0, imbeRate a.rate 0⟩ := by
  have hr : a.isRepeat op = false := by
    unfold ImbeAbs.isRepeat imbeIsRepeat
    rw [h.1, decide_eq_false (by have := h.2; omega), Bool.false_or]
    cases op.counts with
    | none => rfl
    | some c =>
      dsimp only [Option.map]
      have : le (lit 10 1 +ᶠ (lit 40 1 *ᶠ imbeRate a.rate 0)) (ofInt 0 : IEEE m) = false := by
        obtain ⟨q, hq, q0, q1⟩ := RateIn.step (m := m) (T := 1) (T' := 1) (N := 0) (e := 0) h0 (le_refl _) (le_refl _) (by decide) (le_refl _)
          (by decide +kernel)
        have c1 : Val (lit 10 1 : IEEE m) 10 := ⟨false, show IEEE.get (lit 10 1 : IEEE libm0) = FP.fin false 10 by decide +kernel⟩
        have c2 : Val (lit 40 1 : IEEE m) 40 := ⟨false, show IEEE.get (lit 40 1 : IEEE libm0) = FP.fin false 40 by decide +kernel⟩
        have hb : (100 : ℚ) ≤ Val.big := by rw [Val.big_eq]; norm_num
        have b0 : (0 : ℚ) ≤ 40 * q := by linarith
        have m1 := Val.mul (m := m) c2 hq (by rw [abs_of_nonneg b0]; linarith)
        have r0 := rnd_nonneg (f := F32) b0
        have r1 : rnd F32 (40 * q) ≤ 40 := by
          have := rnd_mono F32_p (show 40 * q ≤ ((40 : Int) : ℚ) by push_cast; linarith)
          rw [rnd_int F32_p F32_emin (by decide)] at this
          exact_mod_cast this
        have a1 := Val.add c1 m1 (by rw [abs_of_nonneg (by linarith)]; linarith)
        have r2 : 10 ≤ rnd F32 (10 + rnd F32 (40 * q)) := by
          have := rnd_mono F32_p (show ((10 : Int) : ℚ) ≤ 10 + rnd F32 (40 * q) by push_cast; linarith)
          rw [rnd_int F32_p F32_emin (by decide)] at this
          exact_mod_cast this
        have z : Val (ofInt 0 : IEEE m) 0 := ⟨false, rfl⟩
        exact (Val.le a1 z).trans (decide_eq_false (by linarith))
      rw [this, Bool.and_false]
  unfold ImbeAbs.next
  rw [hr, h.1]
  rfl

/-- **Muting ends.** Frames from the air carry at most 15 errors. Whatever came before, the fifth of five frames without
errors in a row is speech. -/
theorem C59_imbe_recovers (E : Env (IEEE m)) (s0 s1 s : St (IEEE m)) (hi : initMbeState s0 = .ok s1)
    (ops : List (ImbeOp (IEEE m))) (hd : ∀ op ∈ ops, Bits 88 op.d) (he : ∀ op ∈ ops, 0 ≤ op.errs2 ∧ op.errs2 ≤ 15)
    (clean : List (ImbeOp (IEEE m))) (hl : clean.length = 4) (hcd : ∀ op ∈ clean, Bits 88 op.d) (hc : ∀ op ∈ clean, op.Clean)
    (h : runOps (ImbeOp.run E) (ops ++ clean) s1 = .ok s)
    (op : ImbeOp (IEEE m)) (hop : Bits 88 op.d) (hoc : op.Clean) (o : Out (IEEE m)) (ho : op.run E s = .ok o) :
    'M' ∉ o.str ∧ IsSpeech E s s.enh o := by
  have h15 := RateIn.run (m := m) (T := 14697 / 134217) (N := 15) (by decide) (by norm_num) (by decide +kernel) ops he
    ImbeAbs.init (RateIn.zero (by norm_num))
  have hbits : ∀ op ∈ ops ++ clean, Bits 88 op.d := fun x hx => (List.mem_append.1 hx).elim (hd x) (hcd x)
  have key := C22_muting_exact E s0 s1 s hi (ops ++ clean) hbits h op hop o ho
  have hn : ¬ (((ops ++ clean).foldl ImbeAbs.next ImbeAbs.init).next op).Muted := by
    rw [List.foldl_append]
    generalize ops.foldl ImbeAbs.next ImbeAbs.init = a at h15
    have st : ∀ (T T' : ℚ) (a : ImbeAbs (IEEE m)) (op : ImbeOp (IEEE m)), T ≤ 1 → op.Clean →
        rnd F32 (rnd F32 (15938355 / 16777216 * T) + rnd F32 (12541305 / 34359738368 * (0 : Int))) ≤ T' →
        RateIn T (IEEE.get a.rate) → (a.next op).streak = 0 ∧ RateIn T' (IEEE.get (a.next op).rate) := by
      intro T T' a op hT hop hr ha
      rw [clean_next hop (by obtain ⟨q, q1, q2, q3⟩ := ha; exact ⟨q, q1, q2, q3.trans hT⟩)]
      exact ⟨rfl, RateIn.step ha (le_refl 0) (le_refl 0) (by decide) hT hr⟩
    match clean, hl with
    | [x1, x2, x3, x4], _ =>
      have g1 := (st _ (1041 / 10000) _ x1 (by norm_num) (hc x1 (by simp)) (by decide +kernel) h15).2
      have g2 := (st _ (989 / 10000) _ x2 (by norm_num) (hc x2 (by simp)) (by decide +kernel) g1).2
      have g3 := (st _ (940 / 10000) _ x3 (by norm_num) (hc x3 (by simp)) (by decide +kernel) g2).2
      have g4 := (st _ (894 / 10000) _ x4 (by norm_num) (hc x4 (by simp)) (by decide +kernel) g3).2
      have g5 := st _ (11744051 / 134217728) _ op (by norm_num) hoc (by decide +kernel) g4
      show ¬ ((((((a.next x1).next x2).next x3).next x4).next op).streak % 5 = 4 ∨
        lt (lit 875 10000) (((((a.next x1).next x2).next x3).next x4).next op).rate = true)
      rw [g5.1, show lt (lit 875 10000) (((((a.next x1).next x2).next x3).next x4).next op).rate = false from RateIn.notAbove (m := m) g5.2]
      simp
  exact ⟨fun hM => hn (key.1.1 hM), key.2.2 hn⟩

/-! ## The limits 11 and 5 are exact -/

/-- A speech frame with `e` errors, none of them in coset 0. -/
def errImbe (e : Int) : ImbeOp (IEEE m) := ⟨⟨32, 1, 2, Arr.const 160 (ofInt 0), 3⟩, some (0, 0), e, samplePayload⟩

theorem errImbe_next (e : Int) (a : ImbeAbs (IEEE m)) : a.next (errImbe e) = ⟨0, imbeRate a.rate e⟩ := by
  have : a.isRepeat (errImbe e) = false := by
    unfold ImbeAbs.isRepeat imbeIsRepeat
    rw [show imbeFund (errImbe (m := m) e).d = 0 from show imbeFund samplePayload = 0 by decide]
    rfl
  unfold ImbeAbs.next
  rw [this]
  rfl

/-- Histories of such frames run to completion. -/
theorem err_runs (hm : Exp2Acc m) (es : List Int) (h : ∀ e ∈ es, 0 ≤ e ∧ e ≤ 15) (hl : es.length ≤ 1000) :
    ∃ s, runOps (ImbeOp.run sampleEnv) (es.map errImbe) (freshImbe (m := m)) = .ok s := by
  obtain ⟨h1, h2⟩ := fresh_ok (freshImbe_fresh (m := m))
  have := hist_u hm (U := fun _ => False) (E := sampleEnv) (.inl rfl) (ops := (es.map errImbe).map Op.imbe)
    (by
      intro op hop
      obtain ⟨x, hx, rfl⟩ := List.mem_map.1 hop
      obtain ⟨e, he, rfl⟩ := List.mem_map.1 hx
      have := h e he
      exact ⟨samplePayload_bits, show 0 ≤ e ∧ e ≤ 7000000 ∧ e.toNat + 3 ≤ 32 by omega⟩) h1 (le_refl _) h2
    (by rw [List.length_map, List.length_map]; omega)
  rw [runHist_imbe] at this
  obtain ⟨s, hs, _⟩ := this.toOk
  exact ⟨s, hs⟩

/-- The rate after frames with these numbers of errors. -/
def rateOf (F : Type) [Arith F] (es : List Int) : F := es.foldl imbeRate (lit 0 1)

theorem rateOf_transfer (es : List Int) : IEEE.get (rateOf (IEEE m) es) = IEEE.get (rateOf (IEEE libm0) es) := by
  have key : ∀ (es : List Int) (x : FP), IEEE.get (es.foldl imbeRate (IEEE.mk x : IEEE m)) =
      IEEE.get (es.foldl imbeRate (IEEE.mk x : IEEE libm0)) := by
    intro es
    induction es with
    | nil => exact fun _ => rfl
    | cons e es ih => exact fun x => ih (IEEE.get (imbeRate (IEEE.mk x : IEEE libm0) e))
  exact key es (IEEE.get (lit 0 1 : IEEE libm0))

theorem err_fold (es : List Int) : ((es.map (errImbe (m := m))).foldl ImbeAbs.next ImbeAbs.init).rate = rateOf (IEEE m) es := by
  have key : ∀ (es : List Int) (a : ImbeAbs (IEEE m)), ((es.map errImbe).foldl ImbeAbs.next a).rate = es.foldl imbeRate a.rate := by
    intro es
    induction es with
    | nil => exact fun _ => rfl
    | cons e es ih =>
      intro a
      rw [List.map_cons, List.foldl_cons, ih, errImbe_next, List.foldl_cons]
  exact key es ImbeAbs.init

theorem err_muted (hm : Exp2Acc m) (es : List Int) (e : Int) (h : ∀ x ∈ es ++ [e], 0 ≤ x ∧ x ≤ 15) (hl : es.length < 1000)
    (hr : lt (lit 875 10000) (rateOf (IEEE libm0) (es ++ [e])) = true) :
    ∃ (s : St (IEEE m)) (o : Out (IEEE m)), runOps (ImbeOp.run sampleEnv) (es.map errImbe) freshImbe = .ok s ∧
      (errImbe e).run sampleEnv s = .ok o ∧ 'M' ∈ o.str ∧ 'R' ∉ o.str ∧ IsNoise (errImbe e).call s o := by
  obtain ⟨s2, hs2⟩ := err_runs hm (es ++ [e]) h (by rw [List.length_append]; exact hl)
  rw [List.map_append, runOps_append] at hs2
  obtain ⟨s, hs, hs2⟩ := bind_ok hs2
  obtain ⟨o, ho, hs2⟩ := bind_ok hs2
  have key := C22_muting_exact sampleEnv freshImbe freshImbe s (initMbeState_ieee _) (es.map errImbe)
    (fun op hop => by obtain ⟨x, _, rfl⟩ := List.mem_map.1 hop; exact samplePayload_bits) hs (errImbe e) samplePayload_bits o ho
  have hmu : (((es.map (errImbe (m := m))).foldl ImbeAbs.next ImbeAbs.init).next (errImbe e)).Muted := by
    refine .inr ?_
    have e1 : (((es.map (errImbe (m := m))).foldl ImbeAbs.next ImbeAbs.init).next (errImbe e)).rate = rateOf (IEEE m) (es ++ [e]) := by
      rw [← err_fold, List.map_append, List.foldl_append]
      rfl
    rw [e1]
    have tr : ∀ x y : FP, x = y → lt (lit 875 10000) (IEEE.mk y : IEEE libm0) = true → lt (lit 875 10000) (IEEE.mk x : IEEE m) = true := by
      rintro x _ rfl h
      exact h
    exact tr _ _ (rateOf_transfer (es ++ [e])) hr
  have hR := (C21_repeat_rule sampleEnv (errImbe (m := m) e).call (some 0) e samplePayload samplePayload_bits _ o ho).1
  refine ⟨s, o, hs, ho, key.1.2 hmu, fun h => ?_, key.2.1 hmu⟩
  have := hR.1 h
  unfold imbeIsRepeat at this
  rw [show imbeFund samplePayload = 0 by decide] at this
  cases this

/-- With 12 errors in every frame (none in coset 0, so no frame is a repeat) the 133rd frame is muted. -/
theorem C59_imbe_twelve_mutes (hm : Exp2Acc m) : ∃ (s : St (IEEE m)) (o : Out (IEEE m)),
    runOps (ImbeOp.run sampleEnv) ((List.replicate 132 (12 : Int)).map errImbe) freshImbe = .ok s ∧
    (errImbe 12).run sampleEnv s = .ok o ∧ 'M' ∈ o.str ∧ 'R' ∉ o.str ∧ IsNoise (errImbe 12).call s o :=
  err_muted hm _ _ (by decide +kernel) (by decide +kernel) (by decide +kernel)

/-- Four frames without errors are not enough: after 200 frames with 15 errors the fourth one is still muted. -/
theorem C59_imbe_four_not_enough (hm : Exp2Acc m) : ∃ (s : St (IEEE m)) (o : Out (IEEE m)),
    runOps (ImbeOp.run sampleEnv) ((List.replicate 200 (15 : Int) ++ [0, 0, 0]).map errImbe) freshImbe = .ok s ∧
    (errImbe 0).run sampleEnv s = .ok o ∧ 'M' ∈ o.str ∧ 'R' ∉ o.str ∧ IsNoise (errImbe 0).call s o :=
  err_muted hm _ _ (by decide +kernel) (by decide +kernel) (by decide +kernel)

/-- The hypotheses of `C59_imbe_recovers` are met: 200 frames with 15 errors, then five clean ones. -/
example (hm : Exp2Acc m) : ∃ (s : St (IEEE m)) (o : Out (IEEE m)),
    runOps (ImbeOp.run sampleEnv) ((List.replicate 200 (15 : Int)).map errImbe ++ List.replicate 4 (errImbe 0)) freshImbe = .ok s ∧
    (errImbe 0).run sampleEnv s = .ok o ∧ (errImbe (m := m) 0).Clean ∧ IsSpeech sampleEnv s s.enh o := by
  obtain ⟨s2, hs2⟩ := err_runs hm (List.replicate 200 15 ++ List.replicate 4 0 ++ [0]) (by decide +kernel) (by decide +kernel)
  rw [List.map_append, List.map_append, List.map_replicate (n := 4), runOps_append] at hs2
  obtain ⟨s, hs, hs2⟩ := bind_ok hs2
  obtain ⟨o, ho, hs2⟩ := bind_ok hs2
  have hc : (errImbe (m := m) 0).Clean := ⟨rfl, show imbeFund samplePayload ≤ 207 by decide⟩
  refine ⟨s, o, hs, ho, hc, ?_⟩
  refine (C59_imbe_recovers sampleEnv freshImbe freshImbe s (initMbeState_ieee _) ((List.replicate 200 (15 : Int)).map errImbe) ?_ ?_
    (List.replicate 4 (errImbe 0)) (by simp) ?_ ?_ hs (errImbe 0) samplePayload_bits hc o ho).2
  · intro op hop; obtain ⟨x, _, rfl⟩ := List.mem_map.1 hop; exact samplePayload_bits
  · intro op hop; obtain ⟨x, hx, rfl⟩ := List.mem_map.1 hop
    rw [List.eq_of_mem_replicate hx]
    exact show (0 : Int) ≤ 15 ∧ (15 : Int) ≤ 15 by decide
  · intro op hop; rw [List.eq_of_mem_replicate hop]; exact samplePayload_bits
  · intro op hop; rw [List.eq_of_mem_replicate hop]; exact hc

/-- A speech frame with two errors raises the AMBE rate, a tone after it leaves it. -/
example (hm : Exp2Acc m) : ∃ s : St (IEEE m), runOps (AmbeOp.run sampleEnv) [badAmbe, toneAmbe] freshAmbe = .ok s ∧
    s.prev.errorRate = lit 0 1 ∧ ([AmbeOp.v2450 sampleCall none 2 sampleAmbe, toneAmbe (m := m)].foldl AmbeAbs.next AmbeAbs.init).rate =
      ambeRate (lit 0 1) 2 := by
  obtain ⟨s, hs⟩ := ambe_runs hm [badAmbe, toneAmbe] (by simp) (by simp)
  refine ⟨s, hs, ?_, ?_⟩
  · rw [(C59_ambe_rate sampleEnv freshAmbe freshAmbe s (initAmbeState_eq _) _
      (fun op h => (sampleAmbe_ok op (by revert h; simp)).1) hs).1]
    rfl
  · rfl

end Verif.Props
