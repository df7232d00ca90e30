import Verif.Lemmas.RepeatHist
import Verif.Props.Imbe
import Verif.Props.Ambe

/-!
# Properties C21 - C24: repeats and muting
-/

namespace Verif.Props
open Verif Verif.Spec Verif.Model Verif.Num Verif.Gen Arith
variable {m : Libm}

/-! ## Sample calls -/

/-- A call with room for 16 status characters. -/
def sampleCall : Call (IEEE m) := ⟨16, 1, 2, Arr.const 160 (ofInt 0), 3⟩

/-- Transforms that return their argument; the reads counted by C16-C18 are allowed. -/
def sampleEnv : Env (IEEE m) := ⟨id, id, true, true⟩

/-- An IMBE frame with an invalid fundamental and no errors. -/
def badImbe : ImbeOp (IEEE m) := ⟨sampleCall, none, 0, fun _ => 1⟩

/-- An IMBE speech frame without errors. -/
def goodImbe : ImbeOp (IEEE m) := ⟨sampleCall, some (0, 0), 0, samplePayload⟩

/-- An AMBE frame with four errors. -/
def badAmbe : AmbeOp (IEEE m) := .v2450 sampleCall none 4 sampleAmbe

/-- An AMBE tone frame without errors. -/
def toneAmbe : AmbeOp (IEEE m) := .v2450 sampleCall none 0 sampleTone

theorem ones_bits (n : Nat) : Bits n (fun _ => 1) := fun _ _ => .inr rfl

theorem badImbe_fund : imbeFund (badImbe (m := m)).d = 255 := by
  show imbeFund (fun _ => 1) = 255
  decide

theorem badImbe_repeat (r : IEEE m) (s : Nat) : ImbeAbs.isRepeat ⟨s, r⟩ (badImbe (m := m)) = true := by
  unfold ImbeAbs.isRepeat imbeIsRepeat
  rw [badImbe_fund]
  rfl

theorem sampleImbe_ok (op : ImbeOp (IEEE m)) (h : op = badImbe ∨ op = goodImbe) :
    (Op.imbe op).Payload ∧ (Op.imbe op).Counts 7000000 := by
  rcases h with rfl | rfl
  · exact ⟨ones_bits 88, show (0 : Int) ≤ 0 ∧ (0 : Int) ≤ 7000000 ∧ 0 + 3 ≤ 16 by decide⟩
  · exact ⟨samplePayload_bits, show (0 : Int) ≤ 0 ∧ (0 : Int) ≤ 7000000 ∧ 0 + 3 ≤ 16 by decide⟩

theorem sampleAmbe_ok (op : AmbeOp (IEEE m)) (h : op = badAmbe ∨ op = toneAmbe) :
    (Op.ambe op).Payload ∧ (Op.ambe op).Counts 7000000 := by
  rcases h with rfl | rfl
  · exact ⟨sampleAmbe_bits, show (0 : Int) ≤ 4 ∧ (4 : Int) ≤ 7000000 ∧ 4 + 3 ≤ 16 by decide⟩
  · exact ⟨sampleTone_bits, show (0 : Int) ≤ 0 ∧ (0 : Int) ≤ 7000000 ∧ 0 + 3 ≤ 16 by decide⟩

/-- A fresh IMBE decoder. -/
def freshImbe : St (IEEE m) := ⟨imbeInit 39, imbeInit 39, imbeInit 39, Tls.start⟩

/-- A fresh AMBE decoder. -/
def freshAmbe : St (IEEE m) := ⟨ambeInit, ambeInit, ambeInit, Tls.start⟩

theorem freshImbe_fresh : Fresh (freshImbe (m := m)) := ⟨freshImbe, rfl, .inl (initMbeState_ieee _)⟩

theorem freshAmbe_fresh : Fresh (freshAmbe (m := m)) := ⟨freshAmbe, rfl, .inr (initAmbeState_eq _)⟩

/-- Histories of sample frames run to completion. -/
theorem imbe_runs (hm : Exp2Acc m) (ops : List (ImbeOp (IEEE m))) (h : ∀ op ∈ ops, op = badImbe ∨ op = goodImbe)
    (hl : ops.length ≤ 100) : ∃ s, runOps (ImbeOp.run sampleEnv) ops freshImbe = .ok s := by
  obtain ⟨h1, h2⟩ := fresh_ok (freshImbe_fresh (m := m))
  have := hist_u hm (U := fun _ => False) (E := sampleEnv) (.inl rfl) (ops := ops.map Op.imbe)
    (by
      intro op hop
      obtain ⟨x, hx, rfl⟩ := List.mem_map.1 hop
      exact sampleImbe_ok x (h x hx)) h1 (le_refl _) h2 (by rw [List.length_map]; omega)
  rw [runHist_imbe] at this
  obtain ⟨s, hs, _⟩ := this.toOk
  exact ⟨s, hs⟩

/-- Histories of sample frames run to completion. -/
theorem ambe_runs (hm : Exp2Acc m) (ops : List (AmbeOp (IEEE m))) (h : ∀ op ∈ ops, op = badAmbe ∨ op = toneAmbe)
    (hl : ops.length ≤ 100) : ∃ s, runOps (AmbeOp.run sampleEnv) ops freshAmbe = .ok s := by
  obtain ⟨h1, h2⟩ := fresh_ok (freshAmbe_fresh (m := m))
  have := hist_u hm (U := fun _ => False) (E := sampleEnv) (.inl rfl) (ops := ops.map Op.ambe)
    (by
      intro op hop
      obtain ⟨x, hx, rfl⟩ := List.mem_map.1 hop
      exact sampleAmbe_ok x (h x hx)) h1 (le_refl _) h2 (by rw [List.length_map]; omega)
  rw [runHist_ambe] at this
  obtain ⟨s, hs, _⟩ := this.toOk
  exact ⟨s, hs⟩

/-! ## C21 -/

/-- One call from any state: the frame is marked `R` exactly when the repeat rule holds for the error rate after this
frame. A frame that is not a repeat clears the counter, a repeat adds one, and a repeat that finds the counter above 3
uses the default model (fundamental `imbeDefaultW0`, 39 harmonics, all unvoiced, amplitude 1) and clears the counter. -/
theorem C21_repeat_rule (E : Env (IEEE m)) (C : Call (IEEE m)) (c0 : Option Int) (errs2 : Int) (d : Nat → Int)
    (hd : Bits 88 d) (s : St (IEEE m)) (o : Out (IEEE m)) (h : processImbe4400 E C c0 errs2 d s = .ok o) :
    ('R' ∈ o.str ↔ imbeIsRepeat (imbeFund d) c0 errs2 (imbeRate s.prev.errorRate errs2) = true) ∧
    ('R' ∉ o.str → o.st.prev.repeatCount = 0) ∧
    ('R' ∈ o.str → s.prev.repeatCount ≤ 3 → o.st.prev.repeatCount = s.prev.repeatCount + 1) ∧
    ('R' ∈ o.str → 3 < s.prev.repeatCount → o.st.prev.repeatCount = 0 ∧ o.st.prev.w0 = imbeDefaultW0 ∧
      o.st.prev.L = 39 ∧ o.st.prev.K = 12 ∧ ∀ l, o.st.prev.Vl l = 0 ∧ o.st.prev.Ml l = lit 1 1 ∧
        o.st.prev.log2Ml l = lit 0 1) := by
  have st := processImbe4400_ieee hd h
  have hR : 'R' ∈ o.str ↔ imbeIsRepeat (imbeFund d) c0 errs2 (imbeRate s.prev.errorRate errs2) = true := by
    rw [st.str, List.append_assoc (List.replicate _ _), mem_status (by decide) (by decide), List.mem_append]
    cases imbeIsRepeat (imbeFund d) c0 errs2 (imbeRate s.prev.errorRate errs2) <;>
      cases (isMaxFrameRepeat o.st.prev || requiresMuting o.st.prev) <;> decide
  refine ⟨hR, fun hn => ?_, fun hr hc => ?_, fun hr hc => ?_⟩
  · rw [hR, Bool.not_eq_true] at hn
    exact (st.good hn).1
  · rw [(st.last (hR.1 hr) hc).1]
  · obtain ⟨c, L, hL, h1, _⟩ := st.reset (hR.1 hr) hc
    rw [imbeDefaultL] at hL
    cases hL
    rw [h1]
    exact ⟨rfl, rfl, rfl, rfl, fun l => ⟨rfl, rfl, rfl⟩⟩

/-- Over every history: the counter after the frames `ops` is the number of repeats since the last frame that was not
one, modulo 5 (the fifth repeat in a row uses the default model and starts a new cycle), and the stored error rate is
that of the rate filter. -/
theorem C21_repeat_counter (E : Env (IEEE m)) (s0 s1 s : St (IEEE m)) (hi : initMbeState s0 = .ok s1)
    (ops : List (ImbeOp (IEEE m))) (hd : ∀ op ∈ ops, Bits 88 op.d) (h : runOps (ImbeOp.run E) ops s1 = .ok s) :
    s.prev.repeatCount = (((ops.foldl ImbeAbs.next ImbeAbs.init).streak % 5 : Nat) : Int) ∧
    s.prev.errorRate = (ops.foldl ImbeAbs.next ImbeAbs.init).rate := by
  rw [initMbeState_ieee] at hi
  cases hi
  have := imbeInv_run hd (imbeInv_init s0.tls) h
  exact ⟨this.count, this.rate⟩

/-- Hypotheses and both verdicts occur. -/
example (hm : Exp2Acc m) : ∃ s o : St (IEEE m), runOps (ImbeOp.run sampleEnv) [goodImbe, badImbe, badImbe] freshImbe = .ok s ∧
    s.prev.repeatCount = 2 ∧ runOps (ImbeOp.run sampleEnv) [badImbe, goodImbe] freshImbe = .ok o ∧ o.prev.repeatCount = 0 := by
  obtain ⟨s, hs⟩ := imbe_runs hm [goodImbe, badImbe, badImbe] (by simp) (by simp)
  obtain ⟨t, ht⟩ := imbe_runs hm [badImbe, goodImbe] (by simp) (by simp)
  have g : ∀ a : ImbeAbs (IEEE m), a.isRepeat goodImbe = false := by
    intro a
    unfold ImbeAbs.isRepeat imbeIsRepeat
    rw [show imbeFund (goodImbe (m := m)).d = 0 from show imbeFund samplePayload = 0 by decide]
    rfl
  have b : ∀ a : ImbeAbs (IEEE m), a.isRepeat badImbe = true := fun a => badImbe_repeat a.rate a.streak
  have k1 := (C21_repeat_counter sampleEnv freshImbe freshImbe s (initMbeState_ieee _) _
    (fun op h => (sampleImbe_ok op (by revert h; simp; tauto)).1) hs).1
  have k2 := (C21_repeat_counter sampleEnv freshImbe freshImbe t (initMbeState_ieee _) _
    (fun op h => (sampleImbe_ok op (by revert h; simp)).1) ht).1
  refine ⟨s, t, hs, ?_, ht, ?_⟩
  · rw [k1]; simp [List.foldl, ImbeAbs.next, g, b, ImbeAbs.init]
  · rw [k2]; simp [List.foldl, ImbeAbs.next, g, b, ImbeAbs.init]

/-! ## C22 -/

/-- Over every history of IMBE frames: a frame is marked `M` and replaced by comfort noise exactly when the abstract
counters say so (fourth repeat of a five-frame cycle, or error rate above the threshold); any other frame is
synthesised speech. -/
theorem C22_muting_exact (E : Env (IEEE m)) (s0 s1 s : St (IEEE m)) (hi : initMbeState s0 = .ok s1)
    (ops : List (ImbeOp (IEEE m))) (hd : ∀ op ∈ ops, Bits 88 op.d) (h : runOps (ImbeOp.run E) ops s1 = .ok s)
    (op : ImbeOp (IEEE m)) (hop : Bits 88 op.d) (o : Out (IEEE m)) (ho : op.run E s = .ok o) :
    ('M' ∈ o.str ↔ ((ops.foldl ImbeAbs.next ImbeAbs.init).next op).Muted) ∧
    (((ops.foldl ImbeAbs.next ImbeAbs.init).next op).Muted → IsNoise op.call s o) ∧
    (¬ ((ops.foldl ImbeAbs.next ImbeAbs.init).next op).Muted → IsSpeech E s s.enh o) := by
  rw [initMbeState_ieee] at hi
  cases hi
  have inv := imbeInv_step hop (imbeInv_run hd (imbeInv_init s0.tls) h) ho
  have mu := imbeInv_muted inv
  have st := imbeOp_step hop ho
  generalize (ops.foldl ImbeAbs.next ImbeAbs.init).next op = a at inv mu
  rw [← synthMuted_imbe inv.thr] at mu
  refine ⟨?_, fun h => st.noise (by rw [mu, decide_eq_true_eq]; exact h), fun h => st.speech (by rw [mu, decide_eq_false_iff_not]; exact h)⟩
  rw [st.str, List.append_assoc (List.replicate _ _), mem_status (by decide) (by decide), List.mem_append,
    ← synthMuted_imbe inv.thr, mu]
  by_cases h : a.Muted
  · rw [decide_eq_true h]; simp [h]
  · rw [decide_eq_false h]
    simp only [h, iff_false]
    cases (imbeIsRepeat (imbeFund op.d) (op.counts.map (·.1)) op.errs2 (imbeRate s.prev.errorRate op.errs2)) <;> decide

/-- The property as worded, for frames that are at most the fourth repeat in a row. Missing: longer streaks, for which it
is false (see `C22_fifth_repeat_not_muted`) and `C22_muting_exact` describes what happens instead. -/
theorem C22_muting_partial (E : Env (IEEE m)) (s0 s1 s : St (IEEE m)) (hi : initMbeState s0 = .ok s1)
    (ops : List (ImbeOp (IEEE m))) (hd : ∀ op ∈ ops, Bits 88 op.d) (h : runOps (ImbeOp.run E) ops s1 = .ok s)
    (op : ImbeOp (IEEE m)) (hop : Bits 88 op.d) (o : Out (IEEE m)) (ho : op.run E s = .ok o)
    (h4 : ((ops.foldl ImbeAbs.next ImbeAbs.init).next op).streak ≤ 4) :
    ('M' ∈ o.str ↔ 4 ≤ ((ops.foldl ImbeAbs.next ImbeAbs.init).next op).streak ∨
      lt (lit 875 10000) ((ops.foldl ImbeAbs.next ImbeAbs.init).next op).rate = true) := by
  rw [(C22_muting_exact E s0 s1 s hi ops hd h op hop o ho).1]
  unfold ImbeAbs.Muted
  refine or_congr ?_ Iff.rfl
  omega

theorem rate_zero0 : imbeRate (lit 0 1 : IEEE libm0) 0 = lit 0 1 := by decide +kernel

theorem imbeRate_ieee (x : FP) (e : Int) : imbeRate (F := IEEE m) x e = imbeRate (F := IEEE libm0) x e := rfl

theorem rate_zero : imbeRate (lit 0 1 : IEEE m) 0 = lit 0 1 := (imbeRate_ieee _ _).trans rate_zero0

theorem bad_fold (n : Nat) : (List.replicate n (badImbe (m := m))).foldl ImbeAbs.next ImbeAbs.init = ⟨n, lit 0 1⟩ := by
  induction n with
  | zero => rfl
  | succ n ih =>
    rw [List.replicate_succ', List.foldl_append, ih]
    show (ImbeAbs.mk n (lit 0 1 : IEEE m)).next badImbe = _
    unfold ImbeAbs.next
    rw [badImbe_repeat, if_pos rfl, show (badImbe (m := m)).errs2 = 0 from rfl, rate_zero, ite_self]

theorem lt_thr_zero0 : lt (lit 875 10000) (lit 0 1 : IEEE libm0) = false := by decide +kernel

theorem lt_thr_zero : lt (lit 875 10000) (lit 0 1 : IEEE m) = false := by
  have e : ∀ x y : FP, lt (F := IEEE m) x y = lt (F := IEEE libm0) x y := fun _ _ => rfl
  exact (e _ _).trans lt_thr_zero0

/-- The property as worded is false: after five frames with an invalid fundamental (five repeats in a row) the fifth is
neither marked `M` nor replaced by noise, although the fourth was. -/
theorem C22_fifth_repeat_not_muted (hm : Exp2Acc m) : ∃ (s4 s5 : St (IEEE m)) (o4 o5 : Out (IEEE m)),
    runOps (ImbeOp.run sampleEnv) (List.replicate 3 badImbe) freshImbe = .ok s4 ∧ badImbe.run sampleEnv s4 = .ok o4 ∧
    runOps (ImbeOp.run sampleEnv) (List.replicate 4 badImbe) freshImbe = .ok s5 ∧ badImbe.run sampleEnv s5 = .ok o5 ∧
    o4.st = s5 ∧ 'R' ∈ o4.str ∧ 'R' ∈ o5.str ∧ 'M' ∈ o4.str ∧ 'M' ∉ o5.str ∧ IsNoise badImbe.call s4 o4 ∧
    IsSpeech sampleEnv s5 s5.enh o5 := by
  obtain ⟨s6, h6⟩ := imbe_runs hm (List.replicate 5 badImbe) (fun op h => .inl (List.eq_of_mem_replicate h)) (by simp)
  rw [List.replicate_succ', runOps_append] at h6
  obtain ⟨s5, h5, h6⟩ := bind_ok h6
  obtain ⟨o5, h6, _⟩ := bind_ok h6
  have h5' := h5
  rw [List.replicate_succ', runOps_append] at h5
  obtain ⟨s4, h4, h5⟩ := bind_ok h5
  obtain ⟨o4, h5o, hx⟩ := bind_ok h5
  cases hx
  clear h5
  have hb : ∀ n, ∀ op ∈ List.replicate n (badImbe (m := m)), Bits 88 op.d := by
    intro n op h
    rw [List.eq_of_mem_replicate h]
    exact ones_bits 88
  have k4 := C22_muting_exact sampleEnv freshImbe _ _ (initMbeState_ieee _) _ (hb 3) h4 badImbe (ones_bits 88) o4 h5o
  have k5 := C22_muting_exact sampleEnv freshImbe _ _ (initMbeState_ieee _) _ (hb 4) h5' badImbe (ones_bits 88) o5 h6
  have f : ∀ n, ((List.replicate n (badImbe (m := m))).foldl ImbeAbs.next ImbeAbs.init).next badImbe = ⟨n + 1, lit 0 1⟩ := by
    intro n
    rw [← bad_fold (n + 1), List.replicate_succ', List.foldl_append]
    rfl
  rw [f] at k4 k5
  have m4 : (ImbeAbs.mk (3 + 1) (lit 0 1 : IEEE m)).Muted := .inl (show (3 + 1) % 5 = 4 by decide)
  have m5 : ¬ (ImbeAbs.mk (4 + 1) (lit 0 1 : IEEE m)).Muted := by
    rintro (h | h)
    · exact absurd h (show ¬ (4 + 1) % 5 = 4 by decide)
    · have h : lt (lit 875 10000) (lit 0 1 : IEEE m) = true := h
      rw [lt_thr_zero] at h; cases h
  have hr : ∀ (s : St (IEEE m)) o, badImbe.run sampleEnv s = .ok o → 'R' ∈ o.str := by
    intro s o h
    refine (C21_repeat_rule sampleEnv sampleCall none 0 _ (ones_bits 88) s o h).1.2 ?_
    have := badImbe_repeat s.prev.errorRate 0
    exact this
  exact ⟨s4, o4.st, o4, o5, h4, h5o, h5', h6, rfl, hr _ _ h5o, hr _ _ h6, k4.1.2 m4, fun h => m5 (k5.1.1 h), k4.2.1 m4, k5.2.2 m5⟩

/-! ## C23 -/

/-- Over every history of AMBE frames of both codecs the repeat counters of all three sets are in `0..3`. -/
theorem C23_counter_bound (E : Env (IEEE m)) (s0 s1 s : St (IEEE m)) (hi : initAmbeState s0 = .ok s1)
    (ops : List (AmbeOp (IEEE m))) (hd : ∀ op ∈ ops, Bits 49 op.payload) (h : runOps (AmbeOp.run E) ops s1 = .ok s) :
    (0 ≤ s.cur.repeatCount ∧ s.cur.repeatCount ≤ 3) ∧ (0 ≤ s.prev.repeatCount ∧ s.prev.repeatCount ≤ 3) ∧
      (0 ≤ s.enh.repeatCount ∧ s.enh.repeatCount ≤ 3) := by
  rw [initAmbeState_eq] at hi
  cases hi
  have := ambeInv_run hd (ambeInit_inv s0.tls) h
  exact ⟨⟨this.cur.lo, this.cur.hi⟩, ⟨this.prev.lo, this.prev.hi⟩, this.enh.lo, this.enh.hi⟩

/-- Over every history of AMBE frames: a frame is marked `M` exactly when it is a repeat and three repeats are pending;
it is then comfort noise and all three parameter sets are re-initialised. Every other repeat, and every voice frame, is
synthesised speech. -/
theorem C23_muting_exact (E : Env (IEEE m)) (s0 s1 s : St (IEEE m)) (hi : initAmbeState s0 = .ok s1)
    (ops : List (AmbeOp (IEEE m))) (hd : ∀ op ∈ ops, Bits 49 op.payload) (h : runOps (AmbeOp.run E) ops s1 = .ok s)
    (op : AmbeOp (IEEE m)) (hop : Bits 49 op.payload) (o : Out (IEEE m)) (ho : op.run E s = .ok o) :
    ('M' ∈ o.str ↔ op.kind = .repeat_ ∧ (ops.map AmbeOp.kind).foldl ambeNext 0 = 3) ∧
    ('M' ∈ o.str → (∃ C, (∃ e c d, op = .v2450 C e c d ∨ ∃ e', op = .v2400 C e' c d) ∧ IsNoise C s o) ∧
      ∃ t, initAmbeState s = .ok { o.st with tls := t }) ∧
    ('M' ∉ o.str → op.kind = .voice ∨ op.kind = .repeat_ → IsSpeech E s s.enh o) := by
  rw [initAmbeState_eq] at hi
  cases hi
  have inv := ambeInv_run hd (ambeInit_inv s0.tls) h
  have hle := ambeFold_le (show 0 ≤ 3 by decide) (ops.map AmbeOp.kind)
  generalize (ops.map AmbeOp.kind).foldl ambeNext 0 = n at inv hle
  have key : ∀ C errs2 k, AmbeStep E C errs2 s o n k → (∃ e c d, op = .v2450 C e c d ∨ ∃ e', op = .v2400 C e' c d) →
      ('M' ∈ o.str ↔ k = .repeat_ ∧ n = 3) ∧
      ('M' ∈ o.str → (∃ C, (∃ e c d, op = .v2450 C e c d ∨ ∃ e', op = .v2400 C e' c d) ∧ IsNoise C s o) ∧
        ∃ t, initAmbeState s = .ok { o.st with tls := t }) ∧
      ('M' ∉ o.str → k = .voice ∨ k = .repeat_ → IsSpeech E s s.enh o) := by
    intro C errs2 k st hC
    have hM : 'M' ∈ o.str ↔ k = .repeat_ ∧ n = 3 := by
      obtain ⟨u, hu, h1, h2, h3, h4, h5⟩ := st.str
      rw [hu, mem_status (by decide) (by decide)]
      cases k with
      | voice => rw [h1 rfl]; simp
      | repeat_ => rw [h2 rfl]; by_cases hn : n = 3 <;> simp [hn]
      | tone => rw [h3 rfl]; simp
      | erasure => rw [h4 rfl]; simp
      | noise => rcases h5 rfl with e | e | e <;> rw [e] <;> simp
    refine ⟨hM, fun hx => ?_, fun hx hk => ?_⟩
    · obtain ⟨a, b⟩ := hM.1 hx
      obtain ⟨c1, c2, c3, c4⟩ := st.mute a b
      refine ⟨⟨C, hC, c1⟩, s.tls, ?_⟩
      rw [initAmbeState_eq]
      dsimp only
      rw [c2, c3, c4]
    · refine st.speech (hk.imp_right fun hk => ⟨hk, ?_⟩)
      rw [hM] at hx
      have : n ≠ 3 := fun e => hx ⟨hk, e⟩
      omega
  cases op with
  | v2450 C e c d => exact key C _ _ (ambeOp_step hop inv ho) ⟨e, c, d, .inl rfl⟩
  | v2400 C e c d => exact key C _ _ (ambeOp_step hop inv ho) ⟨none, c, d, .inr ⟨e, rfl⟩⟩

/-- The property as worded: when the frames before `op` end with a voice, erasure or comfort-noise frame followed by `k`
repeats, a repeat is muted exactly when `k + 1` is a multiple of four (after muting the count starts again). -/
theorem C23_fourth_consecutive (E : Env (IEEE m)) (s0 s1 s : St (IEEE m)) (hi : initAmbeState s0 = .ok s1)
    (pre : List (AmbeOp (IEEE m))) (x : AmbeOp (IEEE m)) (reps : List (AmbeOp (IEEE m)))
    (hx : x.kind ≠ .repeat_ ∧ x.kind ≠ .tone) (hr : ∀ r ∈ reps, r.kind = .repeat_)
    (hd : ∀ op ∈ pre ++ [x] ++ reps, Bits 49 op.payload) (h : runOps (AmbeOp.run E) (pre ++ [x] ++ reps) s1 = .ok s)
    (op : AmbeOp (IEEE m)) (hop : Bits 49 op.payload) (o : Out (IEEE m)) (ho : op.run E s = .ok o) :
    'M' ∈ o.str ↔ op.kind = .repeat_ ∧ (reps.length + 1) % 4 = 0 := by
  rw [(C23_muting_exact E s0 s1 s hi _ hd h op hop o ho).1, List.map_append, List.map_append, List.foldl_append,
    List.foldl_append]
  have e1 : reps.map AmbeOp.kind = List.replicate reps.length .repeat_ := by
    rw [List.eq_replicate_iff]
    refine ⟨List.length_map _, fun k hk => ?_⟩
    obtain ⟨r, h1, h2⟩ := List.mem_map.1 hk
    rw [← h2, hr r h1]
  have e2 : ∀ n, ([x].map AmbeOp.kind).foldl ambeNext n = 0 := by
    intro n
    show ambeNext n x.kind = 0
    cases hk : x.kind with
    | voice => rfl
    | erasure => rfl
    | noise => rfl
    | repeat_ => exact absurd hk hx.1
    | tone => exact absurd hk hx.2
  rw [e2, e1, ambeFold_replicate]
  refine and_congr Iff.rfl ?_
  omega

theorem badAmbe_kind : (badAmbe (m := m)).kind = .repeat_ := by
  show (if ToneSig sampleAmbe ∧ (4 : Int) < 6 then Kind.tone
    else if 120 ≤ ambeFund2450 sampleAmbe ∧ ambeFund2450 sampleAmbe ≠ 124 ∧ ambeFund2450 sampleAmbe ≠ 125 then .erasure
    else if ambeTooManyErrors none 4 then .repeat_ else .voice) = _
  decide

theorem toneAmbe_kind : (toneAmbe (m := m)).kind = .tone := by
  unfold toneAmbe AmbeOp.kind
  exact if_pos (show ToneSig sampleTone ∧ (0 : Int) < 6 by decide)

/-- "Consecutive" does not hold across tones: in the sequence repeat, repeat, repeat, tone, repeat the last frame is
muted although the frame just before it was an intact tone. -/
theorem C23_tone_does_not_interrupt (hm : Exp2Acc m) : ∃ (s : St (IEEE m)) (o : Out (IEEE m)),
    runOps (AmbeOp.run sampleEnv) [badAmbe, badAmbe, badAmbe, toneAmbe] freshAmbe = .ok s ∧
    badAmbe.run sampleEnv s = .ok o ∧ 'M' ∈ o.str ∧ o.str = ['=', '=', '=', '=', 'R', 'M', '\x00'] := by
  obtain ⟨s', h'⟩ := ambe_runs hm ([badAmbe, badAmbe, badAmbe, toneAmbe] ++ [badAmbe]) (by simp) (by simp)
  rw [runOps_append] at h'
  obtain ⟨s, h, h'⟩ := bind_ok h'
  obtain ⟨o, ho, _⟩ := bind_ok h'
  have hd : ∀ op ∈ [badAmbe, badAmbe, badAmbe, toneAmbe (m := m)], Bits 49 op.payload :=
    fun op h => (sampleAmbe_ok op (by revert h; simp)).1
  have k := (C23_muting_exact sampleEnv freshAmbe _ s (initAmbeState_eq _) _ hd h badAmbe sampleAmbe_bits o ho).1
  have inv := ambeInv_run hd (ambeInit_inv Tls.start) h
  have hn : ([badAmbe, badAmbe, badAmbe, toneAmbe (m := m)].map AmbeOp.kind).foldl ambeNext 0 = 3 := by
    simp only [List.map_cons, List.map_nil, badAmbe_kind, toneAmbe_kind]; rfl
  rw [hn] at inv
  refine ⟨s, o, h, ho, k.2 ⟨badAmbe_kind, hn⟩, ?_⟩
  obtain ⟨u, hu, _, h2, _⟩ := (ambeOp_step (op := badAmbe) sampleAmbe_bits inv ho).str
  rw [hu, h2 badAmbe_kind, if_pos rfl]
  rfl

/-! ## C24 -/

/-- IMBE: a repeated frame whose predecessor has a repeat counter of at most 3 is rendered with the stored parameters:
the new previous-frame parameters are the old ones with the two repeat counters one higher. `Ml` and `log2Ml` may change
outside the bands `1..L` in use (the predictor extends the arrays), nowhere else. Missing: the property says this of every
repeated frame that is not muted; see `C24_imbe_default_model` for the exception. -/
theorem C24_imbe_reuse_partial (E : Env (IEEE m)) (C : Call (IEEE m)) (c0 : Option Int) (errs2 : Int) (d : Nat → Int)
    (hd : Bits 88 d) (s : St (IEEE m)) (o : Out (IEEE m)) (h : processImbe4400 E C c0 errs2 d s = .ok o)
    (hr : imbeIsRepeat (imbeFund d) c0 errs2 (imbeRate s.prev.errorRate errs2) = true) (hc : s.prev.repeatCount ≤ 3) :
    (∀ l : Fin 57, 1 ≤ l.val → (l.val : Int) ≤ s.prev.L → o.st.prev.Ml l = s.prev.Ml l ∧ o.st.prev.log2Ml l = s.prev.log2Ml l) ∧
    o.st.prev = { s.prev with Ml := o.st.prev.Ml, log2Ml := o.st.prev.log2Ml, repeat_ := s.prev.repeat_ + 1,
                              repeatCount := s.prev.repeatCount + 1 } := by
  obtain ⟨a, b⟩ := (processImbe4400_ieee hd h).last hr hc
  exact ⟨b, a⟩

/-- The exception: a repeat that finds the counter above 3 is not muted (unless the error rate demands it), does not reuse
the last parameters, and advances the error-rate filter. -/
theorem C24_imbe_default_model (E : Env (IEEE m)) (C : Call (IEEE m)) (c0 : Option Int) (errs2 : Int) (d : Nat → Int)
    (hd : Bits 88 d) (s : St (IEEE m)) (o : Out (IEEE m)) (h : processImbe4400 E C c0 errs2 d s = .ok o)
    (hr : imbeIsRepeat (imbeFund d) c0 errs2 (imbeRate s.prev.errorRate errs2) = true) (hc : 3 < s.prev.repeatCount) :
    'R' ∈ o.str ∧ o.st.prev.errorRate = imbeRate s.prev.errorRate errs2 ∧ o.st.prev.w0 = imbeDefaultW0 ∧
      o.st.prev.L = 39 ∧ o.st.prev.gamma = lit 0 1 ∧
      ('M' ∈ o.str ↔ lt (lit 875 10000) (imbeRate s.prev.errorRate errs2) = true) := by
  have st := processImbe4400_ieee hd h
  obtain ⟨c, L, hL, h1, h2, _⟩ := st.reset hr hc
  rw [imbeDefaultL] at hL
  cases hL
  have hR := (C21_repeat_rule E C c0 errs2 d hd s o h).1.2 hr
  have e1 : o.st.prev.errorRate = imbeRate s.prev.errorRate errs2 := by rw [h1]; exact h2
  refine ⟨hR, e1, by rw [h1]; rfl, by rw [h1]; rfl, by rw [h1]; rfl, ?_⟩
  rw [st.str, List.append_assoc (List.replicate _ _), mem_status (by decide) (by decide), hr, if_pos rfl]
  have e2 : isMaxFrameRepeat o.st.prev = false := by rw [h1]; rfl
  have e3 : o.st.prev.mutingThreshold = lit 875 10000 := by rw [h1]; rfl
  unfold requiresMuting
  rw [e2, e1, e3, Bool.false_or]
  cases lt (lit 875 10000) (imbeRate s.prev.errorRate errs2) <;> decide

/-- AMBE 2450 and 2400, over every history: a repeat that is not muted is rendered with the stored parameters; the error
rate filter stands still. -/
theorem C24_ambe_reuse (E : Env (IEEE m)) (s0 s1 s : St (IEEE m)) (hi : initAmbeState s0 = .ok s1)
    (ops : List (AmbeOp (IEEE m))) (hd : ∀ op ∈ ops, Bits 49 op.payload) (h : runOps (AmbeOp.run E) ops s1 = .ok s)
    (op : AmbeOp (IEEE m)) (hop : Bits 49 op.payload) (o : Out (IEEE m)) (ho : op.run E s = .ok o)
    (hk : op.kind = .repeat_) (hM : 'M' ∉ o.str) :
    'R' ∈ o.str ∧
    (∀ l : Fin 57, 1 ≤ l.val → (l.val : Int) ≤ s.prev.L → o.st.prev.Ml l = s.prev.Ml l ∧ o.st.prev.log2Ml l = s.prev.log2Ml l) ∧
    o.st.prev = { s.prev with Ml := o.st.prev.Ml, log2Ml := o.st.prev.log2Ml, repeat_ := s.prev.repeat_ + 1,
                              repeatCount := s.prev.repeatCount + 1 } := by
  have k := (C23_muting_exact E s0 s1 s hi ops hd h op hop o ho).1
  rw [initAmbeState_eq] at hi
  cases hi
  have inv := ambeInv_run hd (ambeInit_inv s0.tls) h
  have hle := ambeFold_le (show 0 ≤ 3 by decide) (ops.map AmbeOp.kind)
  generalize (ops.map AmbeOp.kind).foldl ambeNext 0 = n at inv hle k
  have hn : n < 3 := by
    have : n ≠ 3 := fun e => hM (k.2 ⟨hk, e⟩)
    omega
  have key : ∀ C errs2, AmbeStep E C errs2 s o n .repeat_ → 'R' ∈ o.str ∧ KeepAmps s.prev o.st.prev ∧
      o.st.prev = { s.prev with Ml := o.st.prev.Ml, log2Ml := o.st.prev.log2Ml, repeat_ := s.prev.repeat_ + 1,
                                repeatCount := s.prev.repeatCount + 1 } := by
    intro C errs2 st
    obtain ⟨u, hu, _, h2, _⟩ := st.str
    obtain ⟨a, b⟩ := st.last rfl hn
    refine ⟨?_, b, a⟩
    rw [hu, h2 rfl, mem_status (by decide) (by decide)]
    split <;> simp
  cases op with
  | v2450 C e c d => exact key C _ (hk ▸ ambeOp_step hop inv ho)
  | v2400 C e c d => exact key C _ (hk ▸ ambeOp_step hop inv ho)

/-- Repeats that meet the hypotheses. -/
example (hm : Exp2Acc m) : ∃ s o, runOps (AmbeOp.run (sampleEnv (m := m))) [toneAmbe, badAmbe] freshAmbe = .ok s ∧
    badAmbe.run sampleEnv s = .ok o ∧ 'M' ∉ o.str ∧ o.st.prev.errorRate = s.prev.errorRate := by
  obtain ⟨s', h'⟩ := ambe_runs hm ([toneAmbe, badAmbe] ++ [badAmbe]) (by simp) (by simp)
  rw [runOps_append] at h'
  obtain ⟨s, h, h'⟩ := bind_ok h'
  obtain ⟨o, ho, _⟩ := bind_ok h'
  have hd : ∀ op ∈ [toneAmbe, badAmbe (m := m)], Bits 49 op.payload :=
    fun op h => (sampleAmbe_ok op (by revert h; simp; tauto)).1
  have k := (C23_muting_exact sampleEnv freshAmbe _ s (initAmbeState_eq _) _ hd h badAmbe sampleAmbe_bits o ho).1
  have hM : 'M' ∉ o.str := by
    rw [k]
    simp only [List.map_cons, List.map_nil, badAmbe_kind, toneAmbe_kind]
    decide
  obtain ⟨_, _, e⟩ := C24_ambe_reuse sampleEnv freshAmbe _ s (initAmbeState_eq _) _ hd h badAmbe sampleAmbe_bits o ho badAmbe_kind hM
  exact ⟨s, o, h, ho, hM, by rw [e]⟩

end Verif.Props
