import Verif.Lemmas.Desync

/-!
# C54: two decoders that receive the same frames agree

Exact arithmetic. Whatever two decoders received before (lost frames, errors, a late start), every further frame that
both receive intact brings their spectra closer by a fixed factor.
-/

namespace Verif.Props
open Verif Verif.Spec Verif.Model Verif.Num Verif.Gen Arith

/-- IMBE: after `n ≥ 1` good frames with the same payloads, fundamental and number of harmonics agree exactly, the log
amplitudes up to `496 · 0.7ⁿ`, and the amplitudes up to the corresponding factor. The two decoders may have had any
IMBE frames before, and may be told different (small) error counts. -/
theorem C54_imbe (E E' : Env ℝ) (s0 s s1 s2 t0 t t1 t2 : St ℝ) (hs0 : s0.tls = Tls.start) (ht0 : t0.tls = Tls.start)
    (hs : initMbeState s0 = .ok s) (ht : initMbeState t0 = .ok t) (before before' as bs : List (ImbeOp ℝ))
    (h1 : runOps (ImbeOp.run E) before s = .ok s1) (k1 : runOps (ImbeOp.run E') before' t = .ok t1)
    (hne : as ≠ []) (hab : List.Forall₂ ImbeOp.SameFrame as bs) (ga : ∀ a ∈ as, ImbeOp.Good a) (gb : ∀ b ∈ bs, ImbeOp.Good b)
    (h2 : runOps (ImbeOp.run E) as s1 = .ok s2) (k2 : runOps (ImbeOp.run E') bs t1 = .ok t2) :
    t2.prev.L = s2.prev.L ∧ t2.prev.w0 = s2.prev.w0 ∧
      ∀ l : Nat, 1 ≤ l → (l : Int) ≤ s2.prev.L →
        |logAmp s2.prev l - logAmp t2.prev l| ≤ 496 * 0.7 ^ as.length ∧
        s2.prev.Ml.getD l 0 ≤ (2 : ℝ) ^ ((496 : ℝ) * 0.7 ^ as.length) * t2.prev.Ml.getD l 0 ∧
        t2.prev.Ml.getD l 0 ≤ (2 : ℝ) ^ ((496 : ℝ) * 0.7 ^ as.length) * s2.prev.Ml.getD l 0 := by
  have start : ∀ {E : Env ℝ} {s0 s : St ℝ}, s0.tls = Tls.start → initMbeState s0 = .ok s → ImbeI E s := by
    intro E s0 s h0 hi
    have hc := fresh_cacheOk (E := E) (s := s) ⟨s0, h0, .inl hi⟩
    have hp := pset_imbeInit (A := 0) (S := 248) (B := 211) (by norm_num) (by norm_num) (by norm_num)
    have e := initMbeState_r hi
    exact ⟨hc, by rw [e]; exact hp.zero, by rw [e]; exact hp⟩
  have is := runImbe_inv before h1 (start hs0 hs)
  have it := runImbe_inv before' k1 (start ht0 ht)
  cases hab with
  | nil => exact (hne rfl).elim
  | @cons a b as bs hd hab =>
    obtain ⟨o, o1, o2⟩ := bind_ok h2
    obtain ⟨u, u1, u2⟩ := bind_ok k2
    obtain ⟨p1, p2, p3, _⟩ := imbeOp_r fits_imbe o1 is.cache is.zero is.pset
    obtain ⟨m1, m2, m3, _⟩ := imbeOp_r fits_imbe u1 it.cache it.zero it.pset
    have zs : ImbeI E o.st := ⟨p1, p3, p2⟩
    have zt : ImbeI E' u.st := ⟨m1, m3, m2⟩
    have c := imbe_first is it o1 u1 (ga a List.mem_cons_self) (gb b List.mem_cons_self) hd zs zt
    have c := imbe_run hab (fun a h => ga a (List.mem_cons_of_mem _ h)) (fun b h => gb b (List.mem_cons_of_mem _ h)) zs zt o2 u2 c
    rw [List.length_cons, show (496 : ℝ) * 0.7 ^ (as.length + 1) = 496 * 0.7 * 0.7 ^ as.length by ring]
    refine ⟨c.L_eq, c.w0, fun l l1 l2 => ?_⟩
    have hb := c.band l l1 (by omega)
    refine ⟨hb, ?_⟩
    have hb := abs_le.mp hb
    unfold logDiff at hb
    rw [c.ampP l l1 (by omega), c.ampQ l l1 (by omega), ← Real.rpow_add (by norm_num), ← Real.rpow_add (by norm_num)]
    constructor <;> apply Real.rpow_le_rpow_of_exponent_le (by norm_num) <;> linarith

/-- AMBE, both codecs: after `n ≥ 1` voice frames with the same payloads, fundamental and number of harmonics agree
exactly, the gain up to `27.6 / 2ⁿ` and the log amplitudes up to `520 · 0.65ⁿ`. The histories before are arbitrary
and may contain calls of all codecs. -/
theorem C54_ambe (E E' : Env ℝ) (s s1 s2 t t1 t2 : St ℝ) (hs : Fresh s) (ht : Fresh t) (before before' : List (Op ℝ))
    (as bs : List (AmbeOp ℝ)) (h1 : runHist E before s = .ok s1) (k1 : runHist E' before' t = .ok t1)
    (hne : as ≠ []) (hab : List.Forall₂ AmbeOp.SameFrame as bs) (ga : ∀ a ∈ as, AmbeOp.Good a) (gb : ∀ b ∈ bs, AmbeOp.Good b)
    (h2 : runOps (AmbeOp.run E) as s1 = .ok s2) (k2 : runOps (AmbeOp.run E') bs t1 = .ok t2) :
    t2.prev.L = s2.prev.L ∧ t2.prev.w0 = s2.prev.w0 ∧ |s2.prev.gamma - t2.prev.gamma| ≤ 27.6 / 2 ^ as.length ∧
      ∀ l : Nat, 1 ≤ l → (l : Int) ≤ s2.prev.L → |logAmp s2.prev l - logAmp t2.prev l| ≤ 520 * 0.65 ^ as.length := by
  have is := runHist_hinv before h1 (fresh_hinv (E := E) hs)
  have it := runHist_hinv before' k1 (fresh_hinv (E := E') ht)
  have is' := is.codec.imp_right fun h => (⟨h, is.zero⟩ : AInv s1)
  have it' := it.codec.imp_right fun h => (⟨h, it.zero⟩ : AInv t1)
  cases hab with
  | nil => exact (hne rfl).elim
  | @cons a b as bs hd hab =>
    obtain ⟨o, o1, o2⟩ := bind_ok h2
    obtain ⟨u, u1, u2⟩ := bind_ok k2
    obtain ⟨p1, p2⟩ := ambeOp_r o1 is.cache is'
    obtain ⟨m1, m2⟩ := ambeOp_r u1 it.cache it'
    have c := ambe_first is.cache it.cache is' it' o1 u1 (ga a List.mem_cons_self) (gb b List.mem_cons_self) hd p2
    obtain ⟨z, c⟩ := ambe_run hab (fun a h => ga a (List.mem_cons_of_mem _ h)) (fun b h => gb b (List.mem_cons_of_mem _ h)) p1 m1 p2 m2
      o2 u2 c
    refine ⟨c.L_eq, c.w0, ?_, fun l l1 l2 => ?_⟩
    · refine c.gamma.trans (le_of_eq ?_)
      rw [List.length_cons, pow_succ, show (0.5 : ℝ) = 1 / 2 by norm_num, one_div_pow]
      field_simp
    · refine (c.band z.1 l1 (by omega)).trans ?_
      rw [List.length_cons]
      have e : (0.5 : ℝ) ^ as.length ≤ 0.65 ^ as.length := pow_le_pow_left₀ (by norm_num) (by norm_num) _
      have e0 : (0 : ℝ) ≤ 0.65 ^ as.length := by positivity
      rw [pow_succ]
      linarith

/-- The limit of `C54_imbe`: element 0 of the log spectrum, which the prediction interpolates from, is not renewed by
good IMBE frames. A value left over from AMBE stays, so without an initialisation between the codecs two decoders need
not converge. -/
theorem C54_stale_element (E : Env ℝ) (s s' : St ℝ) (h0 : 0 ≤ s.prev.L) (h56 : s.prev.L ≤ 56) (as : List (ImbeOp ℝ)) (hne : as ≠ [])
    (ga : ∀ a ∈ as, ImbeOp.Good a) (h : runOps (ImbeOp.run E) as s = .ok s') : logAmp s'.prev 0 = logAmp s.cur 0 := by
  have key : ∀ (as : List (ImbeOp ℝ)) (s : St ℝ), 0 ≤ s.prev.L → s.prev.L ≤ 56 → (∀ a ∈ as, ImbeOp.Good a) →
      runOps (ImbeOp.run E) as s = .ok s' → (as ≠ [] ∨ s.prev.log2Ml 0 = s.cur.log2Ml 0) → s'.prev.log2Ml 0 = s.cur.log2Ml 0 := by
    intro as
    induction as with
    | nil =>
      intro s _ _ _ h hz
      rw [← ok_inj h]
      exact hz.resolve_left fun h => h rfl
    | cons a as ih =>
      intro s h0 h56 ga h _
      obtain ⟨o, h1, h2⟩ := bind_ok h
      obtain ⟨k1, k2, k3, k4⟩ := imbeGood_zero h1 (ga a List.mem_cons_self) h0 h56
      exact (ih o.st k3 k4 (fun a h => ga a (List.mem_cons_of_mem _ h)) h2 (.inr (k1.trans k2.symm))).trans k2
  unfold logAmp
  rw [Arr.getD_lt (by decide), Arr.getD_lt (by decide)]
  exact key as s h0 h56 ga h (.inl hne)

theorem runHist_imbe (E : Env ℝ) (ops : List (ImbeOp ℝ)) (s : St ℝ) : runHist E (ops.map .imbe) s = runOps (ImbeOp.run E) ops s := by
  induction ops generalizing s with
  | nil => rfl
  | cons op ops ih =>
    show ((do .ok (← op.run E s).st) >>= runHist E (ops.map .imbe)) = (op.run E s >>= fun o => runOps (ImbeOp.run E) ops o.st)
    cases op.run E s with
    | error e => rfl
    | ok o => exact ih o.st

theorem runHist_ambe (E : Env ℝ) (ops : List (AmbeOp ℝ)) (s : St ℝ) : runHist E (ops.map .ambe) s = runOps (AmbeOp.run E) ops s := by
  induction ops generalizing s with
  | nil => rfl
  | cons op ops ih =>
    show ((do .ok (← op.run E s).st) >>= runHist E (ops.map .ambe)) = (op.run E s >>= fun o => runOps (AmbeOp.run E) ops o.st)
    cases op.run E s with
    | error e => rfl
    | ok o => exact ih o.st

/-- Hypotheses of `C54_imbe` are met: a decoder that starts with the second frame, one that also had the first, and 30
common frames. The log amplitudes then agree to about 0.01. -/
example (E : Env ℝ) (hlax : E.lax = true) (buf : Arr 160 ℝ) (d : Nat → Int) (hd : Bits 88 d) (hf : imbeFund d ≤ 207) :
    ∃ s s' t' : St ℝ, initMbeState ⟨ambeInit, ambeInit, ambeInit, Tls.start⟩ = .ok s ∧
      runOps (ImbeOp.run E) (⟨⟨3, 1, 2, buf, 3⟩, none, 0, samplePayload⟩ :: List.replicate 30 ⟨⟨3, 1, 2, buf, 3⟩, none, 0, d⟩) s = .ok s' ∧
      runOps (ImbeOp.run E) (List.replicate 30 ⟨⟨3, 1, 2, buf, 3⟩, none, 0, d⟩) s = .ok t' ∧
      ∀ l : Nat, 1 ≤ l → (l : Int) ≤ s'.prev.L → |logAmp s'.prev l - logAmp t'.prev l| ≤ 0.02 := by
  have e := Base.init (⟨ambeInit, ambeInit, ambeInit, Tls.start⟩ : St ℝ)
  generalize (⟨imbeInit 39, imbeInit 39, imbeInit 39, _⟩ : St ℝ) = s at e
  have h0 : Fresh s := ⟨_, rfl, .inl e⟩
  have ok : ∀ d : Nat → Int, Bits 88 d → (Op.imbe ⟨⟨3, 1, 2, buf, 3⟩, none, 0, d⟩ : Op ℝ).Payload ∧
      (Op.imbe ⟨⟨3, 1, 2, buf, 3⟩, none, 0, d⟩ : Op ℝ).Counts 7000000 := fun d hd =>
    ⟨hd, le_refl _, show (0 : Int) ≤ 7000000 by decide, le_refl 3⟩
  generalize hL : List.replicate 30 (⟨⟨3, 1, 2, buf, 3⟩, none, 0, d⟩ : ImbeOp ℝ) = ops
  have hlen : ops.length = 30 := by rw [← hL, List.length_replicate]
  have hmem : ∀ op ∈ ops, op = ⟨⟨3, 1, 2, buf, 3⟩, none, 0, d⟩ := by
    intro op h
    rw [← hL] at h
    exact (List.mem_replicate.mp h).2
  obtain ⟨s', hs, _⟩ := C45_runs E hlax s h0 ((⟨⟨3, 1, 2, buf, 3⟩, none, 0, samplePayload⟩ :: ops).map .imbe) (by
    intro op hop
    obtain ⟨x, hx, rfl⟩ := List.mem_map.mp hop
    rcases List.mem_cons.mp hx with rfl | hx
    · exact ok _ samplePayload_bits
    · rw [hmem x hx]; exact ok d hd) (by rw [List.length_map, List.length_cons, hlen]; decide)
  obtain ⟨t', ht, _⟩ := C45_runs E hlax s h0 (ops.map .imbe) (by
    intro op hop
    obtain ⟨x, hx, rfl⟩ := List.mem_map.mp hop
    rw [hmem x hx]; exact ok d hd) (by rw [List.length_map, hlen]; decide)
  rw [runHist_imbe] at hs ht
  refine ⟨s, s', t', e, hs, ht, fun l l1 l2 => ?_⟩
  obtain ⟨o, o1, o2⟩ := bind_ok hs
  have good : ∀ a ∈ ops, ImbeOp.Good a := by
    intro a h
    rw [hmem a h]
    exact ⟨hd, hf, show (0 : Int) ≤ 5 by decide, fun c h => by cases h⟩
  have r := C54_imbe E E _ s o.st s' _ s s t' rfl rfl e e [⟨⟨3, 1, 2, buf, 3⟩, none, 0, samplePayload⟩] [] ops ops
    (by show (ImbeOp.run E _ s >>= _) = _; rw [o1]; rfl) rfl (by intro h; rw [h] at hlen; cases hlen)
    (List.forall₂_same.mpr fun _ _ => rfl) good good o2 ht
  refine ((r.2.2 l l1 l2).1).trans ?_
  rw [hlen]
  norm_num

/-- Hypotheses of `C54_ambe` are met: a decoder that has seen an IMBE frame and a fresh one, then a 2450 and a 2400 voice
frame. -/
example (E : Env ℝ) (hlax : E.lax = true) (buf : Arr 160 ℝ) (s : St ℝ) (h0 : Fresh s) : ∃ s1 s2 t2,
    runHist E [.imbe ⟨⟨3, 1, 2, buf, 3⟩, none, 0, samplePayload⟩] s = .ok s1 ∧
    runOps (AmbeOp.run E) [.v2450 ⟨3, 1, 2, buf, 3⟩ none 0 fun _ => 0, .v2400 ⟨3, 1, 2, buf, 3⟩ 0 0 fun _ => 0] s1 = .ok s2 ∧
    runOps (AmbeOp.run E) [.v2450 ⟨3, 1, 2, buf, 3⟩ none 0 fun _ => 0, .v2400 ⟨3, 1, 2, buf, 3⟩ 0 0 fun _ => 0] s = .ok t2 ∧
    |s2.prev.gamma - t2.prev.gamma| ≤ 6.9 := by
  have good : ∀ a ∈ ([.v2450 ⟨3, 1, 2, buf, 3⟩ none 0 fun _ => 0, .v2400 ⟨3, 1, 2, buf, 3⟩ 0 0 fun _ => 0] : List (AmbeOp ℝ)),
      AmbeOp.Good a := by
    intro a h
    simp only [List.mem_cons, List.not_mem_nil, or_false] at h
    rcases h with rfl | rfl
    · exact ⟨fun _ _ => .inl rfl, by unfold AmbeOp.kind; dsimp only; decide⟩
    · exact ⟨fun _ _ => .inl rfl, by unfold AmbeOp.kind; dsimp only; decide⟩
  have same : List.Forall₂ AmbeOp.SameFrame ([.v2450 ⟨3, 1, 2, buf, 3⟩ none 0 fun _ => 0, .v2400 ⟨3, 1, 2, buf, 3⟩ 0 0 fun _ => 0])
      [.v2450 ⟨3, 1, 2, buf, 3⟩ none 0 fun _ => 0, .v2400 ⟨3, 1, 2, buf, 3⟩ 0 0 fun _ => 0] := .cons rfl (.cons rfl .nil)
  have ok : ∀ op ∈ ([.imbe ⟨⟨3, 1, 2, buf, 3⟩, none, 0, samplePayload⟩, .ambe (.v2450 ⟨3, 1, 2, buf, 3⟩ none 0 fun _ => 0),
      .ambe (.v2400 ⟨3, 1, 2, buf, 3⟩ 0 0 fun _ => 0)] : List (Op ℝ)), op.Payload ∧ op.Counts 7000000 := by
    intro op hop
    simp only [List.mem_cons, List.not_mem_nil, or_false] at hop
    rcases hop with rfl | rfl | rfl
    · exact ⟨samplePayload_bits, le_refl _, show (0 : Int) ≤ 7000000 by decide, le_refl 3⟩
    all_goals exact ⟨fun _ _ => .inl rfl, le_refl _, show (0 : Int) ≤ 7000000 by decide, le_refl 3⟩
  obtain ⟨s2, hs, _⟩ := C45_runs E hlax s h0 _ ok (show 3 ≤ 357000 by decide)
  obtain ⟨t2, ht, _⟩ := C45_runs E hlax s h0 _ (fun op h => ok op (List.mem_cons_of_mem _ h)) (show 2 ≤ 357000 by decide)
  obtain ⟨s1, h1, h2⟩ := bind_ok hs
  have h1' : runHist E [.imbe ⟨⟨3, 1, 2, buf, 3⟩, none, 0, samplePayload⟩] s = .ok s1 := by
    show (Op.run E _ s >>= _) = _
    rw [h1]; rfl
  have h2' := (runHist_ambe E [.v2450 ⟨3, 1, 2, buf, 3⟩ none 0 fun _ => 0, .v2400 ⟨3, 1, 2, buf, 3⟩ 0 0 fun _ => 0] s1).symm.trans h2
  have ht' := (runHist_ambe E [.v2450 ⟨3, 1, 2, buf, 3⟩ none 0 fun _ => 0, .v2400 ⟨3, 1, 2, buf, 3⟩ 0 0 fun _ => 0] s).symm.trans ht
  have r := C54_ambe E E s s1 s2 s s t2 h0 h0 [.imbe ⟨⟨3, 1, 2, buf, 3⟩, none, 0, samplePayload⟩] [] _ _ h1' rfl (by simp) same good good
    h2' ht'
  refine ⟨s1, s2, t2, h1', h2', ht', r.2.2.1.trans ?_⟩
  norm_num

end Verif.Props
