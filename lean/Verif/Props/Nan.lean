import Verif.Lemmas.LoudNan
import Verif.Lemmas.LoudAmbeNan
import Verif.Props.Process
import Verif.Props.Ambe
import Verif.Spec.Simd

/-!
# C65: valid frames can turn the samples into NaN
-/

namespace Verif.Props
open Verif Verif.Spec Verif.Model Verif.Num Verif.Gen Arith

variable {m : Libm}

/-- A call that hands the payload `loud` to the decoder and reports no bit error: a 7200x4400 frame that carries it
without any error, or the data entry point. -/
def SendsLoud : Api (IEEE m) → Prop
  | .imbe7200Frame _ fr _ => ∃ c, Imbe7200Tx loud c (fun _ => 0) fr
  | .imbeData _ _ errs2 d => d = loud ∧ errs2 = 0
  | _ => False

/-- Such a call is a reception of `loud` by the parameter decoder. -/
theorem SendsLoud.op {a : Api (IEEE m)} (h : SendsLoud a) : ∃ op : ImbeOp (IEEE m), LoudRx op ∧
    (∀ E s, a.run E s = (Op.imbe op).run E s) ∧
    (∀ E s, a.call E s = do let o ← op.run E s; .ok (some (o.pcm, o.str), o.st)) := by
  cases a with
  | imbe7200Frame C fr d =>
    obtain ⟨c, hc⟩ := h
    have key : ∀ E s, (do .ok (← processImbe7200Framef E C fr d s).out : Exec (Out (IEEE m))) =
        processImbe4400 E C (some 0) 0 loud { s with cur := { s.cur with errorCount4 := 0 } } :=
      fun E s => C26_imbe7200_end_to_end hc d E C s
    refine ⟨⟨C, some (0, 0), 0, loud⟩, ⟨rfl, rfl, fun c h => by cases h; rfl⟩, fun E s => ?_, fun E s => ?_⟩
    · show (do Except.ok (← processImbe7200Framef E C fr d s).out.st : Exec _) =
        (do Except.ok (← processImbe4400 E C (some 0) 0 loud { s with cur := { s.cur with errorCount4 := 0 } }).st)
      rw [← key]
      cases processImbe7200Framef E C fr d s <;> rfl
    · show (do let o ← processImbe7200Framef E C fr d s; Except.ok (some (o.out.pcm, o.out.str), o.out.st) : Exec _) =
        (do let o ← processImbe4400 E C (some 0) 0 loud { s with cur := { s.cur with errorCount4 := 0 } }
            Except.ok (some (o.pcm, o.str), o.st))
      rw [← key]
      cases processImbe7200Framef E C fr d s <;> rfl
  | imbeData C errs errs2 d =>
    obtain ⟨rfl, rfl⟩ := h
    exact ⟨⟨C, none, 0, loud⟩, ⟨rfl, rfl, fun c h => by cases h⟩, fun E s => rfl, fun E s => rfl⟩
  | _ => exact h.elim

theorem runApi_split {E : Env (IEEE m)} {as bs : List (Api (IEEE m))} {s s' : St (IEEE m)} (h : runApi E (as ++ bs) s = .ok s') :
    ∃ t, runApi E as s = .ok t ∧ runApi E bs t = .ok s' := by
  induction as generalizing s with
  | nil => exact ⟨s, rfl, h⟩
  | cons a as ih =>
    obtain ⟨u, h1, h2⟩ := bind_ok (show (a.run E s >>= fun s => runApi E (as ++ bs) s) = .ok s' from h)
    obtain ⟨t, h3, h4⟩ := ih h2
    refine ⟨t, ?_, h4⟩
    show (a.run E s >>= fun s => runApi E as s) = .ok t
    rw [h1]
    exact h3

/-- Receptions of `loud` as histories. -/
theorem loud_hist {as : List (Api (IEEE m))} (h : ∀ a ∈ as, SendsLoud a) : ∃ ops : List (ImbeOp (IEEE m)),
    (∀ op ∈ ops, LoudRx op) ∧ ops.length = as.length ∧ ∀ E s, runApi E as s = runHist E (ops.map .imbe) s := by
  induction as with
  | nil => exact ⟨[], by simp, rfl, fun _ _ => rfl⟩
  | cons a as ih =>
    obtain ⟨ops, h1, h2, h3⟩ := ih fun x hx => h x (.tail _ hx)
    obtain ⟨op, g1, g2, _⟩ := (h a (.head _)).op
    refine ⟨op :: ops, ?_, by simp [h2], fun E s => ?_⟩
    · intro x hx
      rcases List.mem_cons.1 hx with rfl | hx
      · exact g1
      · exact h1 x hx
    · show (a.run E s >>= fun s => runApi E as s) = ((Op.imbe op).run E s >>= fun s => runHist E (ops.map .imbe) s)
      rw [g2]
      exact congrArg _ (funext fun s => h3 E s)

/-- After any history of a decoder, `mbe_initMbeParms` and seven receptions of `loud`, the eighth delivers 160 NaN. -/
theorem C65_nan_samples (hm : LibmAcc m) (E : Env (IEEE m)) (sf : St (IEEE m)) (hf : Fresh sf) (before seven : List (Api (IEEE m)))
    (h7 : ∀ a ∈ seven, SendsLoud a) (hl : seven.length = 7) (s : St (IEEE m))
    (hr : runApi E (before ++ .initMbe :: seven) sf = .ok s) (a : Api (IEEE m)) (ha : SendsLoud a)
    (r : Option (Arr 160 (IEEE m) × List Char) × St (IEEE m)) (hc : a.call E s = .ok r) :
    ∃ pcm str, r.1 = some (pcm, str) ∧ ∀ i, pcm i = FP.nan := by
  obtain ⟨t, h1, h2⟩ := runApi_split hr
  have hk := runApi_cacheOk before (fresh_cacheOk hf) h1
  obtain ⟨u, h3, h4⟩ := bind_ok (show (initMbeState t >>= fun s => runApi E seven s) = .ok s from h2)
  rw [initMbeState_ieee] at h3
  have := ok_inj h3
  subst this
  obtain ⟨ops, g1, g2, g3⟩ := loud_hist h7
  rw [g3] at h4
  rw [hl] at g2
  match ops, g2 with
  | [o1, o2, o3, o4, o5, o6, o7], _ =>
    simp only [List.mem_cons, List.not_mem_nil, or_false, forall_eq_or_imp, forall_eq] at g1
    obtain ⟨k1, k2, k3, k4, k5, k6, k7⟩ := g1
    have hs := loud_seven hm k1 k2 k3 k4 k5 k6 k7 (loud_init E hk) h4
    obtain ⟨op, q1, _, q3⟩ := ha.op
    rw [q3] at hc
    obtain ⟨o, e1, e2⟩ := bind_ok hc
    have := ok_inj e2
    subst this
    exact ⟨o.pcm, o.str, rfl, fun i => loud_eighth hm q1 hs e1 i⟩

/-- Samples that are NaN: the portable conversion to 16 bits is undefined. -/
theorem C65_short_undefined (pcm : Arr 160 (IEEE m)) (h : ∀ i, pcm i = FP.nan) (sbuf : Arr 160 Int) :
    floatToShort pcm sbuf = .error .floatToInt := floatToShort_nan h sbuf

theorem sse2_nan0 : shortSampleSse2 (F := IEEE libm0) FP.nan = -31128 := by decide +kernel

/-- The vector conversion turns each of them into the largest negative sample that it can deliver. -/
theorem C65_short_sse2 (pcm : Arr 160 (IEEE m)) (h : ∀ i, pcm i = FP.nan) (sbuf : Arr 160 Int) :
    floatToShortSse2 pcm sbuf = .ok (Arr.const 160 (-31128)) := by
  unfold floatToShortSse2
  have key : ∀ n, n ≤ 160 → loop n (fun i (out : Arr 160 Int) => do out.wr i (shortSampleSse2 (← pcm.rd i))) sbuf =
      .ok fun i => if i.val < n then -31128 else sbuf i := by
    intro n
    induction n with
    | zero => intro _; rw [loop_zero]; simp
    | succ n ih =>
      intro hn
      rw [loop_succ, ih (by omega), ok_bind, Arr.rd_nat (show n < 160 by omega), ok_bind, Arr.wr_nat (show n < 160 by omega), h]
      have e : shortSampleSse2 (F := IEEE m) FP.nan = -31128 := sse2_nan0
      rw [e]
      congr 1
      funext i
      by_cases c : i.val = n
      · rw [Arr.set_same (by exact c), if_pos (by omega)]
      · rw [Arr.set_ne (by exact c)]
        by_cases c' : i.val < n
        · rw [if_pos c', if_pos (by omega)]
        · rw [if_neg c', if_neg (by omega)]
  rw [key 160 le_rfl]
  congr 1
  funext i
  rw [if_pos i.isLt]
  rfl

theorem LibmAcc.exp2Acc (hm : LibmAcc m) : Exp2Acc m := by
  intro x y hx h1 h2
  obtain ⟨r, hr, h⟩ := hm.exp2 x y hx (by linarith) (by linarith)
  refine ⟨r, hr, h.trans ?_⟩
  have : 0 < (2 : ℝ) ^ (y : ℝ) := Real.rpow_pos_of_pos (by norm_num) _
  linarith

/-- The claim "the samples of an error-free transmission are finite and the 16-bit entry points are defined" is false: a
7200x4400 frame without any bit error exists such that, on a decoder that was just initialised, the float entry point
returns 160 NaN and the 16-bit entry point has undefined behaviour at the eighth reception. -/
theorem C65_witness (hm : LibmAcc m) (E : Env (IEEE m)) (hE : E.lax = true) (C : Call (IEEE m)) (hC : 3 ≤ C.cap) (d : Nat → Int) :
    ∃ (fr : Frame) (s : St (IEEE m)) (o : FrameOut (IEEE m)), (∃ p c, Bits 88 p ∧ Imbe7200Tx p c (fun _ => 0) fr) ∧
    runApi E (List.replicate 7 (.imbe7200Frame C fr d)) freshImbe = .ok s ∧
    processImbe7200Framef E C fr d s = .ok o ∧ (∀ i, o.out.pcm i = FP.nan) ∧
    ∀ sbuf, shortFrame (fun C => processImbe7200Framef E C fr d s) C sbuf = .error .floatToInt := by
  obtain ⟨c, fr, hfr⟩ := C07_imbe7200_frame_exists loud_bits (e := fun _ => 0) (fun _ _ => by decide) (fun _ _ _ => by decide)
  have hs : SendsLoud (Api.imbe7200Frame C fr d : Api (IEEE m)) := ⟨c, hfr⟩
  have run : ∀ n ≤ 8, ∃ s, runApi E (List.replicate n (.imbe7200Frame C fr d)) freshImbe = .ok s := by
    intro n hn
    have key : ∀ E s, (do .ok (← processImbe7200Framef E C fr d s).out : Exec (Out (IEEE m))) =
        processImbe4400 E C (some 0) 0 loud { s with cur := { s.cur with errorCount4 := 0 } } :=
      fun E s => C26_imbe7200_end_to_end hfr d E C s
    have e : ∀ n s, runApi E (List.replicate n (.imbe7200Frame C fr d)) s =
        runHist E (List.replicate n (.imbe ⟨C, some (0, 0), 0, loud⟩)) s := by
      intro n
      induction n with
      | zero => exact fun s => rfl
      | succ n ih =>
        intro s
        show ((do Except.ok (← processImbe7200Framef E C fr d s).out.st : Exec _) >>= fun s => runApi E (List.replicate n _) s) =
          ((do Except.ok (← processImbe4400 E C (some 0) 0 loud { s with cur := { s.cur with errorCount4 := 0 } }).st : Exec _) >>=
            fun s => runHist E (List.replicate n _) s)
        rw [← key]
        cases processImbe7200Framef E C fr d s with
        | error e => rfl
        | ok o => exact ih o.out.st
    rw [e]
    obtain ⟨g1, g2⟩ := fresh_ok (freshImbe_fresh (m := m))
    have := hist_u (LibmAcc.exp2Acc hm) (U := fun _ => False) (E := E) (.inl hE)
      (ops := List.replicate n (.imbe ⟨C, some (0, 0), 0, loud⟩)) (fun op h => by
        rw [(List.mem_replicate.1 h).2]
        exact ⟨loud_bits, le_refl 0, by show (0 : Int) ≤ 7000000; decide, hC⟩) g1 (le_refl _) g2 (by
        rw [List.length_replicate]; omega)
    obtain ⟨s, hs, _⟩ := this.toOk
    exact ⟨s, hs⟩
  obtain ⟨s, h7⟩ := run 7 (by decide)
  obtain ⟨s8, h8⟩ := run 8 (by decide)
  rw [show 8 = 7 + 1 from rfl, List.replicate_succ', ] at h8
  obtain ⟨t, e1, e2⟩ := runApi_split h8
  have := ok_inj (h7.symm.trans e1)
  subst this
  obtain ⟨u, e2, _⟩ := bind_ok (show ((do Except.ok (← processImbe7200Framef E C fr d s).out.st : Exec _) >>=
    fun s => runApi E [] s) = .ok s8 from e2)
  obtain ⟨o, e2, _⟩ := bind_ok e2
  have hn : ∀ i, o.out.pcm i = FP.nan := by
    obtain ⟨pcm, str, h1, h2⟩ := C65_nan_samples hm E freshImbe freshImbe_fresh [] (List.replicate 7 (.imbe7200Frame C fr d))
      (fun a h => by rw [(List.mem_replicate.1 h).2]; exact hs) (by simp) s (by
        rw [List.nil_append]
        show (initMbeState freshImbe >>= fun s => runApi E (List.replicate 7 (.imbe7200Frame C fr d)) s) = .ok s
        rw [initMbeState_ieee]
        exact h7) (.imbe7200Frame C fr d) hs (some (o.out.pcm, o.out.str), o.out.st) (by
        show (do let o ← processImbe7200Framef E C fr d s; Except.ok (some (o.out.pcm, o.out.str), o.out.st) : Exec _) = _
        rw [e2]
        rfl)
    have h1 := Option.some.inj h1
    rw [Prod.mk.injEq] at h1
    rw [h1.1]
    exact h2
  refine ⟨fr, s, o, ⟨loud, c, loud_bits, hfr⟩, h7, e2, hn, fun sbuf => ?_⟩
  unfold shortFrame
  dsimp only
  rw [e2, ok_bind, C65_short_undefined _ hn]
  rfl

/-! ## AMBE 2450 -/

/-- A call that hands the payload `loudA` to the AMBE 2450 decoder with so few bit errors that no repeat is due: a 3600x2450
frame that carries it, or the data entry point. -/
def SendsLoudA : Api (IEEE m) → Prop
  | .ambe2450Frame _ fr _ => ∃ c e pe, AmbeTx loudA c e pe fr ∧
      ambeTooManyErrors (some (ambeC0Count (e 0) pe : Nat)) ((ambeC0Count (e 0) pe + weight 12 (e 1 >>> 11) : Nat) : Int) = false
  | .ambe2450Data _ _ errs2 d => d = loudA ∧ errs2 ≤ 3
  | _ => False

/-- Such a call is a reception of `loudA` by the parameter decoder. -/
theorem SendsLoudA.op {a : Api (IEEE m)} (h : SendsLoudA a) : ∃ op : AmbeOp (IEEE m), LoudARx op ∧
    (∀ E s, a.run E s = (Op.ambe op).run E s) ∧
    (∀ E s, a.call E s = do let o ← op.run E s; .ok (some (o.pcm, o.str), o.st)) := by
  cases a with
  | ambe2450Frame C fr d =>
    obtain ⟨c, e, pe, hc, h0⟩ := h
    have key := fun (E : Env (IEEE m)) s => (C26_ambe_end_to_end hc d E C s).1
    refine ⟨.v2450 C _ _ loudA, ⟨C, _, _, rfl, h0⟩, fun E s => ?_, fun E s => ?_⟩
    · show (do Except.ok (← processAmbe2450Framef E C fr d s).out.st : Exec _) =
        (do Except.ok (← processAmbe2450 E C _ _ loudA s).st)
      rw [← key]
      cases processAmbe2450Framef E C fr d s <;> rfl
    · show (do let o ← processAmbe2450Framef E C fr d s; Except.ok (some (o.out.pcm, o.out.str), o.out.st) : Exec _) =
        (do let o ← processAmbe2450 E C _ _ loudA s; Except.ok (some (o.pcm, o.str), o.st))
      rw [← key]
      cases processAmbe2450Framef E C fr d s <;> rfl
  | ambe2450Data C errs errs2 d =>
    obtain ⟨rfl, h0⟩ := h
    refine ⟨.v2450 C none errs2 loudA, ⟨C, none, errs2, rfl, ?_⟩, fun E s => rfl, fun E s => rfl⟩
    unfold ambeTooManyErrors
    simpa using h0
  | _ => exact h.elim

/-- Receptions of `loudA` as histories. -/
theorem loudA_hist {as : List (Api (IEEE m))} (h : ∀ a ∈ as, SendsLoudA a) : ∃ ops : List (AmbeOp (IEEE m)),
    (∀ op ∈ ops, LoudARx op) ∧ ops.length = as.length ∧ ∀ E s, runApi E as s = runHist E (ops.map .ambe) s := by
  induction as with
  | nil => exact ⟨[], by simp, rfl, fun _ _ => rfl⟩
  | cons a as ih =>
    obtain ⟨ops, h1, h2, h3⟩ := ih fun x hx => h x (.tail _ hx)
    obtain ⟨op, g1, g2, _⟩ := (h a (.head _)).op
    refine ⟨op :: ops, ?_, by simp [h2], fun E s => ?_⟩
    · intro x hx
      rcases List.mem_cons.1 hx with rfl | hx
      · exact g1
      · exact h1 x hx
    · show (a.run E s >>= fun s => runApi E as s) = ((Op.ambe op).run E s >>= fun s => runHist E (ops.map .ambe) s)
      rw [g2]
      exact congrArg _ (funext fun s => h3 E s)

/-- After any history of a decoder, an initialisation (`mbe_initMbeParms`, or the AMBE variant) and ten receptions of
`loudA`, the eleventh delivers 160 NaN. -/
theorem C65_ambe_nan_samples (hm : LibmAcc m) (hlog : Log2Acc m) (E : Env (IEEE m)) (sf : St (IEEE m)) (hf : Fresh sf)
    (before ten : List (Api (IEEE m))) (init : Api (IEEE m)) (hi : init = .initMbe ∨ init = .initAmbe)
    (h10 : ∀ a ∈ ten, SendsLoudA a) (hl : ten.length = 10) (s : St (IEEE m))
    (hr : runApi E (before ++ init :: ten) sf = .ok s) (a : Api (IEEE m)) (ha : SendsLoudA a)
    (r : Option (Arr 160 (IEEE m) × List Char) × St (IEEE m)) (hc : a.call E s = .ok r) :
    ∃ pcm str, r.1 = some (pcm, str) ∧ ∀ i, pcm i = FP.nan := by
  obtain ⟨t, h1, h2⟩ := runApi_split hr
  have hk := runApi_cacheOk before (fresh_cacheOk hf) h1
  obtain ⟨ops, g1, g2, g3⟩ := loudA_hist h10
  rw [hl] at g2
  have h4 : runHist E (ops.map .ambe) ⟨ambeInit, ambeInit, ambeInit, t.tls⟩ = .ok s := by
    rcases hi with rfl | rfl
    · obtain ⟨u, h3, h4⟩ := bind_ok (show (initMbeState t >>= fun s => runApi E ten s) = .ok s from h2)
      rw [initMbeState_ieee] at h3
      have := ok_inj h3
      subst this
      rw [g3] at h4
      match ops, g2 with
      | op :: ops, _ =>
        have e := C38_switch E op ⟨imbeInit 39, imbeInit 39, imbeInit 39, t.tls⟩ thr_imbe
        rw [initAmbeState_eq, ok_bind] at e
        show ((do Except.ok (← op.run E ⟨ambeInit, ambeInit, ambeInit, t.tls⟩).st : Exec _) >>= fun s => runHist E _ s) = _
        rw [← e]
        exact h4
    · obtain ⟨u, h3, h4⟩ := bind_ok (show (initAmbeState t >>= fun s => runApi E ten s) = .ok s from h2)
      rw [initAmbeState_eq] at h3
      have := ok_inj h3
      subst this
      rw [g3] at h4
      exact h4
  have hs := loudA_run hm hlog (n := 0) g1 (by omega) (loudA_init E hk) h4
  rw [g2] at hs
  obtain ⟨op, q1, _, q3⟩ := ha.op
  rw [q3] at hc
  obtain ⟨o, e1, e2⟩ := bind_ok hc
  have := ok_inj e2
  subst this
  exact ⟨o.pcm, o.str, rfl, fun i => loudA_eleventh hm hlog q1 hs e1 i⟩

/-- The same defect in AMBE 2450: a 3600x2450 frame without any bit error exists such that, on a decoder that was just
initialised, the float entry point returns 160 NaN and the 16-bit entry point has undefined behaviour at the eleventh
reception. -/
theorem C65_ambe_witness (hm : LibmAcc m) (hlog : Log2Acc m) (E : Env (IEEE m)) (hE : E.lax = true) (C : Call (IEEE m))
    (hC : 3 ≤ C.cap) (d : Nat → Int) :
    ∃ (fr : Frame) (s : St (IEEE m)) (o : FrameOut (IEEE m)), (∃ p c, Bits 49 p ∧ AmbeTx p c (fun _ => 0) false fr) ∧
    runApi E (List.replicate 10 (.ambe2450Frame C fr d)) freshImbe = .ok s ∧
    processAmbe2450Framef E C fr d s = .ok o ∧ (∀ i, o.out.pcm i = FP.nan) ∧
    ∀ sbuf, shortFrame (fun C => processAmbe2450Framef E C fr d s) C sbuf = .error .floatToInt := by
  obtain ⟨c, fr, hfr⟩ := C09_ambe_frame_exists loudA_bits (e := fun _ => 0) (pe := false) (by decide) (by decide)
  have hs : SendsLoudA (Api.ambe2450Frame C fr d : Api (IEEE m)) := ⟨c, _, _, hfr, by decide⟩
  have run : ∀ n ≤ 11, ∃ s, runApi E (List.replicate n (.ambe2450Frame C fr d)) freshImbe = .ok s := by
    intro n hn
    have key : ∀ E s, (do .ok (← processAmbe2450Framef E C fr d s).out : Exec (Out (IEEE m))) =
        processAmbe2450 E C (some 0) 0 loudA s := fun E s => (C26_ambe_end_to_end hfr d E C s).1
    have e : ∀ n s, runApi E (List.replicate n (.ambe2450Frame C fr d)) s =
        runHist E (List.replicate n (.ambe (.v2450 C (some 0) 0 loudA))) s := by
      intro n
      induction n with
      | zero => exact fun s => rfl
      | succ n ih =>
        intro s
        show ((do Except.ok (← processAmbe2450Framef E C fr d s).out.st : Exec _) >>= fun s => runApi E (List.replicate n _) s) =
          ((do Except.ok (← processAmbe2450 E C (some 0) 0 loudA s).st : Exec _) >>= fun s => runHist E (List.replicate n _) s)
        rw [← key]
        cases processAmbe2450Framef E C fr d s with
        | error e => rfl
        | ok o => exact ih o.out.st
    rw [e]
    obtain ⟨g1, g2⟩ := fresh_ok (freshImbe_fresh (m := m))
    have := hist_u (LibmAcc.exp2Acc hm) (U := fun _ => False) (E := E) (.inl hE)
      (ops := List.replicate n (.ambe (.v2450 C (some 0) 0 loudA))) (fun op h => by
        rw [(List.mem_replicate.1 h).2]
        exact ⟨loudA_bits, le_refl 0, by show (0 : Int) ≤ 7000000; decide, hC⟩) g1 (le_refl _) g2 (by
        rw [List.length_replicate]; omega)
    obtain ⟨s, hs, _⟩ := this.toOk
    exact ⟨s, hs⟩
  obtain ⟨s, h10⟩ := run 10 (by decide)
  obtain ⟨s11, h11⟩ := run 11 (by decide)
  rw [show 11 = 10 + 1 from rfl, List.replicate_succ'] at h11
  obtain ⟨t, e1, e2⟩ := runApi_split h11
  have := ok_inj (h10.symm.trans e1)
  subst this
  obtain ⟨u, e2, _⟩ := bind_ok (show ((do Except.ok (← processAmbe2450Framef E C fr d s).out.st : Exec _) >>=
    fun s => runApi E [] s) = .ok s11 from e2)
  obtain ⟨o, e2, _⟩ := bind_ok e2
  have hn : ∀ i, o.out.pcm i = FP.nan := by
    obtain ⟨pcm, str, h1, h2⟩ := C65_ambe_nan_samples hm hlog E freshImbe freshImbe_fresh []
      (List.replicate 10 (.ambe2450Frame C fr d)) .initMbe (.inl rfl)
      (fun a h => by rw [(List.mem_replicate.1 h).2]; exact hs) (by simp) s (by
        rw [List.nil_append]
        show (initMbeState freshImbe >>= fun s => runApi E (List.replicate 10 (.ambe2450Frame C fr d)) s) = .ok s
        rw [initMbeState_ieee]
        exact h10) (.ambe2450Frame C fr d) hs (some (o.out.pcm, o.out.str), o.out.st) (by
        show (do let o ← processAmbe2450Framef E C fr d s; Except.ok (some (o.out.pcm, o.out.str), o.out.st) : Exec _) = _
        rw [e2]
        rfl)
    have h1 := Option.some.inj h1
    rw [Prod.mk.injEq] at h1
    rw [h1.1]
    exact h2
  refine ⟨fr, s, o, ⟨loudA, c, loudA_bits, hfr⟩, h10, e2, hn, fun sbuf => ?_⟩
  unfold shortFrame
  dsimp only
  rw [e2, ok_bind, C65_short_undefined _ hn]
  rfl

/-- Libraries of that accuracy exist. -/
theorem C65_hypothesis_satisfiable : ∃ m : Libm, LibmAcc m ∧ Log2Acc m := by
  classical
  have key : ∀ x e : ℝ, 0 < e → ∃ r : ℚ, |(r : ℝ) - x| ≤ e := by
    intro x e he
    obtain ⟨r, h1, h2⟩ := exists_rat_btwn (show x < x + e by linarith)
    exact ⟨r, by rw [abs_le]; constructor <;> linarith⟩
  have pos : ∀ y : ℚ, 0 < (2 : ℝ) ^ (y : ℝ) / 65536 := fun y => div_pos (Real.rpow_pos_of_pos (by norm_num) _) (by norm_num)
  let ex : FP → FP := fun x => match x with
    | .fin _ y => .fin false (key ((2 : ℝ) ^ (y : ℝ)) _ (pos y)).choose
    | x => x
  let co : FP → FP := fun x => match x with
    | .fin _ y => .fin false (key (Real.cos y) (1 / 65536) (by norm_num)).choose
    | x => x
  let lo : FP → FP := fun x => match x with
    | .fin _ y => .fin false (key (Real.logb 2 y) (1 / 65536) (by norm_num)).choose
    | x => x
  refine ⟨⟨co, id, ex, lo, id⟩, ⟨?_, ?_⟩, ?_⟩
  · rintro x y ⟨s, rfl⟩ _
    exact ⟨_, ⟨false, rfl⟩, (key (Real.cos y) (1 / 65536) (by norm_num)).choose_spec⟩
  · rintro x y ⟨s, rfl⟩ _ _
    exact ⟨_, ⟨false, rfl⟩, (key ((2 : ℝ) ^ (y : ℝ)) _ (pos y)).choose_spec⟩
  · rintro x y ⟨s, rfl⟩ _ _
    exact ⟨_, ⟨false, rfl⟩, (key (Real.logb 2 y) (1 / 65536) (by norm_num)).choose_spec⟩

end Verif.Props
