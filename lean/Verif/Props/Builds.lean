import Verif.Lemmas.BuildsProcess
import Verif.Props.Simd
import Verif.Props.Track
import Verif.Props.AmbeTrack

/-!
# C82: a build with vector code and a build without decode bit for bit alike

Whatever the arithmetic does. Only `lax` must be the same in the two environments: it says whether the read one past the end of
`log2Ml` delivers a value.
-/

namespace Verif.Props
open Verif Verif.Spec Verif.Model Verif.Num Verif.Gen Arith

section any
variable {F : Type} [Arith F]

theorem stateEq_c4 {s s' : St F} (h : StateEq s s') (c : Int) :
    StateEq { s with cur := { s.cur with errorCount4 := c } } { s' with cur := { s'.cur with errorCount4 := c } } := by
  obtain ⟨hc, hp, he, ht⟩ := h
  refine ⟨?_, hp, he, ht⟩
  obtain ⟨x, e, h0⟩ := hc.cases
  dsimp only
  rw [e]
  exact ⟨rfl, h0⟩

theorem call_b (isa : Isa) (E E' : Env F) (hl : E'.lax = E.lax) (a : Api F) {s s' : St F} (h : StateEq s s') :
    Both (a.call E s) (a.callSimd isa E' s') fun r r' => SameStatus r.1 r'.1 ∧ StateEq r.2 r'.2 := by
  cases a with
  | imbe7200Frame C fr d =>
    simp only [Api.call, Api.callSimd, processImbe7200Framef, processImbe7200FramefSimd, bind_assoc]
    refine Both.same fun e => Both.bind _ (processImbe4400_b isa E E' hl C _ _ _ (stateEq_c4 h _)) fun o o' ho => ?_
    simp only [ok_bind]
    exact Both.pure ⟨ho.str.symm, ho.st⟩
  | imbe7100Frame C fr d =>
    simp only [Api.call, Api.callSimd, processImbe7100Framef, processImbe7100FramefSimd, bind_assoc]
    refine Both.same fun e => Both.same fun d' => Both.bind _ (processImbe4400_b isa E E' hl C _ _ _ (stateEq_c4 h _)) fun o o' ho => ?_
    simp only [ok_bind]
    exact Both.pure ⟨ho.str.symm, ho.st⟩
  | ambe2450Frame C fr d =>
    simp only [Api.call, Api.callSimd, processAmbe2450Framef, processAmbe2450FramefSimd, bind_assoc]
    refine Both.same fun e => Both.bind _ (processAmbe2450_b isa E E' hl C _ _ _ h) fun o o' ho => ?_
    simp only [ok_bind]
    exact Both.pure ⟨ho.str.symm, ho.st⟩
  | ambe2400Frame C fr d =>
    simp only [Api.call, Api.callSimd, processAmbe2400Framef, processAmbe2400FramefSimd, bind_assoc]
    refine Both.same fun e => Both.bind _ (processAmbe2400_b isa E E' hl C _ _ _ h) fun o o' ho => ?_
    simp only [ok_bind]
    exact Both.pure ⟨ho.str.symm, ho.st⟩
  | imbeData C e0 e d => exact Both.bind _ (processImbe4400_b isa E E' hl C none e d h) fun o o' ho => Both.pure ⟨ho.str.symm, ho.st⟩
  | ambe2450Data C e0 e d => exact Both.bind _ (processAmbe2450_b isa E E' hl C none e d h) fun o o' ho => Both.pure ⟨ho.str.symm, ho.st⟩
  | ambe2400Data C e0 e d => exact Both.bind _ (processAmbe2400_b isa E E' hl C e0 e d h) fun o o' ho => Both.pure ⟨ho.str.symm, ho.st⟩
  | initMbe => exact Both.bind _ (initMbeState_b h) fun o o' ho => Both.pure ⟨trivial, ho⟩
  | initAmbe =>
    simp only [Api.call, Api.callSimd, initAmbeState_eq]
    exact Both.pure ⟨trivial, .refl _, .refl _, .refl _, h.tls⟩
  | seed n =>
    refine Both.pure ⟨trivial, h.cur, h.prev, h.enh, ?_⟩
    have := h.tls
    unfold ThreadEq at this ⊢
    dsimp only
    rw [this]
    rfl

/-- One call on agreeing states: the same status string, and the states agree again. -/
theorem C82_step (isa : Isa) (E E' : Env F) (hl : E'.lax = E.lax) (a : Api F) (s s' : St F) (h : StateEq s s')
    (r r' : Option (Arr 160 F × List Char) × St F) (hr : a.call E s = .ok r) (hr' : a.callSimd isa E' s' = .ok r') :
    SameStatus r.1 r'.1 ∧ StateEq r.2 r'.2 := call_b isa E E' hl a h r r' hr hr'

theorem deliveries_b (isa : Isa) (E E' : Env F) (hl : E'.lax = E.lax) (as : List (Api F)) {s s' : St F} (h : StateEq s s') :
    Both (deliveries (Api.call E) as s) (deliveries (Api.callSimd isa E') as s') fun r r' => List.Forall₂ SameStatus r.1 r'.1 ∧ StateEq r.2 r'.2 := by
  induction as generalizing s s' with
  | nil => exact Both.pure ⟨.nil, h⟩
  | cons a as ih =>
    exact Both.bind _ (call_b isa E E' hl a h) fun r r' hr => Both.bind _ (ih hr.2) fun q q' hq => Both.pure ⟨.cons hr.1 hq.1, hq.2⟩

/-- Any list of calls on the two builds, from the same state: the same status strings throughout, and the same decoded parameters in
the end. -/
theorem C82_history (isa : Isa) (E E' : Env F) (hl : E'.lax = E.lax) (as : List (Api F)) (s : St F)
    (r r' : List (Option (Arr 160 F × List Char)) × St F) (hr : deliveries (Api.call E) as s = .ok r)
    (hr' : deliveries (Api.callSimd isa E') as s = .ok r') : List.Forall₂ SameStatus r.1 r'.1 ∧ StateEq r.2 r'.2 :=
  deliveries_b isa E E' hl as (.refl s) r r' hr hr'

/-- What agreeing states share, spelt out for the last decoded parameters: fundamental, number of bands, gain, log amplitudes, and
amplitude and voicing of each band; and for all three sets the error counters, tone phases, noise generator, phases without noise and amplitude
limit. -/
theorem C82_decoded (s s' : St F) (h : StateEq s s') :
    s'.prev.w0 = s.prev.w0 ∧ s'.prev.L = s.prev.L ∧ s'.prev.K = s.prev.K ∧ s'.prev.gamma = s.prev.gamma ∧ s'.prev.log2Ml = s.prev.log2Ml ∧
    (∀ l : Fin 57, 1 ≤ l.val → (l.val : Int) ≤ s.prev.L → s'.prev.Ml l = s.prev.Ml l ∧ s'.prev.Vl l = s.prev.Vl l) ∧
    ∀ p : St F → Parms F, p = St.cur ∨ p = St.prev ∨ p = St.enh →
      (p s').errorRate = (p s).errorRate ∧ (p s').repeatCount = (p s).repeatCount ∧ (p s').noiseSeed = (p s).noiseSeed ∧
      (p s').noiseOverlap = (p s).noiseOverlap ∧ (p s').swn = (p s).swn ∧ (p s').un = (p s).un ∧ (p s').PSIl = (p s).PSIl ∧
      (p s').amplitudeThreshold = (p s).amplitudeThreshold := by
  refine ⟨by rw [h.prev.rest], by rw [h.prev.rest], by rw [h.prev.rest], by rw [h.prev.rest], by rw [h.prev.rest], h.prev.band, ?_⟩
  rintro p (rfl | rfl | rfl)
  · rw [h.cur.rest]
    exact ⟨rfl, rfl, rfl, rfl, rfl, rfl, rfl, rfl⟩
  · rw [h.prev.rest]
    exact ⟨rfl, rfl, rfl, rfl, rfl, rfl, rfl, rfl⟩
  · rw [h.enh.rest]
    exact ⟨rfl, rfl, rfl, rfl, rfl, rfl, rfl, rfl⟩

/-- An IMBE frame that is replaced by comfort noise has the same samples on both builds. -/
theorem C82_imbe_samples (isa : Isa) (E E' : Env F) (hl : E'.lax = E.lax) (C : Call F) (c0 : Option Int) (e : Int) (d : Nat → Int) (s s' : St F)
    (h : StateEq s s') (o o' : Out F) (ho : processImbe4400 E C c0 e d s = .ok o) (ho' : processImbe4400Simd isa E' C c0 e d s' = .ok o')
    (hn : NoiseInstead o.st.prev) : o'.pcm = o.pcm := by
  refine (processImbe4400_b isa E E' hl C c0 e d h o o' ho ho').pcm ?_
  unfold synthMuted isMaxFrameRepeat requiresMuting
  rcases hn with hn | hn
  · rw [decide_eq_true hn]; rfl
  · rw [hn.1, hn.2]; simp

/-- An AMBE 2450 frame whose status has `M` or `E`, or `T` with a valid tone, has the same samples on both builds. -/
theorem C82_ambe2450_samples (isa : Isa) (E E' : Env F) (hl : E'.lax = E.lax) (C : Call F) (c0 : Option Int) (e : Int) (d : Nat → Int) (s s' : St F)
    (h : StateEq s s') (o o' : Out F) (ho : processAmbe2450 E C c0 e d s = .ok o) (ho' : processAmbe2450Simd isa E' C c0 e d s' = .ok o')
    (hn : 'M' ∈ o.str ∨ 'E' ∈ o.str ∨ ('T' ∈ o.str ∧ validToneId d = .ok true)) : o'.pcm = o.pcm :=
  (processAmbe2450_b isa E E' hl C c0 e d h o o' ho ho').pcm hn

/-- An AMBE 2400 frame whose status has `M`, `E` or `T` has the same samples on both builds. -/
theorem C82_ambe2400_samples (isa : Isa) (E E' : Env F) (hl : E'.lax = E.lax) (C : Call F) (e0 e : Int) (d : Nat → Int) (s s' : St F)
    (h : StateEq s s') (o o' : Out F) (ho : processAmbe2400 E C e0 e d s = .ok o) (ho' : processAmbe2400Simd isa E' C e0 e d s' = .ok o')
    (hn : 'M' ∈ o.str ∨ 'E' ∈ o.str ∨ 'T' ∈ o.str) : o'.pcm = o.pcm :=
  (processAmbe2400_b isa E E' hl C e0 e d h o o' ho ho').pcm hn

theorem op_b (isa : Isa) (E E' : Env F) (hl : E'.lax = E.lax) (op : Op F) {s s' : St F} (h : StateEq s s') :
    Both (op.run E s) (op.runSimd isa E' s') StateEq := by
  rcases op with ⟨C, _ | ⟨c0, c4⟩, e, d⟩ | (⟨C, c0, e, d⟩ | ⟨C, e0, e, d⟩) | _ | _ | n
  · exact Both.bind _ (processImbe4400_b isa E E' hl C none e d h) fun o o' ho => Both.pure ho.st
  · exact Both.bind _ (processImbe4400_b isa E E' hl C (some c0) e d (stateEq_c4 h c4)) fun o o' ho => Both.pure ho.st
  · exact Both.bind _ (processAmbe2450_b isa E E' hl C c0 e d h) fun o o' ho => Both.pure ho.st
  · exact Both.bind _ (processAmbe2400_b isa E E' hl C e0 e d h) fun o o' ho => Both.pure ho.st
  · exact initMbeState_b h
  · show Both (initAmbeState s) (initAmbeState s') StateEq
    rw [initAmbeState_eq, initAmbeState_eq]
    exact Both.pure ⟨.refl _, .refl _, .refl _, h.tls⟩
  · refine Both.pure ⟨h.cur, h.prev, h.enh, ?_⟩
    have := h.tls
    unfold ThreadEq at this ⊢
    dsimp only
    rw [this]
    rfl

theorem runHist_b (isa : Isa) (E E' : Env F) (hl : E'.lax = E.lax) (ops : List (Op F)) {s s' : St F} (h : StateEq s s') :
    Both (runHist E ops s) (runHistSimd isa E' ops s') StateEq := by
  induction ops generalizing s s' with
  | nil => exact Both.pure h
  | cons op ops ih => exact Both.bind _ (op_b isa E E' hl op h) fun o o' ho => ih ho

end any

variable {m : Libm}

theorem deliveries_state {E : Env (IEEE m)} {as : List (Api (IEEE m))} (h : ∀ a ∈ as, a.Valid) (s : St (IEEE m)) :
    (do Except.ok (← deliveries (Api.call E) as s).2 : Exec _) = runApi E as s := by
  induction as generalizing s with
  | nil => rfl
  | cons a as ih =>
    have e : (do Except.ok (← a.call E s).2 : Exec _) = a.run E s := by
      cases a with
      | initMbe => simp only [Api.call, Api.run, bind_assoc, ok_bind]; cases initMbeState s <;> rfl
      | initAmbe => simp only [Api.call, Api.run, bind_assoc, ok_bind]; cases initAmbeState s <;> rfl
      | _ => simp only [Api.call, Api.run, bind_assoc, ok_bind]
    simp only [deliveries, runApi]
    rw [← e]
    simp only [bind_assoc, ok_bind]
    exact congrArg _ (funext fun r => ih (fun x hx => h x (.tail _ hx)) r.2)

/-- Any program of at most 357000 documented calls on a fresh decoder: both builds run it to the end, with the same status strings and
the same decoded parameters. -/
theorem C82_program (hm : Exp2Acc m) (isa : Isa) (E E' : Env (IEEE m)) (h1 : E.lax = true) (h2 : E'.lax = true) (s0 : St (IEEE m)) (h0 : Fresh s0)
    (as : List (Api (IEEE m))) (h : ∀ a ∈ as, a.Valid) (hl : as.length ≤ 357000) :
    ∃ r r', deliveries (Api.call E) as s0 = .ok r ∧ deliveries (Api.callSimd isa E') as s0 = .ok r' ∧
      List.Forall₂ SameStatus r.1 r'.1 ∧ StateEq r.2 r'.2 := by
  obtain ⟨s, hs⟩ := (C51_program_defined hm E s0 h0 as h hl).1 h1
  obtain ⟨r', hr'⟩ := (C56_program_defined hm isa E' s0 h0 as h hl).1 h2
  rw [← deliveries_state h] at hs
  obtain ⟨r, hr, _⟩ := bind_ok hs
  exact ⟨r, r', hr, hr', C82_history isa E E' (by rw [h1, h2]) as s0 r r' hr hr'⟩

end Verif.Props
