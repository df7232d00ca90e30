import Verif.Lemmas.SoundEqHist
import Verif.Props.Rate
import Verif.Props.Frames

/-!
# C73: a few corrected errors are inaudible
-/

namespace Verif.Props
open Verif Verif.Spec Verif.Model Verif.Num Verif.Gen Arith
variable {m : Libm}

/-- Two receptions `ops` and `ops'` of the same IMBE transmission, after any common history `pre`. If in both of them no frame
has more than four errors and the error rate stays at or below 0.005, all samples are equal, and the decoders end in the same
state but for the error figures. -/
theorem C73_imbe (E : Env (IEEE m)) (s0 s1 s : St (IEEE m)) (hi : initMbeState s0 = .ok s1) (pre : List (ImbeOp (IEEE m)))
    (hp : ∀ op ∈ pre, Bits 88 op.d) (h : runOps (ImbeOp.run E) pre s1 = .ok s) (ops ops' : List (ImbeOp (IEEE m)))
    (hs : List.Forall₂ ImbeOp.SameTx ops ops') (hd : ∀ op ∈ ops, Bits 88 op.d)
    (hf : FaintImbe (pre.foldl ImbeAbs.next ImbeAbs.init) ops) (hf' : FaintImbe (pre.foldl ImbeAbs.next ImbeAbs.init) ops')
    (r r' : List (Arr 160 (IEEE m)) × St (IEEE m)) (hr : heard (ImbeOp.run E) ops s = .ok r) (hr' : heard (ImbeOp.run E) ops' s = .ok r') :
    r'.1 = r.1 ∧ SoundEqSt r.2 r'.2 := by
  rw [initMbeState_ieee] at hi
  cases hi
  have hI := imbeInv_run hp (imbeInv_init s0.tls) h
  obtain ⟨h1, h2⟩ := imbeHeard_e E hs hd hf hf' (ESt.refl s) hI hI r r' hr hr'
  exact ⟨h1, h2.sound⟩

theorem ambeHeard_e (E : Env (IEEE m)) {ops ops' : List (AmbeOp (IEEE m))} (hs : List.Forall₂ AmbeOp.SameTx ops ops')
    (hd : ∀ op ∈ ops, Bits 49 op.payload) {a a' : AmbeAbs (IEEE m)} (hf : FaintAmbe a ops) (hf' : FaintAmbe a' ops') {s s' : St (IEEE m)}
    (h : ESt s s') (hI : AmbeInv a.pending s) (hr0 : s.prev.errorRate = a.rate) (hI' : AmbeInv a'.pending s') (hr0' : s'.prev.errorRate = a'.rate) :
    Both (heard (AmbeOp.run E) ops s) (heard (AmbeOp.run E) ops' s') fun r r' => r'.1 = r.1 ∧ ESt r.2 r'.2 := by
  induction hs generalizing a a' s s' with
  | nil => exact Both.pure ⟨rfl, h⟩
  | @cons op op' ops ops' hop _ ih =>
    obtain ⟨p1, p2, p3, p4⟩ := hf
    obtain ⟨q1, q2, q3, q4⟩ := hf'
    have e : op'.payload = op.payload := by
      cases op <;> cases op' <;> first | exact hop.2.symm | cases hop
    intro r r' hr hr'
    obtain ⟨o, ho, hr⟩ := bind_ok hr
    obtain ⟨x, hx, hr⟩ := bind_ok hr
    obtain ⟨o', ho', hr'⟩ := bind_ok hr'
    obtain ⟨x', hx', hr'⟩ := bind_ok hr'
    have k := ambeRun_e E hop p1 q1 h hI.prev.thr (by rw [hr0]; exact p2) (by rw [hr0]; exact p3) (by rw [hr0']; exact q2)
      (by rw [hr0']; exact q3) o o' ho ho'
    obtain ⟨i1, i2⟩ := ambeRate_step (hd op (.head _)) hI hr0 ho
    obtain ⟨j1, j2⟩ := ambeRate_step (e ▸ hd op (.head _)) hI' hr0' ho'
    have kk := ih (fun x hx => hd x (.tail _ hx)) p4 q4 k.st i1 i2 j1 j2 x x' hx hx'
    rw [← ok_inj hr, ← ok_inj hr']
    exact ⟨by rw [k.pcm, kk.1], kk.2⟩

/-- The same for AMBE, with at most three errors in a frame. -/
theorem C73_ambe (E : Env (IEEE m)) (s0 s1 s : St (IEEE m)) (hi : initAmbeState s0 = .ok s1) (pre : List (AmbeOp (IEEE m)))
    (hp : ∀ op ∈ pre, Bits 49 op.payload) (h : runOps (AmbeOp.run E) pre s1 = .ok s) (ops ops' : List (AmbeOp (IEEE m)))
    (hs : List.Forall₂ AmbeOp.SameTx ops ops') (hd : ∀ op ∈ ops, Bits 49 op.payload)
    (hf : FaintAmbe (pre.foldl AmbeAbs.next AmbeAbs.init) ops) (hf' : FaintAmbe (pre.foldl AmbeAbs.next AmbeAbs.init) ops')
    (r r' : List (Arr 160 (IEEE m)) × St (IEEE m)) (hr : heard (AmbeOp.run E) ops s = .ok r) (hr' : heard (AmbeOp.run E) ops' s = .ok r') :
    r'.1 = r.1 ∧ SoundEqSt r.2 r'.2 := by
  rw [initAmbeState_eq] at hi
  cases hi
  have key : ∀ (ops : List (AmbeOp (IEEE m))) (a : AmbeAbs (IEEE m)) (s s' : St (IEEE m)),
      (∀ op ∈ ops, Bits 49 op.payload) → AmbeInv a.pending s → s.prev.errorRate = a.rate →
      runOps (AmbeOp.run E) ops s = .ok s' →
      AmbeInv (ops.foldl AmbeAbs.next a).pending s' ∧ s'.prev.errorRate = (ops.foldl AmbeAbs.next a).rate := by
    intro ops
    induction ops with
    | nil =>
      intro a s s' _ h1 h2 h
      cases h
      exact ⟨h1, h2⟩
    | cons op ops ih =>
      intro a s s' hd h1 h2 h
      obtain ⟨o, h3, h4⟩ := bind_ok h
      obtain ⟨g1, g2⟩ := ambeRate_step (hd op (.head _)) h1 h2 h3
      exact ih _ _ _ (fun x hx => hd x (.tail _ hx)) g1 g2 h4
  obtain ⟨i1, i2⟩ := key pre AmbeAbs.init _ s hp (ambeInit_inv s0.tls) rfl h
  obtain ⟨h1, h2⟩ := ambeHeard_e E hs hd hf hf' (ESt.refl s) i1 i2 i1 i2 r r' hr hr'
  exact ⟨h1, h2.sound⟩

/-! ## Frames -/

/-- Reception of a frame with correctable errors is a call with the sent payload and the number of flipped bits. -/
theorem rx7200_op (E : Env (IEEE m)) {r : Rx7200 (IEEE m)} (hv : r.Valid) (s : St (IEEE m)) : r.run E s = r.op.run E s := by
  obtain ⟨x, hx, h1, h2, h3, h4⟩ := C07_imbe7200_round_trip hv.2 r.old
  unfold Rx7200.run processImbe7200Framef Rx7200.op ImbeOp.run
  rw [hx, ok_bind]
  dsimp only
  rw [processImbe4400_congr h1, h2, h3, h4]
  generalize processImbe4400 E r.call _ _ r.d _ = y
  cases y with
  | error e => rfl
  | ok o => rfl

theorem heard_congr {Op Op' : Type} (f : Op → Op') {step : Op → St (IEEE m) → Exec (Out (IEEE m))}
    {step' : Op' → St (IEEE m) → Exec (Out (IEEE m))} {ops : List Op} (h : ∀ op ∈ ops, ∀ s, step op s = step' (f op) s)
    (s : St (IEEE m)) : heard step ops s = heard step' (ops.map f) s := by
  induction ops generalizing s with
  | nil => rfl
  | cons op ops ih =>
    unfold heard
    rw [List.map_cons]
    dsimp only
    rw [h op (.head _)]
    refine congrArg _ (funext fun o => ?_)
    rw [ih (fun x hx => h x (.tail _ hx))]

theorem rxAmbe_op (E : Env (IEEE m)) {r : RxAmbe (IEEE m)} (hv : r.Valid) (s : St (IEEE m)) : r.run E s = r.op.run E s := by
  obtain ⟨x, hx, h1, h2, h3⟩ := C09_ambe_round_trip hv.2 r.old
  unfold RxAmbe.run RxAmbe.op
  dsimp only
  split
  · unfold processAmbe2400Framef AmbeOp.run
    rw [hx, ok_bind]
    dsimp only
    rw [processAmbe2400_congr h1, h2, h3]
    generalize processAmbe2400 E r.call _ _ r.d _ = y
    cases y with
    | error e => rfl
    | ok o => rfl
  · unfold processAmbe2450Framef AmbeOp.run
    rw [hx, ok_bind]
    dsimp only
    rw [processAmbe2450_congr h1, h2, h3]
    generalize processAmbe2450 E r.call _ _ r.d _ = y
    cases y with
    | error e => rfl
    | ok o => rfl

theorem zero_le : le (lit 0 1 : IEEE m) (lit 0 1) = true ∧ le (lit 0 1 : IEEE m) (lit 5 1000) = true :=
  ⟨show le (lit 0 1 : IEEE libm0) (lit 0 1) = true by decide +kernel, show le (lit 0 1 : IEEE libm0) (lit 5 1000) = true by decide +kernel⟩

theorem imbeRate_zero : imbeRate (lit 0 1 : IEEE m) 0 = lit 0 1 :=
  show imbeRate (lit 0 1 : IEEE libm0) 0 = lit 0 1 by decide +kernel

theorem ambeRate_zero : ambeRate (lit 0 1 : IEEE m) 0 = lit 0 1 :=
  show ambeRate (lit 0 1 : IEEE libm0) 0 = lit 0 1 by decide +kernel

theorem faintImbe_clean {ops : List (ImbeOp (IEEE m))} (h : ∀ op ∈ ops, op.errs2 = 0) {a : ImbeAbs (IEEE m)} (ha : a.rate = lit 0 1) :
    FaintImbe a ops := by
  induction ops generalizing a with
  | nil => trivial
  | cons op ops ih =>
    have e := h op (.head _)
    refine ⟨by omega, by omega, by rw [ha, e, imbeRate_zero]; exact zero_le.1, by rw [ha, e, imbeRate_zero]; exact zero_le.2,
      ih (fun x hx => h x (.tail _ hx)) ?_⟩
    unfold ImbeAbs.next
    split
    · dsimp only
      split
      · rw [ha, e, imbeRate_zero]
      · exact ha
    · rw [ha, e, imbeRate_zero]

theorem faintAmbe_clean {ops : List (AmbeOp (IEEE m))} (h : ∀ op ∈ ops, op.errs2 = 0 ∧ op.Few) {a : AmbeAbs (IEEE m)} (ha : a.rate = lit 0 1) :
    FaintAmbe a ops := by
  induction ops generalizing a with
  | nil => trivial
  | cons op ops ih =>
    obtain ⟨e, f⟩ := h op (.head _)
    refine ⟨f, by rw [ha, e, ambeRate_zero]; exact zero_le.1, by rw [ha, e, ambeRate_zero]; exact zero_le.2,
      ih (fun x hx => h x (.tail _ hx)) ?_⟩
    unfold AmbeAbs.next
    cases op.kind with
    | voice => dsimp only; rw [ha, e, ambeRate_zero]
    | erasure => dsimp only; rw [ha, e, ambeRate_zero]
    | tone => exact ha
    | noise => rfl
    | repeat_ =>
      dsimp only
      split
      · rfl
      · exact ha

/-- An IMBE 7200x4400 transmission received with correctable errors, at most four counted in a frame and with an error rate of at
most 0.005, sounds exactly like the same transmission received without any error. -/
theorem C73_imbe_frames (E : Env (IEEE m)) (s0 s : St (IEEE m)) (hi : initMbeState s0 = .ok s) (rs cs : List (Rx7200 (IEEE m)))
    (hs : List.Forall₂ (fun r c => r.call = c.call ∧ r.d = c.d) rs cs) (hr : ∀ r ∈ rs, r.Valid) (hc : ∀ c ∈ cs, c.Valid ∧ c.Clean)
    (hf : FaintImbe ImbeAbs.init (rs.map Rx7200.op)) (x y : List (Arr 160 (IEEE m)) × St (IEEE m))
    (hx : heard (Rx7200.run E) rs s = .ok x) (hy : heard (Rx7200.run E) cs s = .ok y) : y.1 = x.1 ∧ SoundEqSt x.2 y.2 := by
  rw [heard_congr Rx7200.op (fun r k => rx7200_op E (hr r k))] at hx
  rw [heard_congr Rx7200.op (fun r k => rx7200_op E (hc r k).1)] at hy
  refine C73_imbe E s0 s s hi [] (by simp) rfl _ _ ?_ ?_ hf ?_ x y hx hy
  · rw [List.forall₂_map_left_iff, List.forall₂_map_right_iff]
    exact hs
  · intro op h
    obtain ⟨r, h1, rfl⟩ := List.mem_map.1 h
    exact (hr r h1).1
  · refine faintImbe_clean (fun op h => ?_) rfl
    obtain ⟨c, h1, rfl⟩ := List.mem_map.1 h
    have k := (hc c h1).2
    unfold Rx7200.op
    dsimp only
    rw [k 0 (by decide), k 1 (by decide), k 2 (by decide), k 3 (by decide), k 4 (by decide), k 5 (by decide), k 6 (by decide)]
    decide

/-- The same for AMBE 3600x2450 and 3600x2400, with at most three errors counted in a frame. -/
theorem C73_ambe_frames (E : Env (IEEE m)) (s0 s : St (IEEE m)) (hi : initAmbeState s0 = .ok s) (rs cs : List (RxAmbe (IEEE m)))
    (hs : List.Forall₂ (fun r c => r.dstar = c.dstar ∧ r.call = c.call ∧ r.d = c.d) rs cs) (hr : ∀ r ∈ rs, r.Valid)
    (hc : ∀ c ∈ cs, c.Valid ∧ c.Clean) (hf : FaintAmbe AmbeAbs.init (rs.map RxAmbe.op)) (x y : List (Arr 160 (IEEE m)) × St (IEEE m))
    (hx : heard (RxAmbe.run E) rs s = .ok x) (hy : heard (RxAmbe.run E) cs s = .ok y) : y.1 = x.1 ∧ SoundEqSt x.2 y.2 := by
  rw [heard_congr RxAmbe.op (fun r k => rxAmbe_op E (hr r k))] at hx
  rw [heard_congr RxAmbe.op (fun r k => rxAmbe_op E (hc r k).1)] at hy
  refine C73_ambe E s0 s s hi [] (by simp) rfl _ _ ?_ ?_ hf ?_ x y hx hy
  · rw [List.forall₂_map_left_iff, List.forall₂_map_right_iff]
    refine hs.imp ?_
    rintro r c ⟨h1, h2, h3⟩
    unfold RxAmbe.op
    dsimp only
    rw [h1]
    cases c.dstar
    · exact ⟨h2, h3⟩
    · exact ⟨h2, h3⟩
  · intro op h
    obtain ⟨r, h1, rfl⟩ := List.mem_map.1 h
    unfold RxAmbe.op
    dsimp only
    split
    · exact (hr r h1).1
    · exact (hr r h1).1
  · refine faintAmbe_clean (fun op h => ?_) rfl
    obtain ⟨c, h1, rfl⟩ := List.mem_map.1 h
    obtain ⟨k0, k1, k2⟩ := (hc c h1).2
    unfold RxAmbe.op
    dsimp only
    rw [k0, k1, k2]
    have e : ambeC0Count 0 false = 0 ∧ weight 12 (0 >>> 11) = 0 := by decide
    rw [e.1, e.2]
    cases c.dstar
    · exact ⟨rfl, by decide, fun c hc => by cases hc; decide⟩
    · exact ⟨rfl, show (0 : Int) ≤ 3 by decide⟩

/-! ## The hypotheses are met -/

/-- What can be run can be heard. -/
theorem heard_of_run {Op : Type} {step : Op → St (IEEE m) → Exec (Out (IEEE m))} {ops : List Op} {s t : St (IEEE m)}
    (h : runOps step ops s = .ok t) : ∃ x, heard step ops s = .ok x := by
  induction ops generalizing s with
  | nil => exact ⟨_, rfl⟩
  | cons op ops ih =>
    obtain ⟨o, h1, h2⟩ := bind_ok h
    obtain ⟨x, hx⟩ := ih h2
    refine ⟨(o.pcm :: x.1, x.2), ?_⟩
    show (step op s >>= fun o => heard step ops o.st >>= fun r => Except.ok (o.pcm :: r.1, r.2)) = _
    rw [h1, ok_bind, hx, ok_bind]

/-- `FaintImbe` for speech frames with these numbers of errors, as a computation. -/
def faintB : List Int → IEEE libm0 → Bool
  | [], _ => true
  | e :: es, x => decide (0 ≤ e) && decide (e ≤ 4) && le (lit 0 1) (imbeRate x e) && le (imbeRate x e) (lit 5 1000) && faintB es (imbeRate x e)

theorem faint_of_b {es : List Int} {n : Nat} {x : IEEE libm0} (h : faintB es x = true) :
    FaintImbe (⟨n, IEEE.mk (IEEE.get x)⟩ : ImbeAbs (IEEE m)) (es.map errImbe) := by
  induction es generalizing n x with
  | nil => trivial
  | cons e es ih =>
    unfold faintB at h
    simp only [Bool.and_eq_true, decide_eq_true_eq] at h
    obtain ⟨⟨⟨⟨h1, h2⟩, h3⟩, h4⟩, h5⟩ := h
    refine ⟨h1, h2, h3, h4, ?_⟩
    rw [errImbe_next]
    exact ih h5

/-- Six speech frames, received with 4, 1, 0, 0, 0 and 3 errors and without any: both receptions run to completion, and they
sound the same. -/
example (hm : Exp2Acc m) : ∃ r r', heard (ImbeOp.run sampleEnv) ([4, 1, 0, 0, 0, 3].map errImbe) (freshImbe (m := m)) = .ok r ∧
    heard (ImbeOp.run sampleEnv) ([0, 0, 0, 0, 0, 0].map errImbe) (freshImbe (m := m)) = .ok r' ∧ r'.1 = r.1 := by
  obtain ⟨t, ht⟩ := err_runs hm [4, 1, 0, 0, 0, 3] (by decide) (by decide)
  obtain ⟨t', ht'⟩ := err_runs hm [0, 0, 0, 0, 0, 0] (by decide) (by decide)
  obtain ⟨r, hr⟩ := heard_of_run ht
  obtain ⟨r', hr'⟩ := heard_of_run ht'
  refine ⟨r, r', hr, hr', ?_⟩
  refine (C73_imbe sampleEnv freshImbe freshImbe freshImbe (initMbeState_ieee _) [] (by simp) rfl _ _ ?_ ?_ ?_ ?_ r r' hr hr').1
  · exact .cons ⟨rfl, rfl⟩ (.cons ⟨rfl, rfl⟩ (.cons ⟨rfl, rfl⟩ (.cons ⟨rfl, rfl⟩ (.cons ⟨rfl, rfl⟩ (.cons ⟨rfl, rfl⟩ .nil)))))
  · intro op hop; obtain ⟨x, _, rfl⟩ := List.mem_map.1 hop; exact samplePayload_bits
  · exact faint_of_b (x := lit 0 1) (by decide +kernel)
  · exact faint_of_b (x := lit 0 1) (by decide +kernel)

/-- An AMBE frame with errors in both words, received with three flipped bits and without any, then a tone. -/
example (hm : Exp2Acc m) : ∃ r r',
    heard (AmbeOp.run sampleEnv) [.v2450 sampleCall (some 2) 3 sampleAmbe, toneAmbe] (freshAmbe (m := m)) = .ok r ∧
    heard (AmbeOp.run sampleEnv) [.v2450 sampleCall (some 0) 0 sampleAmbe, toneAmbe] (freshAmbe (m := m)) = .ok r' ∧ r'.1 = r.1 := by
  have run : ∀ c0 e : Int, 0 ≤ e → e ≤ 3 →
      ∃ r, heard (AmbeOp.run sampleEnv) [.v2450 sampleCall (some c0) e sampleAmbe, toneAmbe] (freshAmbe (m := m)) = .ok r := by
    intro c0 e h0 h3
    obtain ⟨h1, h2⟩ := fresh_ok (freshAmbe_fresh (m := m))
    have := hist_u hm (U := fun _ => False) (E := sampleEnv) (.inl rfl)
      (ops := [AmbeOp.v2450 sampleCall (some c0) e sampleAmbe, toneAmbe].map Op.ambe)
      (by
        intro op hop
        obtain ⟨x, hx, rfl⟩ := List.mem_map.1 hop
        simp only [List.mem_cons, List.not_mem_nil, or_false] at hx
        rcases hx with rfl | rfl
        · exact ⟨sampleAmbe_bits, show 0 ≤ e ∧ e ≤ 7000000 ∧ e.toNat + 3 ≤ 16 by omega⟩
        · exact sampleAmbe_ok _ (.inr rfl)) h1 (le_refl _) h2 (by rw [List.length_map]; simp)
    rw [runHist_ambe] at this
    obtain ⟨s, hs, _⟩ := this.toOk
    exact heard_of_run hs
  obtain ⟨r, hr⟩ := run 2 3 (by decide) (by decide)
  obtain ⟨r', hr'⟩ := run 0 0 (by decide) (by decide)
  refine ⟨r, r', hr, hr', ?_⟩
  refine (C73_ambe sampleEnv freshAmbe freshAmbe freshAmbe (initAmbeState_eq _) [] (by simp) rfl _ _ ?_ ?_ ?_ ?_ r r' hr hr').1
  · exact .cons ⟨rfl, rfl⟩ (.cons ⟨rfl, rfl⟩ .nil)
  · intro op hop
    simp only [List.mem_cons, List.not_mem_nil, or_false] at hop
    rcases hop with rfl | rfl
    · exact sampleAmbe_bits
    · exact sampleTone_bits
  · refine ⟨⟨show (3 : Int) ≤ 3 by decide, fun c hc => by cases hc; decide⟩,
      show le (lit 0 1 : IEEE libm0) (ambeRate (lit 0 1) 3) = true by decide +kernel,
      show le (ambeRate (lit 0 1) 3 : IEEE libm0) (lit 5 1000) = true by decide +kernel,
      ⟨show (0 : Int) ≤ 3 by decide, fun c hc => by cases hc⟩, ?_, ?_, trivial⟩
    · exact show le (lit 0 1 : IEEE libm0) (ambeRate (ambeRate (lit 0 1) 3) 0) = true by decide +kernel
    · exact show le (ambeRate (ambeRate (lit 0 1) 3) 0 : IEEE libm0) (lit 5 1000) = true by decide +kernel
  · refine faintAmbe_clean ?_ rfl
    intro op hop
    simp only [List.mem_cons, List.not_mem_nil, or_false] at hop
    rcases hop with rfl | rfl
    · exact ⟨rfl, show (0 : Int) ≤ 3 by decide, fun c hc => by cases hc; decide⟩
    · exact ⟨rfl, show (0 : Int) ≤ 3 by decide, fun c hc => by cases hc⟩

/-- A speech frame can be received with two flipped data bits and a flipped check bit, and without any. -/
example : ∃ r c : Rx7200 (IEEE m), r.Valid ∧ c.Valid ∧ c.Clean ∧ r.call = c.call ∧ r.d = c.d ∧ r.op.errs2 = 2 ∧
    FaintImbe ImbeAbs.init [r.op] := by
  obtain ⟨c1, f1, h1⟩ := C07_imbe7200_frame_exists (e := fun i => if i = 1 then 0x401001 else 0)
    samplePayload_bits (by intro i hi; have : i = 0 ∨ i = 1 ∨ i = 2 ∨ i = 3 := by omega
                           rcases this with rfl | rfl | rfl | rfl <;> decide)
    (by intro i h h'; have : i = 4 ∨ i = 5 ∨ i = 6 := by omega
        rcases this with rfl | rfl | rfl <;> decide)
  obtain ⟨c2, f2, h2⟩ := C07_imbe7200_frame_exists (e := fun _ => 0) samplePayload_bits (by intro i hi; decide) (by intro i h h'; decide)
  refine ⟨⟨sampleCall, samplePayload, c1, _, f1, fun _ => 0⟩, ⟨sampleCall, samplePayload, c2, _, f2, fun _ => 0⟩,
    ⟨samplePayload_bits, h1⟩, ⟨samplePayload_bits, h2⟩, fun _ _ => rfl, rfl, rfl, ?_, ?_⟩
  · unfold Rx7200.op
    dsimp only
    decide
  · have e : ∀ op : ImbeOp (IEEE m), op.errs2 = 2 → FaintImbe ImbeAbs.init [op] := by
      intro op h
      refine ⟨by omega, by omega, ?_, ?_, trivial⟩
      · rw [h]; exact show le (lit 0 1 : IEEE libm0) (imbeRate (lit 0 1) 2) = true by decide +kernel
      · rw [h]; exact show le (imbeRate (lit 0 1) 2 : IEEE libm0) (lit 5 1000) = true by decide +kernel
    refine e _ ?_
    unfold Rx7200.op
    dsimp only
    decide

end Verif.Props
