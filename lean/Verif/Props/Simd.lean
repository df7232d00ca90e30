import Verif.Lemmas.SimdIeee
import Verif.Lemmas.SimdSafeStep
import Verif.Props.Process
import Verif.Props.Sound

/-!
# C55, C56: builds with vector code
-/

namespace Verif.Props
open Verif Verif.Spec Verif.Model Verif.Num Verif.Gen Arith

variable {m : Libm}

/-! ## C55 -/

/-- In exact arithmetic a build with vector code and one without deliver the same samples, status strings and states
(or stop at the same undefined operation) for every program, whatever its arguments. -/
theorem C55_program (isa : Isa) (E : Env ℝ) (s : St ℝ) (h : Fresh s) (as : List (Api ℝ)) :
    deliveries (Api.callSimd isa E) as s = deliveries (Api.call E) as s :=
  deliveriesSimd_eq isa E as s (fresh_cacheOk h)

/-- The enhancement, for every parameter set. -/
theorem C55_enhance (isa : Isa) (addr : Nat) (cur : Parms ℝ) (t : Tls ℝ) :
    spectralAmpEnhanceSimd isa addr cur t = spectralAmpEnhance addr cur t := spectralAmpEnhanceSimd_eq isa addr cur t

/-- The synthesis, for every pair of parameter sets, on a thread whose stored tables have their proper contents. -/
theorem C55_synth (isa : Isa) (E : Env ℝ) (addr : Nat) (out : Arr 160 ℝ) (cur prev : Parms ℝ) (t : Tls ℝ) (uvq : Int)
    (h : CacheOk E t) :
    synthesizeSpeechfSimd isa E addr out cur prev t uvq = synthesizeSpeechf E addr out cur prev t uvq :=
  synthesizeSpeechfSimd_eq isa E addr out cur prev t uvq h

example (E : Env ℝ) : CacheOk E (Tls.start : Tls ℝ) := CacheOk.start E

/-- Bit for bit: the final scaling of the enhancement. -/
theorem C55_scale_bitwise (L : Int) (hL : L ≤ 56) (g : IEEE m) (Ml : Arr 57 (IEEE m)) : enhScaleSimd L g Ml = enhScale L g Ml :=
  enhScaleSimd_eq mul_comm_ieee hL g Ml

/-- Bit for bit: the normalisation after the inverse transform. -/
theorem C55_normalize_bitwise (U : Arr 256 (IEEE m)) : normalizeSimd U = normalize U := normalizeSimd_eq U

/-- Bit for bit: the overlap-add of the unvoiced signal. -/
theorem C55_overlap_bitwise (P : Plan (IEEE m)) (hP : planFill planRaw = .ok P) (p c : Arr 256 (IEEE m)) (out : Arr 160 (IEEE m)) :
    wolaSimd P p c out = wolaFast P p c out := by
  rw [planFill_eq] at hP
  cases ok_inj hP
  exact wolaSimd_eq denomTab p c out

/-- Bit for bit: the NEON conversion to 16 bits gives the scalar value wherever that is defined, and 0 for NaN. -/
theorem C55_neon_short (x : FP) (a : Int) (ha : shortSample (F := IEEE m) x = .ok a) : shortSampleNeon (F := IEEE m) x = a := by
  have hx : x ≠ .nan := by
    rintro rfl
    rw [shortSample_nan] at ha
    cases ha
  rw [shortSample_eq x hx] at ha
  rw [shortSampleNeon_eq x hx, ok_inj ha]

theorem C55_neon_nan : shortSampleNeon (F := IEEE m) FP.nan = 0 := shortSampleNeon_nan

/-- The run-time dispatch: on every processor, from every state of the pointer, the conversion of a buffer without NaN
gives the samples of the scalar code, and the choice does not change any more. -/
theorem C55_dispatch (tg : Target) (impl : Option ShortImpl) (inp : Arr 160 (IEEE m)) (h : ∀ i, inp i ≠ FP.nan)
    (out : Arr 160 Int) : ∃ r i, floatToShort inp out = .ok r ∧ floatToShortSimd tg impl inp out = .ok (r, some i) ∧
      ∀ (inp' : Arr 160 (IEEE m)) out', ∀ q, floatToShortSimd tg (some i) inp' out' = .ok q → q.2 = some i := by
  obtain ⟨r, h1, h2, _⟩ := C28_buffers inp h out
  refine ⟨r, initDispatch tg impl, h1, ?_, fun inp' out' q hq => ?_⟩
  · unfold floatToShortSimd
    dsimp only
    cases initDispatch tg impl with
    | scalar => dsimp only; rw [h1, ok_bind]
    | sse2 => dsimp only; rw [h2, ok_bind]
    | neon =>
      have h3 : floatToShortNeon inp out = .ok r := by
        unfold floatToShortNeon
        rw [lanes_loop (F := IEEE m) shortSampleNeon inp out]
        exact congrArg Except.ok (funext fun i => C55_neon_short _ _ ((floatToShort_iff inp out r).1 h1 i))
      dsimp only; rw [h3, ok_bind]
  · unfold floatToShortSimd at hq
    generalize initDispatch tg impl = i at hq ⊢
    cases i <;>
    · dsimp only [initDispatch] at hq
      obtain ⟨x, _, hq⟩ := bind_ok hq
      rw [← ok_inj hq]

/-- A processor with vector instructions uses them from the first call on. -/
example : initDispatch .x86_64 none = .sse2 ∧ initDispatch .aarch64 none = .neon ∧ initDispatch .other none = .scalar :=
  ⟨rfl, rfl, rfl⟩

/-- Amplitudes 4096, 1, 1, 1. -/
def sumAmps : Arr 57 (IEEE m) := fun l => if l.val = 1 then ofInt 4096 else ofInt 1

/-- Sums are not equal bit for bit: the four squares 2^24, 1, 1, 1 give 2^24 in sequence, 2^24 + 2 with vectors. -/
theorem C55_sum_not_bitwise (isa : Isa) : enhSum 4 (sumAmps (m := m)) = .ok (ofInt 16777216) ∧
    enhSumSimd isa 4 (sumAmps (m := m)) = .ok (ofInt 16777218) ∧ (ofInt 16777216 : IEEE m) ≠ ofInt 16777218 := by
  have h : ∀ isa : Isa, enhSum 4 (sumAmps (m := libm0)) = .ok (ofInt 16777216) ∧
    enhSumSimd isa 4 (sumAmps (m := libm0)) = .ok (ofInt 16777218) ∧ (ofInt 16777216 : IEEE libm0) ≠ ofInt 16777218 := by
    intro isa
    cases isa <;> decide +kernel
  exact h isa

/-- Nor is voiced synthesis: for the finite amplitude 2^127 and a window value of 0 the scalar code adds 0 and the vector
code NaN, because it multiplies the infinite product `2 * amp` by 0. -/
theorem C55_voiced_not_bitwise : ∃ o o' : Arr 160 (IEEE m),
    windowedOsc 0 (ofInt (2 ^ 127)) (ofInt 0) (ofInt 1) (ofInt 0) (ofInt 1) (Arr.const 160 (fi 0)) = .ok o ∧
    windowedOscSimd 0 (ofInt (2 ^ 127)) (ofInt 0) (ofInt 1) (ofInt 0) (ofInt 1) (Arr.const 160 (fi 0)) = .ok o' ∧
    o 0 = ofInt 0 ∧ o' 0 = FP.nan := by
  have h : ∀ o o' : Arr 160 (IEEE libm0),
      windowedOsc 0 (ofInt (2 ^ 127)) (ofInt 0) (ofInt 1) (ofInt 0) (ofInt 1) (Arr.const 160 (fi 0)) = .ok o →
      windowedOscSimd 0 (ofInt (2 ^ 127)) (ofInt 0) (ofInt 1) (ofInt 0) (ofInt 1) (Arr.const 160 (fi 0)) = .ok o' →
      o 0 = ofInt 0 ∧ o' 0 = FP.nan := by
    have h : (match (windowedOsc 0 (ofInt (2 ^ 127)) (ofInt 0) (ofInt 1) (ofInt 0) (ofInt 1) (Arr.const 160 (fi 0)) :
          Exec (Arr 160 (IEEE libm0))),
        (windowedOscSimd 0 (ofInt (2 ^ 127)) (ofInt 0) (ofInt 1) (ofInt 0) (ofInt 1) (Arr.const 160 (fi 0)) :
          Exec (Arr 160 (IEEE libm0))) with
        | .ok o, .ok o' => decide (o 0 = ofInt 0) && decide (IEEE.get (o' 0) = FP.nan)
        | _, _ => false) = true := by decide +kernel
    intro o o' ho ho'
    rw [ho, ho'] at h
    have h := Bool.and_eq_true_iff.1 h
    have h2 := of_decide_eq_true h.2
    exact ⟨of_decide_eq_true h.1, h2⟩
  obtain ⟨o, ho, _⟩ := windowedOsc_fine (off := 0) (by decide) (ofInt (2 ^ 127) : IEEE m) (ofInt 0) (ofInt 1) (ofInt 0)
    (ofInt 1) (Arr.const 160 (fi 0))
  obtain ⟨o', ho', _⟩ := windowedOscSimd_fine (off := 0) (by decide) (ofInt (2 ^ 127) : IEEE m) (ofInt 0) (ofInt 1)
    (ofInt 0) (ofInt 1) (Arr.const 160 (fi 0))
  exact ⟨o, o', ho, ho', h o o' ho ho'⟩

/-! ## C56 -/

/-- With at most 56 harmonics and any float contents whatsoever (in every arithmetic), the vector build accesses no array
outside its bounds and reads no unset value. -/
theorem C56_memory_safe {F : Type} [Arith F] (isa : Isa) (E : Env F) (a : Nat) (out : Arr 160 F) (cur prev : Parms F)
    (t : Tls F) (ht : CacheOk E t) (uvq : Int) (hc : 0 ≤ cur.L ∧ cur.L ≤ 56) (hp : 0 ≤ prev.L ∧ prev.L ≤ 56) (e : UB)
    (h : synthesizeSpeechfSimd isa E a out cur prev t uvq = .error e) : e = .floatToInt ∨ e = .signedOverflow := by
  have := synthesizeSpeechfSimd_ok (U := fun e => e = .floatToInt ∨ e = .signedOverflow) isa E a out cur prev t uvq
    (fun P hP => cacheOk_plan ht P hP)
    ⟨⟨by omega, hc.2⟩, ⟨by omega, hp.2⟩, .inr (.inl rfl), .inr (.inl rfl), .inr (.inr rfl)⟩
  rcases this with ⟨r, hr, _⟩ | ⟨e', he, hU⟩
  · rw [hr] at h; cases h
  · rw [he] at h; cases h; exact hU

/-- Every documented call is one of the actions of the history theorems. -/
theorem Api.toOpSimd {a : Api (IEEE m)} (h : a.Valid) : ∃ op : Op (IEEE m), op.Payload ∧ op.Counts 7000000 ∧
    ∀ isa E s, (do Except.ok (← a.callSimd isa E s).2 : Exec _) = op.runSimd isa E s := by
  cases a with
  | imbe7200Frame C fr d =>
    obtain ⟨hb, hc⟩ := h
    obtain ⟨r, hr, h1, h2, h3, h4, h5⟩ := C13_imbe7200_counts fr hb d
    refine ⟨.imbe ⟨C, some (r.errs, r.c4), r.errs2, r.d⟩, h5, ⟨?_, ?_, ?_⟩, fun isa E s => ?_⟩
    · dsimp only; omega
    · dsimp only; omega
    · dsimp only; omega
    · unfold Api.callSimd Op.runSimd
      dsimp only
      unfold processImbe7200FramefSimd
      rw [hr, ok_bind]
      generalize processImbe4400Simd isa E C _ _ r.d _ = x
      cases x <;> rfl
  | imbe7100Frame C fr d =>
    obtain ⟨hb, hc⟩ := h
    obtain ⟨r, hr, h1, h2, h3, h4, h5⟩ := C13_imbe7100_counts fr hb d
    obtain ⟨out, ho, _⟩ := C12_convert_moves_bits (m := m) r.d h5
    refine ⟨.imbe ⟨C, some (r.errs, r.c4), r.errs2, out⟩, (C12_convert_fundamental r.d h5 out ho).2, ⟨?_, ?_, ?_⟩,
      fun isa E s => ?_⟩
    · dsimp only; omega
    · dsimp only; omega
    · dsimp only; omega
    · unfold Api.callSimd Op.runSimd
      dsimp only
      unfold processImbe7100FramefSimd
      rw [hr, ok_bind, ho, ok_bind]
      generalize processImbe4400Simd isa E C _ _ out _ = x
      cases x <;> rfl
  | ambe2450Frame C fr d =>
    obtain ⟨hb, hc⟩ := h
    obtain ⟨r, hr, h1, h2, h3, h5⟩ := C13_ambe_counts fr hb d
    refine ⟨.ambe (.v2450 C (some (r.errs : Int)) r.errs2 r.d), h5, ⟨?_, ?_, ?_⟩, fun isa E s => ?_⟩
    · omega
    · omega
    · omega
    · unfold Api.callSimd Op.runSimd
      dsimp only
      unfold processAmbe2450FramefSimd
      rw [hr, ok_bind]
      generalize processAmbe2450Simd isa E C _ _ r.d _ = x
      cases x <;> rfl
  | ambe2400Frame C fr d =>
    obtain ⟨hb, hc⟩ := h
    obtain ⟨r, hr, h1, h2, h3, h5⟩ := C13_ambe_counts fr hb d
    refine ⟨.ambe (.v2400 C (r.errs : Int) r.errs2 r.d), h5, ⟨?_, ?_, ?_⟩, fun isa E s => ?_⟩
    · omega
    · omega
    · omega
    · unfold Api.callSimd Op.runSimd
      dsimp only
      unfold processAmbe2400FramefSimd
      rw [hr, ok_bind]
      generalize processAmbe2400Simd isa E C _ _ r.d _ = x
      cases x <;> rfl
  | imbeData C errs errs2 d =>
    refine ⟨.imbe ⟨C, none, errs2, d⟩, h.1, h.2, fun isa E s => ?_⟩
    unfold Api.callSimd Op.runSimd
    dsimp only
    generalize processImbe4400Simd isa E C _ _ d _ = x
    cases x <;> rfl
  | ambe2450Data C errs errs2 d =>
    refine ⟨.ambe (.v2450 C none errs2 d), h.1, h.2, fun isa E s => ?_⟩
    unfold Api.callSimd Op.runSimd
    dsimp only
    generalize processAmbe2450Simd isa E C _ _ d _ = x
    cases x <;> rfl
  | ambe2400Data C errs errs2 d =>
    refine ⟨.ambe (.v2400 C errs errs2 d), h.1, h.2, fun isa E s => ?_⟩
    unfold Api.callSimd Op.runSimd
    dsimp only
    generalize processAmbe2400Simd isa E C _ _ d _ = x
    cases x <;> rfl
  | initMbe =>
    refine ⟨.initMbe, trivial, trivial, fun isa E s => ?_⟩
    unfold Api.callSimd Op.runSimd
    dsimp only
    generalize initMbeState s = x
    cases x <;> rfl
  | initAmbe =>
    refine ⟨.initAmbe, trivial, trivial, fun isa E s => ?_⟩
    unfold Api.callSimd Op.runSimd
    dsimp only
    generalize initAmbeState s = x
    cases x <;> rfl
  | seed n => exact ⟨.seed n, trivial, trivial, fun isa E s => rfl⟩

theorem deliveriesSimd_hist {as : List (Api (IEEE m))} (h : ∀ a ∈ as, a.Valid) : ∃ ops : List (Op (IEEE m)),
    (∀ op ∈ ops, op.Payload ∧ op.Counts 7000000) ∧ ops.length = as.length ∧
    ∀ isa E s, (do Except.ok (← deliveries (Api.callSimd isa E) as s).2 : Exec _) = runHistSimd isa E ops s := by
  induction as with
  | nil => exact ⟨[], by simp, rfl, fun _ _ _ => by simp only [deliveries, runHistSimd, ok_bind]⟩
  | cons a as ih =>
    obtain ⟨ops, h1, h2, h3⟩ := ih fun x hx => h x (.tail _ hx)
    obtain ⟨op, g1, g2, g3⟩ := Api.toOpSimd (h a (.head _))
    refine ⟨op :: ops, ?_, by simp [h2], fun isa E s => ?_⟩
    · intro x hx
      rcases List.mem_cons.1 hx with rfl | hx
      · exact ⟨g1, g2⟩
      · exact h1 x hx
    · simp only [deliveries, runHistSimd]
      rw [← g3]
      generalize a.callSimd isa E s = x
      cases x with
      | error e => rw [error_bind, error_bind, error_bind, error_bind]
      | ok r =>
        rw [ok_bind, ok_bind, ok_bind, ← h3]
        generalize deliveries (Api.callSimd isa E) as r.2 = y
        cases y with
        | error e => rw [error_bind, error_bind]
        | ok q => rw [ok_bind, ok_bind, ok_bind]

/-- Any program that makes at most 357000 documented calls on a decoder that was initialised once, on a build with
vector code: no undefined operation occurs, apart from the read one past the end of `log2Ml` of C16-C18. -/
theorem C56_program_defined (hm : Exp2Acc m) (isa : Isa) (E : Env (IEEE m)) (s0 : St (IEEE m)) (h0 : Fresh s0)
    (as : List (Api (IEEE m))) (h : ∀ a ∈ as, a.Valid) (hl : as.length ≤ 357000) :
    (E.lax = true → ∃ r, deliveries (Api.callSimd isa E) as s0 = .ok r) ∧
    ∀ e, deliveries (Api.callSimd isa E) as s0 = .error e → e = .oobRead := by
  obtain ⟨ops, h1, h2, h3⟩ := deliveriesSimd_hist h
  obtain ⟨g1, g2⟩ := fresh_ok h0
  have hp : PlanOk s0.tls := fun P hP => cacheOk_plan (fresh_cacheOk (E := E) h0) P hP
  have h3 := h3 isa E s0
  constructor
  · intro hlax
    have := histSimd_u hm (U := fun _ => False) isa (E := E) (.inl hlax) h1 hp g1 (le_refl _) g2 (by omega)
    obtain ⟨s, hs, _⟩ := this.toOk
    rw [hs] at h3
    obtain ⟨r, hr, _⟩ := bind_ok h3
    exact ⟨r, hr⟩
  · intro e he
    rw [he, error_bind] at h3
    have := histSimd_u hm (U := fun e => e = .oobRead) isa (E := E) (.inr rfl) h1 hp g1 (le_refl _) g2 (by omega)
    rcases this with ⟨s, hs, _⟩ | ⟨e', he', hU⟩
    · rw [hs] at h3; cases h3
    · rw [he'] at h3; cases h3; exact hU

/-- A fresh decoder and a documented call. -/
example : Fresh (freshAmbe : St (IEEE m)) ∧ ∃ a : Api (IEEE m), a.Valid :=
  ⟨freshAmbe_fresh, .imbe7200Frame ⟨18, 1, 2, Arr.const 160 (fi 0), 3⟩ (fun _ _ => 0) (fun _ => 0),
    fun _ _ _ _ => .inl rfl, le_refl 18⟩

theorem synthUnmutedSimd_clip (isa : Isa) (E : Env (IEEE m)) (cur prev : Parms (IEEE m)) (t : Tls (IEEE m)) :
    Post (synthUnmutedSimd isa E cur prev t) fun r => ∃ raw : Arr 160 (IEEE m), ∀ i, r.out i = clipSample (raw i) := by
  unfold synthUnmutedSimd
  iterate 5 refine Post.bind Post.true fun _ _ => ?_
  refine Post.bind Post.true fun pt _ => ?_
  obtain ⟨pl, t'⟩ := pt
  dsimp only
  cases pl with
  | none =>
    dsimp only
    rw [clipBuffer_eq]
    exact Post.pure ⟨_, fun _ => rfl⟩
  | some P =>
    refine Post.bind Post.true fun r _ => ?_
    rw [clipBuffer_eq]
    exact Post.pure ⟨_, fun _ => rfl⟩

/-- The bound of C29 for the vector build: every sample of synthesised speech is NaN or within ±4446.95. -/
theorem C56_bound (isa : Isa) (E : Env (IEEE m)) (a : Nat) (out : Arr 160 (IEEE m)) (cur prev : Parms (IEEE m))
    (t : Tls (IEEE m)) (uvq : Int) (r : SynthRes (IEEE m)) (h : synthesizeSpeechfSimd isa E a out cur prev t uvq = .ok r)
    (i : Fin 160) : r.out i = FP.nan ∨ ∃ q : ℚ, Val (r.out i) q ∧ |q| ≤ 4553677 / 1024 := by
  unfold synthesizeSpeechfSimd at h
  obtain ⟨⟨cur', t'⟩, _, h⟩ := bind_ok h
  dsimp only at h
  by_cases hm : synthMuted cur' = true
  · rw [if_pos hm] at h
    obtain ⟨x, hx, h⟩ := bind_ok h
    rw [← ok_inj h]
    obtain ⟨v, hv, e⟩ := comfortNoisef_bnd _ _ _ hx i
    right
    dsimp only
    rw [e]
    obtain ⟨h1, h2⟩ := comfortQ_range hv
    refine ⟨_, comfortSample_val hv, ?_⟩
    unfold gainQ at h1 h2
    rw [abs_le]
    unfold gainQ
    constructor <;> linarith
  · rw [if_neg hm] at h
    obtain ⟨raw, hr⟩ := synthUnmutedSimd_clip isa E cur' prev t' r h
    rw [hr i, clipSample_ieee]
    rcases clipR_cases (raw i) with ⟨_, e⟩ | ⟨_, q, hq, hb⟩
    · exact .inl e
    · exact .inr ⟨q, hq, hb⟩

end Verif.Props
