import Verif.Lemmas.Process
import Verif.Lemmas.ImbeDecode
import Verif.Lemmas.AmbeDecode
import Verif.Spec.Process

/-!
# One call of a process function
-/

namespace Verif.Model
open Verif Verif.Gen Verif.Spec Verif.Num Arith
set_option linter.unusedSectionVars false

section
variable {F : Type} [Arith F]

/-- The samples are comfort noise, taken from the thread's comfort-noise generator. -/
def IsNoise (C : Call F) (s : St F) (o : Out F) : Prop :=
  ∃ t, comfortNoisef C.buf s.tls = .ok (o.pcm, t) ∧ o.st.tls.comfortSeed48 = t.comfortSeed48 ∧
    o.st.tls.comfortSeeded = t.comfortSeeded

/-- The samples come from the speech synthesiser, run on the parameters now stored as `prev` (up to enhancement and
smoothing) against the old enhanced parameters `enh`; the comfort-noise generator is not used. -/
def IsSpeech (E : Env F) (s : St F) (enh : Parms F) (o : Out F) : Prop :=
  o.st.tls.comfortSeed48 = s.tls.comfortSeed48 ∧ o.st.tls.comfortSeeded = s.tls.comfortSeeded ∧
    ∃ c t r, synthUnmuted E c enh t = .ok r ∧ o.pcm = r.out ∧
      c = { o.st.prev with localEnergy := c.localEnergy, Vl := c.Vl, Ml := c.Ml, amplitudeThreshold := c.amplitudeThreshold }

/-- What can be said of an IMBE call in any arithmetic. -/
structure ImbeStep (E : Env F) (C : Call F) (c0 : Option Int) (errs2 : Int) (s : St F) (o : Out F)
    (rep : Bool) : Prop where
  good : rep = false → o.st.prev.repeatCount = 0 ∧ o.st.prev.repeat_ = 0 ∧
    o.st.prev.errorRate = imbeRate s.prev.errorRate errs2 ∧ o.st.prev.errorCountTotal = errs2 ∧
    o.st.prev.mutingThreshold = mutingImbe
  last : rep = true → s.prev.repeatCount ≤ 3 → o.st.prev = { s.prev with
    Ml := o.st.prev.Ml, log2Ml := o.st.prev.log2Ml, repeat_ := s.prev.repeat_ + 1, repeatCount := s.prev.repeatCount + 1 } ∧
    KeepAmps s.prev o.st.prev
  reset : rep = true → 3 < s.prev.repeatCount → ∃ c L, imbeLOfW0 (imbeDefaultW0 : F) = .ok L ∧
    o.st.prev = imbeHeadroom L c ∧ c.errorRate = imbeRate s.prev.errorRate errs2 ∧ c.errorCountTotal = errs2
  str : o.str = List.replicate errs2.toNat '=' ++ (if rep then ['R'] else []) ++
    (if isMaxFrameRepeat o.st.prev || requiresMuting o.st.prev then ['M'] else []) ++ ['\x00']
  noise : synthMuted o.st.prev = true → IsNoise C s o
  speech : synthMuted o.st.prev = false → IsSpeech E s s.enh o
  enh : o.st.enh = o.st.cur
  cur : o.st.cur = { o.st.prev with
    localEnergy := o.st.cur.localEnergy, amplitudeThreshold := o.st.cur.amplitudeThreshold,
    noiseSeed := o.st.cur.noiseSeed, noiseOverlap := o.st.cur.noiseOverlap, Ml := o.st.cur.Ml, Vl := o.st.cur.Vl,
    PHIl := o.st.cur.PHIl, PSIl := o.st.cur.PSIl, previousUw := o.st.cur.previousUw }

theorem speak_noise {E : Env F} {C : Call F} {s s0 : St F} {sp : Arr 160 F × St F} {o : Out F}
    (h : speak E C s = .ok sp) (hp : o.pcm = sp.1) (hs : o.st = sp.2)
    (h1 : s.tls.comfortSeed48 = s0.tls.comfortSeed48) (h2 : s.tls.comfortSeeded = s0.tls.comfortSeeded) :
    (synthMuted o.st.prev = true → IsNoise C s0 o) ∧ (synthMuted o.st.prev = false → IsSpeech E s0 s.enh o) := by
  have f := speak_frame E C s _ h
  have hprev : o.st.prev = s.cur := by rw [hs]; exact f.prev_eq
  rw [hprev]
  refine ⟨fun hm => ?_, fun hm => ?_⟩
  · have k := comfortNoisef_tls _ _ s0.tls h1 h2 _ _ (f.muted hm)
    exact ⟨_, by rw [hp]; exact k, by rw [hs], by rw [hs]⟩
  · obtain ⟨a, b, c, t, r, g1, g2, g3, g4, g5, g6⟩ := f.unmuted hm
    refine ⟨by rw [hs, a, h1], by rw [hs, b, h2], c, t, r, g1, by rw [hp, g2], ?_⟩
    rw [hprev]
    exact g5

theorem processImbe4400_step {E : Env F} {C : Call F} {c0 : Option Int} {errs2 : Int} {d : Nat → Int} {s : St F}
    {o : Out F} (h : processImbe4400 E C c0 errs2 d s = .ok o) :
    ∃ r : DecodeRes F, decodeImbe4400 E.lax d (imbePrepare c0 errs2 s).cur s.prev s.tls = .ok r ∧
      ImbeStep E C c0 errs2 s o (imbeRepeatRequired r.bad c0 errs2 (imbeRate s.prev.errorRate errs2)) ∧
      (imbeRepeatRequired r.bad c0 errs2 (imbeRate s.prev.errorRate errs2) = false →
        o.st.prev = { r.cur with repeat_ := 0, repeatCount := 0 }) := by
  obtain ⟨r, cur, sp, P⟩ := processImbe4400_parts h
  obtain ⟨hd, _, _⟩ := decodeImbe4400_frame _ _ _ _ _ _ P.decode
  have hk := decodeImbe4400_keep _ _ _ _ _ _ P.decode
  have hf := speak_frame E C _ _ P.spoken
  have hrate : r.cur.errorRate = imbeRate s.prev.errorRate errs2 := by
    rw [hd.cur_eq, imbePrepare_cur]; rfl
  have hprev : o.st.prev = cur := by rw [P.st]; exact hf.prev_eq
  have hrep := P.repeated
  have hstr := P.str
  rw [hrate] at hrep hstr
  obtain ⟨n1, n2⟩ := speak_noise (s0 := s) P.spoken P.pcm P.st (by dsimp only; rw [hd.tls_eq]) (by dsimp only; rw [hd.tls_eq])
  refine ⟨r, P.decode, ?_, ?_⟩
  · generalize imbeRepeatRequired r.bad c0 errs2 (imbeRate s.prev.errorRate errs2) = rep at hrep hstr
    refine ⟨?_, ?_, ?_, by rw [hprev]; exact hstr, n1, n2, ?_, ?_⟩
    · rintro rfl
      rw [imbeRepeat, if_neg (by decide)] at hrep
      cases hrep
      rw [hprev]
      refine ⟨rfl, rfl, hrate, ?_, ?_⟩
      · dsimp only; rw [hd.cur_eq, imbePrepare_cur]
      · dsimp only; rw [hd.cur_eq, imbePrepare_cur]
    · rintro rfl hc
      have hc' : r.prev.repeatCount = s.prev.repeatCount := by rw [hd.prev_eq]
      rw [imbeRepeat, if_pos rfl, if_neg (by omega)] at hrep
      have e := repeatLast_inv hrep
      rw [hprev]
      constructor
      · rw [e, hd.prev_eq]
      · intro l a b
        obtain ⟨x, y⟩ := hk l a b
        rw [e]; exact ⟨x, y⟩
    · rintro rfl hc
      have hc' : r.prev.repeatCount = s.prev.repeatCount := by rw [hd.prev_eq]
      rw [imbeRepeat, if_pos rfl, if_pos (by omega), imbeReset_eq] at hrep
      obtain ⟨L, hL, hx⟩ := bind_ok hrep
      cases hx
      refine ⟨r.cur, L, hL, hprev, hrate, ?_⟩
      rw [hd.cur_eq, imbePrepare_cur]
    · rw [P.st]; exact hf.enh_eq
    · rw [P.st]
      refine hf.cur_eq.trans ?_
      rw [hf.prev_eq]
  · intro hf'
    rw [hf', imbeRepeat, if_neg (by decide)] at hrep
    cases hrep
    exact hprev

end

variable {m : Libm}

/-- The decoder reports an error exactly for an invalid fundamental. -/
theorem decodeImbe4400_bad_iff {d : Nat → Int} (hd : Bits 88 d) {lax : Bool} {cur prev : Parms (IEEE m)}
    {t : Tls (IEEE m)} {r : DecodeRes (IEEE m)} (h : decodeImbe4400 lax d cur prev t = .ok r) :
    r.bad = if 207 < imbeFund d then 1 else 0 := by
  by_cases c : 207 < imbeFund d
  · rw [decodeImbe4400_bad hd c] at h
    cases h
    rw [if_pos c]
  · rw [decodeImbe4400_good hd (by omega)] at h
    rw [if_neg c]
    exact (imbeDecodeBody_post _ _ _ _ _ _ _ _ h).1

theorem imbeRepeatRequired_spec {F : Type} [Arith F] (fund : Nat) (c0 : Option Int) (errs2 : Int) (rate : F) :
    imbeRepeatRequired (if 207 < fund then 1 else 0) c0 errs2 rate = imbeIsRepeat fund c0 errs2 rate := by
  unfold imbeRepeatRequired imbeIsRepeat
  by_cases h : 207 < fund
  · rw [if_pos h, if_pos rfl, decide_eq_true h, Bool.true_or]
  · rw [if_neg h, if_neg (by decide), decide_eq_false h, Bool.false_or]
    cases c0 <;> rfl

theorem processImbe4400_ieee {E : Env (IEEE m)} {C : Call (IEEE m)} {c0 : Option Int} {errs2 : Int} {d : Nat → Int}
    (hd : Bits 88 d) {s : St (IEEE m)} {o : Out (IEEE m)} (h : processImbe4400 E C c0 errs2 d s = .ok o) :
    ImbeStep E C c0 errs2 s o (imbeIsRepeat (imbeFund d) c0 errs2 (imbeRate s.prev.errorRate errs2)) := by
  obtain ⟨r, h1, h2, _⟩ := processImbe4400_step h
  rw [decodeImbe4400_bad_iff hd h1, imbeRepeatRequired_spec] at h2
  exact h2

theorem ImbeOp.run_eq {F : Type} [Arith F] (E : Env F) (op : ImbeOp F) (s : St F) : ∃ s' : St F,
    s'.prev = s.prev ∧ s'.enh = s.enh ∧ s'.tls = s.tls ∧
    op.run E s = processImbe4400 E op.call (op.counts.map (·.1)) op.errs2 op.d s' := by
  obtain ⟨C, cs, e, d⟩ := op
  cases cs with
  | none => exact ⟨s, rfl, rfl, rfl, rfl⟩
  | some c => exact ⟨{ s with cur := { s.cur with errorCount4 := c.2 } }, rfl, rfl, rfl, rfl⟩

theorem ImbeStep.congr {F : Type} [Arith F] {E : Env F} {C : Call F} {c0 : Option Int} {errs2 : Int} {s s' : St F}
    {o : Out F} {rep : Bool} (h : ImbeStep E C c0 errs2 s' o rep) (h1 : s'.prev = s.prev) (h2 : s'.enh = s.enh)
    (h3 : s'.tls = s.tls) : ImbeStep E C c0 errs2 s o rep := by
  obtain ⟨a1, a2, a3, a4, a5, a6, a7, a8⟩ := h
  unfold IsNoise at a5
  unfold IsSpeech at a6
  rw [h1] at a1 a2 a3
  rw [h3] at a5 a6
  rw [h2] at a6
  exact ⟨a1, a2, a3, a4, a5, a6, a7, a8⟩

theorem imbeOp_step {E : Env (IEEE m)} {op : ImbeOp (IEEE m)} (hd : Bits 88 op.d) {s : St (IEEE m)} {o : Out (IEEE m)}
    (h : op.run E s = .ok o) :
    ImbeStep E op.call (op.counts.map (·.1)) op.errs2 s o
      (imbeIsRepeat (imbeFund op.d) (op.counts.map (·.1)) op.errs2 (imbeRate s.prev.errorRate op.errs2)) := by
  obtain ⟨s', h1, h2, h3, h4⟩ := ImbeOp.run_eq E op s
  rw [h4] at h
  have := processImbe4400_ieee hd h
  rw [h1] at this
  exact this.congr h1 h2 h3

/-! ## Thresholds -/

theorem thr_imbe0 : lt (lit 1 1000000 : IEEE libm0) (abs ((mutingImbe : IEEE libm0) -ᶠ mutingAmbe)) = true := by decide +kernel
theorem thr_ambe0 : lt (lit 1 1000000 : IEEE libm0) (abs ((mutingAmbe : IEEE libm0) -ᶠ mutingAmbe)) = false := by decide +kernel

theorem thr_imbe : lt (lit 1 1000000 : IEEE m) (abs ((mutingImbe : IEEE m) -ᶠ mutingAmbe)) = true := by
  have e : ∀ x y z : FP, lt (F := IEEE m) x (abs (F := IEEE m) (Arith.sub (F := IEEE m) y z)) =
    lt (F := IEEE libm0) x (abs (F := IEEE libm0) (Arith.sub (F := IEEE libm0) y z)) := fun _ _ _ => rfl
  exact (e _ _ _).trans thr_imbe0

theorem thr_ambe : lt (lit 1 1000000 : IEEE m) (abs ((mutingAmbe : IEEE m) -ᶠ mutingAmbe)) = false := by
  have e : ∀ x y z : FP, lt (F := IEEE m) x (abs (F := IEEE m) (Arith.sub (F := IEEE m) y z)) =
    lt (F := IEEE libm0) x (abs (F := IEEE libm0) (Arith.sub (F := IEEE libm0) y z)) := fun _ _ _ => rfl
  exact (e _ _ _).trans thr_ambe0

theorem synthMuted_imbe {p : Parms (IEEE m)} (h : p.mutingThreshold = mutingImbe) :
    synthMuted p = (isMaxFrameRepeat p || requiresMuting p) := by
  unfold synthMuted
  rw [h, thr_imbe, Bool.true_and]

theorem synthMuted_ambe {p : Parms (IEEE m)} (h : p.mutingThreshold = mutingAmbe) : synthMuted p = isMaxFrameRepeat p := by
  unfold synthMuted
  rw [h, thr_ambe, Bool.false_and, Bool.or_false]

/-! ## AMBE -/

/-- One parameter set of an AMBE decoder. -/
structure AmbeSet (p : Parms (IEEE m)) : Prop where
  rep : p.repeat_ = p.repeatCount
  lo : 0 ≤ p.repeatCount
  hi : p.repeatCount ≤ 3
  thr : p.mutingThreshold = mutingAmbe

/-- Invariant of the AMBE decoders: `n` repeats are pending. -/
structure AmbeInv (n : Nat) (s : St (IEEE m)) : Prop where
  cur : AmbeSet s.cur
  prev : AmbeSet s.prev
  enh : AmbeSet s.enh
  count : s.prev.repeatCount = n

theorem ambeInit_set : AmbeSet (ambeInit : Parms (IEEE m)) := ⟨rfl, le_refl (0 : Int), show (0 : Int) ≤ 3 by decide, rfl⟩

theorem ambeInit_inv (t : Tls (IEEE m)) : AmbeInv 0 (⟨ambeInit, ambeInit, ambeInit, t⟩ : St (IEEE m)) :=
  ⟨ambeInit_set, ambeInit_set, ambeInit_set, rfl⟩

/-- The current parameters after the assignments at the start of a call. -/
def ambePreparedCur {F : Type} [Arith F] (errs2 : Int) (s : St F) : Parms F :=
  { s.cur with mutingThreshold := mutingAmbe, errorCountTotal := errs2, errorCount4 := 0,
               errorRate := ambeErrorRate s.prev.errorRate errs2 }

theorem ambePrepare_same {errs2 : Int} {s : St (IEEE m)} (h : s.prev.mutingThreshold = mutingAmbe) :
    ambePrepare errs2 s = .ok { s with cur := ambePreparedCur errs2 s } := by
  unfold ambePrepare ensureAmbeDefaults
  rw [h, thr_ambe, if_neg (by decide), ok_bind]
  rfl

theorem ambePrepare_switch {errs2 : Int} {s : St (IEEE m)}
    (h : lt (lit 1 1000000) (abs (s.prev.mutingThreshold -ᶠ mutingAmbe)) = true) :
    ambePrepare errs2 s = ambePrepare errs2 ⟨ambeInit, ambeInit, ambeInit, s.tls⟩ := by
  rw [ambePrepare_same (s := ⟨ambeInit, ambeInit, ambeInit, s.tls⟩) rfl]
  unfold ambePrepare ensureAmbeDefaults
  rw [h, if_pos rfl, initAmbeState_eq, ok_bind]
  rfl

/-- What an AMBE call does, for a frame of kind `k` after `n` pending repeats. -/
structure AmbeStep (E : Env (IEEE m)) (C : Call (IEEE m)) (errs2 : Int) (s : St (IEEE m)) (o : Out (IEEE m)) (n : Nat)
    (k : Kind) : Prop where
  inv : AmbeInv (ambeNext n k) o.st
  str : ∃ u, o.str = List.replicate errs2.toNat '=' ++ u ++ ['\x00'] ∧
    (k = .voice → u = []) ∧ (k = .repeat_ → u = if n = 3 then ['R', 'M'] else ['R']) ∧ (k = .tone → u = ['T']) ∧
    (k = .erasure → u = ['E']) ∧ (k = .noise → u = [] ∨ u = ['T'] ∨ u = ['R'])
  mute : k = .repeat_ → n = 3 → IsNoise C s o ∧ o.st.cur = ambeInit ∧ o.st.prev = ambeInit ∧ o.st.enh = ambeInit
  speech : k = .voice ∨ (k = .repeat_ ∧ n < 3) → IsSpeech E s s.enh o
  last : k = .repeat_ → n < 3 → o.st.prev = { s.prev with
    Ml := o.st.prev.Ml, log2Ml := o.st.prev.log2Ml, repeat_ := s.prev.repeat_ + 1, repeatCount := s.prev.repeatCount + 1 } ∧
    KeepAmps s.prev o.st.prev
  tone : k = .tone → o.st.prev = s.prev
  erasure : k = .erasure → IsNoise C s o
  noise : k = .noise → (∃ b, IsNoise { C with buf := b } s o) ∧ o.st.cur = ambeInit ∧ o.st.prev = ambeInit ∧
    o.st.enh = ambeInit
  counts : k = .voice ∨ k = .erasure → o.st.prev.errorRate = ambeErrorRate s.prev.errorRate errs2 ∧
    o.st.prev.errorCountTotal = errs2 ∧ o.st.prev.errorCount4 = 0

theorem AmbeSet.ofSpeak {p q : Parms (IEEE m)} (h : AmbeSet p) (e1 : q.repeat_ = p.repeat_)
    (e2 : q.repeatCount = p.repeatCount) (e3 : q.mutingThreshold = p.mutingThreshold) : AmbeSet q :=
  ⟨by rw [e1, e2, h.rep], by rw [e2]; exact h.lo, by rw [e2]; exact h.hi, by rw [e3, h.thr]⟩

/-- Synthesis in an AMBE decoder with parameters `s.cur`. -/
theorem ambeSpeak {E : Env (IEEE m)} {C : Call (IEEE m)} {s s0 : St (IEEE m)} {sp : Arr 160 (IEEE m) × St (IEEE m)}
    {o : Out (IEEE m)} (h : speak E C s = .ok sp) (hp : o.pcm = sp.1) (hs : o.st = sp.2)
    (h1 : s.tls.comfortSeed48 = s0.tls.comfortSeed48) (h2 : s.tls.comfortSeeded = s0.tls.comfortSeeded)
    (hc : AmbeSet s.cur) :
    IsSpeech E s0 s.enh o ∧ o.st.prev = s.cur ∧ AmbeSet o.st.cur ∧ AmbeSet o.st.enh := by
  have f := speak_frame E C s _ h
  have hprev : o.st.prev = s.cur := by rw [hs]; exact f.prev_eq
  have hm : synthMuted s.cur = false := by
    rw [synthMuted_ambe hc.thr]
    unfold isMaxFrameRepeat
    rw [decide_eq_false]
    have := hc.hi
    omega
  have hcur : AmbeSet o.st.cur := by
    rw [hs, f.cur_eq]
    exact hc.ofSpeak rfl rfl rfl
  refine ⟨(speak_noise h hp hs h1 h2).2 (by rw [hprev]; exact hm), hprev, hcur, ?_⟩
  rw [hs, f.enh_eq, ← hs]
  exact hcur

theorem noiseAndReset_inv {F : Type} [Arith F] {C : Call F} {s s0 : St F} {r : Arr 160 F × St F} {o : Out F}
    (h : noiseAndReset C s = .ok r) (hp : o.pcm = r.1) (hs : o.st = r.2)
    (h1 : s.tls.comfortSeed48 = s0.tls.comfortSeed48) (h2 : s.tls.comfortSeeded = s0.tls.comfortSeeded) :
    IsNoise C s0 o ∧ o.st.cur = ambeInit ∧ o.st.prev = ambeInit ∧ o.st.enh = ambeInit := by
  unfold noiseAndReset at h
  obtain ⟨⟨a, t⟩, h3, h⟩ := bind_ok h
  rw [initAmbeState_eq, ok_bind] at h
  cases h
  have k := comfortNoisef_tls _ _ s0.tls h1 h2 _ _ h3
  rw [hs]
  exact ⟨⟨_, by rw [hp]; exact k, by rw [hs], by rw [hs]⟩, rfl, rfl, rfl⟩

theorem inv_of_init {o : Out (IEEE m)} (h1 : o.st.cur = ambeInit) (h2 : o.st.prev = ambeInit) (h3 : o.st.enh = ambeInit) :
    AmbeInv 0 o.st := ⟨by rw [h1]; exact ambeInit_set, by rw [h2]; exact ambeInit_set, by rw [h3]; exact ambeInit_set, by rw [h2]; rfl⟩

/-- The voice part shared by the two AMBE codecs: `rep` tells whether the frame is repeated, `v` is the new `*cur_mp`. -/
theorem ambeVoice_step {E : Env (IEEE m)} {C : Call (IEEE m)} {s s1 : St (IEEE m)} {r : DecodeRes (IEEE m)}
    {v : Parms (IEEE m)} {p : Arr 160 (IEEE m) × Option Char × St (IEEE m)} {o : Out (IEEE m)} {n : Nat} {rep : Bool}
    {errs2 : Int} (hI : AmbeInv n s) (hs1 : s1 = { s with cur := ambePreparedCur errs2 s })
    (hfr : DecodeFrame s1.cur s1.prev s1.tls r) (hkeep : KeepAmps s1.prev r.prev)
    (hv : if rep then repeatLast r.prev = .ok v else v = { r.cur with repeat_ := 0, repeatCount := 0 })
    (hr : (if v.repeat_ ≤ 3 then do
        let o ← speak E C ⟨v, r.prev, s1.enh, r.tls⟩
        Except.ok (o.1, none, o.2)
      else do
        let o ← noiseAndReset C ⟨v, r.prev, s1.enh, r.tls⟩
        Except.ok (o.1, some 'M', o.2) : Exec (Arr 160 (IEEE m) × Option Char × St (IEEE m))) = .ok p)
    (hp : o.pcm = p.1) (hst : o.st = p.2.2)
    (hstr : o.str = List.replicate errs2.toNat '=' ++ (if rep then ['R'] else []) ++ p.2.1.toList ++ ['\x00']) :
    AmbeStep E C errs2 s o n (if rep then .repeat_ else .voice) := by
  have ht1 : r.tls.comfortSeed48 = s.tls.comfortSeed48 := by rw [hfr.tls_eq, hs1]
  have ht2 : r.tls.comfortSeeded = s.tls.comfortSeeded := by rw [hfr.tls_eq, hs1]
  have hn : n ≤ 3 := by have := hI.prev.hi; have := hI.count; omega
  have henh : s1.enh = s.enh := by rw [hs1]
  have hprev : s1.prev = s.prev := by rw [hs1]
  rw [henh] at hr
  rw [hprev] at hkeep
  cases rep with
  | false =>
    simp only [Bool.false_eq_true, if_false] at hv hstr ⊢
    have hset : AmbeSet v := by
      rw [hv]
      refine ⟨rfl, le_refl (0 : Int), show (0 : Int) ≤ 3 by decide, ?_⟩
      dsimp only
      rw [hfr.cur_eq, hs1]
      rfl
    rw [if_pos (by rw [hset.rep]; exact hset.hi)] at hr
    obtain ⟨sp, h1, h2⟩ := bind_ok hr
    cases h2
    obtain ⟨g1, g2, g3, g4⟩ := ambeSpeak (s0 := s) h1 hp hst ht1 ht2 hset
    refine ⟨⟨g3, by rw [g2]; exact hset, g4, ?_⟩, ⟨[], ?_, ?_⟩, ?_, fun _ => g1, ?_, ?_, ?_, ?_, fun _ => ?_⟩
    · rw [g2, hv]; rfl
    · simpa using hstr
    rotate_right
    · rw [g2, hv]
      dsimp only
      rw [hfr.cur_eq, hs1]
      exact ⟨rfl, rfl, rfl⟩
    all_goals simp
  | true =>
    simp only [if_true] at hv hstr ⊢
    have e := repeatLast_inv hv
    have hc : v.repeatCount = n + 1 := by
      rw [e]; dsimp only; rw [hfr.prev_eq, hprev]; dsimp only; rw [hI.count]
    have hc' : v.repeat_ = n + 1 := by
      rw [e]; dsimp only; rw [hfr.prev_eq, hprev]; dsimp only; rw [hI.prev.rep, hI.count]
    have hthr : v.mutingThreshold = mutingAmbe := by
      rw [e]; dsimp only; rw [hfr.prev_eq, hprev]; exact hI.prev.thr
    by_cases h3 : n = 3
    · rw [if_neg (by omega)] at hr
      obtain ⟨sp, h1, h2⟩ := bind_ok hr
      cases h2
      obtain ⟨g1, g2, g3, g4⟩ := noiseAndReset_inv (s0 := s) h1 hp hst ht1 ht2
      refine ⟨?_, ⟨['R', 'M'], ?_, ?_⟩, fun _ _ => ⟨g1, g2, g3, g4⟩, ?_, ?_, ?_, ?_, ?_, ?_⟩
      · rw [ambeNext, if_pos h3]; exact inv_of_init g2 g3 g4
      · simpa using hstr
      · simp [h3]
      · simp [h3]
      · intro _ h; omega
      all_goals simp
    · have hset : AmbeSet v := ⟨by omega, by omega, by omega, hthr⟩
      rw [if_pos (by omega)] at hr
      obtain ⟨sp, h1, h2⟩ := bind_ok hr
      cases h2
      obtain ⟨g1, g2, g3, g4⟩ := ambeSpeak (s0 := s) h1 hp hst ht1 ht2 hset
      refine ⟨⟨g3, by rw [g2]; exact hset, g4, ?_⟩, ⟨['R'], ?_, ?_⟩, ?_, fun _ => g1, fun _ _ => ⟨?_, ?_⟩, ?_, ?_, ?_, ?_⟩
      · rw [g2, hc, ambeNext, if_neg h3]; push_cast; rfl
      · simpa using hstr
      · simp [h3]
      · intro _ h; exact absurd h h3
      · rw [g2, e, hfr.prev_eq, hprev]
      · intro l a b
        obtain ⟨x, y⟩ := hkeep l a b
        rw [g2, e]; exact ⟨x, y⟩
      all_goals simp

theorem ambe2450Repeat_spec (c0 : Option Int) (errs2 : Int) : ambe2450RepeatRequired c0 errs2 = ambeTooManyErrors c0 errs2 := by
  unfold ambe2450RepeatRequired ambeTooManyErrors
  cases c0 with
  | none => rfl
  | some c => simp

theorem processAmbe2450_step {E : Env (IEEE m)} {C : Call (IEEE m)} {c0 : Option Int} {errs2 : Int} {d : Nat → Int}
    (hd : Bits 49 d) {s : St (IEEE m)} {o : Out (IEEE m)} {n : Nat} (hI : AmbeInv n s)
    (h : processAmbe2450 E C c0 errs2 d s = .ok o) :
    AmbeStep E C errs2 s o n (AmbeOp.v2450 C c0 errs2 d).kind := by
  obtain ⟨s1, r, v, p, P⟩ := processAmbe2450_parts h
  have hs1 : s1 = { s with cur := ambePreparedCur errs2 s } := ok_inj (P.prepare.symm.trans (ambePrepare_same hI.prev.thr))
  obtain ⟨k1, k2⟩ := decodeAmbe2450_eq hd E.lax errs2 s1.cur s1.prev s1.tls
  have hn : n ≤ 3 := by have := hI.prev.hi; have := hI.count; omega
  have hprev : s1.prev = s.prev := by rw [hs1]
  have henh : s1.enh = s.enh := by rw [hs1]
  have htls : s1.tls = s.tls := by rw [hs1]
  have hthr : s1.cur.mutingThreshold = mutingAmbe := by rw [hs1]; rfl
  unfold AmbeOp.kind
  dsimp only
  by_cases c1 : ToneSig d ∧ errs2 < 6
  · -- tone
    rw [if_pos c1]
    have hr := ok_inj (P.decode.symm.trans (k1 c1))
    have hv := P.verdict
    have hp := P.render
    rw [hr] at hv hp
    dsimp only at hv hp
    rw [ambe2450Verdict, if_neg (by decide), if_pos (by decide)] at hv
    have hv' := (ok_inj hv).symm
    have hstr := P.str
    rw [hv'] at hp hstr
    rw [ambe2450Render, if_neg (by decide), if_pos rfl] at hp
    dsimp only at hp hstr
    have hset0 : AmbeSet { s1.cur with repeat_ := 0, repeatCount := 0 } :=
      ⟨rfl, le_refl (0 : Int), show (0 : Int) ≤ 3 by decide, hthr⟩
    have fin : p.2.1 = none ∧ AmbeSet p.2.2.cur ∧ p.2.2.prev = s.prev ∧ AmbeSet p.2.2.enh := by
      obtain ⟨b, _, hp⟩ := bind_ok hp
      split at hp
      · obtain ⟨q, h1, h2⟩ := bind_ok hp
        have := synthesizeTonef_frame _ _ _ _ h1
        cases h2
        refine ⟨rfl, ?_, hprev, by rw [henh]; exact hI.enh⟩
        dsimp only
        rw [this]
        exact hset0.ofSpeak rfl rfl rfl
      · split at hp
        · rename_i hx
          unfold isMaxFrameRepeat at hx
          rw [decide_eq_true_eq] at hx
          rw [hprev] at hx
          have := hI.prev.hi
          omega
        · obtain ⟨q, h1, h2⟩ := bind_ok hp
          cases h2
          unfold replayEnhanced at h1
          obtain ⟨w, h3, h4⟩ := bind_ok h1
          have := synthesizeSpeechf_frame _ _ _ _ _ _ _ _ h3
          cases h4
          refine ⟨rfl, hset0.ofSpeak rfl rfl rfl, hprev, ?_⟩
          dsimp only
          rw [this.cur_eq]
          dsimp only
          rw [henh]
          exact hI.enh.ofSpeak rfl rfl rfl
    obtain ⟨f1, f2, f3, f4⟩ := fin
    refine ⟨⟨by rw [P.st]; exact f2, by rw [P.st, f3]; exact hI.prev, by rw [P.st]; exact f4, by rw [P.st, f3]; exact hI.count⟩,
      ⟨['T'], by rw [hstr, f1]; simp, ?_⟩, ?_, ?_, ?_, fun _ => by rw [P.st]; exact f3, ?_, ?_, ?_⟩
    all_goals simp
  · rw [if_neg c1]
    obtain ⟨k3, k4⟩ := k2 c1
    by_cases c2 : 120 ≤ ambeFund2450 d ∧ ambeFund2450 d ≠ 124 ∧ ambeFund2450 d ≠ 125
    · -- erasure
      rw [if_pos c2]
      have hr := ok_inj (P.decode.symm.trans (k3 c2))
      have hv := P.verdict
      have hp := P.render
      rw [hr] at hv hp
      dsimp only at hv hp
      rw [ambe2450Verdict, if_pos (by rfl), setAmbeErasureParms_eq, ok_bind] at hv
      have hv' := (ok_inj hv).symm
      have hstr := P.str
      rw [hv'] at hp hstr
      rw [ambe2450Render, if_neg (by decide), if_neg (by decide), if_pos rfl] at hp
      dsimp only at hp hstr
      obtain ⟨⟨a, t⟩, h1, h2⟩ := bind_ok hp
      cases h2
      have hset : AmbeSet (ambeErasure { s1.cur with repeat_ := 0, repeatCount := 0 } s1.prev) :=
        ⟨rfl, le_refl (0 : Int), show (0 : Int) ≤ 3 by decide, hthr⟩
      have hst := P.st
      have hpcm := P.pcm
      dsimp only at hst hpcm hstr
      refine ⟨⟨by rw [hst]; exact hset, by rw [hst]; exact hset, by rw [hst]; exact hset, by rw [hst]; rfl⟩,
        ⟨['E'], by rw [hstr]; simp, ?_⟩, ?_, ?_, ?_, ?_, fun _ => ?_, ?_, fun _ => ?_⟩
      rotate_left 5
      · rw [htls] at h1
        exact ⟨t, by rw [hpcm]; exact h1, by rw [hst], by rw [hst]⟩
      rotate_left 1
      · rw [hst, hs1]
        exact ⟨rfl, rfl, rfl⟩
      all_goals simp
    · -- voice
      rw [if_neg c2]
      have hb : ambeFund2450 d < 120 ∨ ambeFund2450 d = 124 ∨ ambeFund2450 d = 125 := by omega
      obtain ⟨hfr, -, -⟩ := decodeAmbe2450_frame _ _ _ _ _ _ _ P.decode
      have hkeep := decodeAmbe2450_keep _ _ _ _ _ _ _ P.decode
      have hbad : r.bad = 0 := by
        have := P.decode
        rw [k4 hb] at this
        exact (ambe2450Voice_frame _ _ _ _ _ _ _ this).2.2.1
      have hv := P.verdict
      have hp := P.render
      have hstr := P.str
      rw [hbad] at hv hp
      rw [ambe2450Verdict, if_neg (by decide), if_neg (by decide), ambe2450Repeat_spec] at hv
      rw [ambe2450Render, if_pos rfl] at hp
      have hv2 : (if ambeTooManyErrors c0 errs2 then repeatLast r.prev = .ok v.1 else
          v.1 = { r.cur with repeat_ := 0, repeatCount := 0 }) ∧
          v.2.toList = if ambeTooManyErrors c0 errs2 then ['R'] else [] := by
        split at hv
        · rename_i hc
          rw [if_pos hc, if_pos hc]
          obtain ⟨x, h1, h2⟩ := bind_ok hv
          cases h2
          exact ⟨h1, rfl⟩
        · rename_i hc
          rw [if_neg hc, if_neg hc]
          cases hv
          exact ⟨rfl, rfl⟩
      rw [hv2.2] at hstr
      exact ambeVoice_step hI hs1 hfr hkeep hv2.1 hp P.pcm P.st hstr

theorem processAmbe2400_step {E : Env (IEEE m)} {C : Call (IEEE m)} {errs errs2 : Int} {d : Nat → Int}
    (hd : Bits 49 d) {s : St (IEEE m)} {o : Out (IEEE m)} {n : Nat} (hI : AmbeInv n s)
    (h : processAmbe2400 E C errs errs2 d s = .ok o) :
    AmbeStep E C errs2 s o n (AmbeOp.v2400 C errs errs2 d).kind := by
  obtain ⟨s1, r, v, p, P⟩ := processAmbe2400_parts h
  have hs1 : s1 = { s with cur := ambePreparedCur errs2 s } := ok_inj (P.prepare.symm.trans (ambePrepare_same hI.prev.thr))
  obtain ⟨k1, k2⟩ := decodeAmbe2400_eq hd E.lax s1.cur s1.prev s1.tls
  have htls : s1.tls = s.tls := by rw [hs1]
  unfold AmbeOp.kind
  dsimp only
  have hfr := decodeAmbe2400_frame _ _ _ _ _ _ P.decode
  by_cases c : 126 ≤ ambeFund2400 d
  · simp only [if_pos c]
    obtain ⟨k3, k4, k5⟩ := k2 c
    have hbad : (r.bad = 3 ∨ 5 ≤ r.bad ∧ r.bad ≤ 122) ∧ r.tls = s.tls := by
      by_cases c1 : 5 ≤ toneIdx2400 d ∧ toneIdx2400 d ≤ 122
      · rw [ok_inj (P.decode.symm.trans (k3 c1)), ← htls]
        exact ⟨.inr (by dsimp only; omega), rfl⟩
      · by_cases c2 : 128 ≤ toneIdx2400 d ∧ toneIdx2400 d ≤ 163
        · rw [ok_inj (P.decode.symm.trans (k4 c2)), ← htls]
          exact ⟨.inl rfl, rfl⟩
        · have := (k5 ⟨c1, c2⟩).of_eq P.decode
          exact ⟨.inl this.1, this.2.2.1.trans htls⟩
    have hp := P.render
    rw [ambe2400Render, if_neg (by omega), if_neg (by omega)] at hp
    obtain ⟨q, h1, h2⟩ := bind_ok hp
    have hst := P.st
    have hpcm := P.pcm
    have hstr := P.str
    cases h2
    dsimp only at hst hpcm hstr
    obtain ⟨g1, g2, g3, g4⟩ := noiseAndReset_inv (s0 := s) h1 hpcm hst (by dsimp only; rw [hbad.2]) (by dsimp only; rw [hbad.2])
    have hl : v.letter = none ∨ v.letter = some 'T' ∨ v.letter = some 'R' := by
      have hv := P.verdict
      rw [ambe2400Verdict, if_neg (by omega)] at hv
      split at hv
      · cases hv; simp
      · split at hv
        · obtain ⟨_, _, hv⟩ := bind_ok hv; cases hv; simp
        · split at hv
          · obtain ⟨_, _, hv⟩ := bind_ok hv; cases hv; simp
          · cases hv; simp
    refine ⟨by rw [ambeNext]; exact inv_of_init g2 g3 g4, ⟨v.letter.toList, by rw [hstr]; simp, ?_⟩, ?_, ?_, ?_, ?_, ?_,
      fun _ => ⟨⟨_, g1⟩, g2, g3, g4⟩, ?_⟩
    · rcases hl with e | e | e <;> rw [e] <;> simp
    all_goals simp
  · simp only [if_neg c]
    have hb : ambeFund2400 d < 126 := by omega
    have hkeep := decodeAmbe2400_keep _ _ _ _ _ _ P.decode
    have hbad : r.bad = 0 := by
      have := P.decode
      rw [k1 hb] at this
      exact (ambe2400Voice_frame _ _ _ _ _ _ _ this).2.2.1
    have hv := P.verdict
    have hp := P.render
    have hstr := P.str
    rw [hbad] at hv hp
    rw [ambe2400Verdict, if_neg (by decide), if_neg (by decide), if_neg (by omega)] at hv
    rw [ambe2400Render, if_pos rfl] at hp
    have hv2 : (if decide (errs2 > 3) = true then repeatLast r.prev = .ok v.cur else
        v.cur = { r.cur with repeat_ := 0, repeatCount := 0 }) ∧
        v.letter.toList = (if decide (errs2 > 3) = true then ['R'] else []) ∧ v.buf = C.buf ∧ v.prev = r.prev := by
      simp only [decide_eq_true_eq]
      split at hv
      · rename_i hc
        rw [if_pos hc, if_pos hc]
        obtain ⟨x, h1, h2⟩ := bind_ok hv
        cases h2
        exact ⟨h1, rfl, rfl, rfl⟩
      · rename_i hc
        rw [if_neg hc, if_neg hc]
        cases hv
        exact ⟨rfl, rfl, rfl, rfl⟩
    rw [hv2.2.1] at hstr
    rw [hv2.2.2.1, hv2.2.2.2] at hp
    have := ambeVoice_step hI hs1 hfr.1 hkeep hv2.1 hp P.pcm P.st hstr
    simpa only [decide_eq_true_eq] using this

/-- The call argument of an operation. -/
def ambeOpCall : AmbeOp (IEEE m) → Call (IEEE m)
  | .v2450 C _ _ _ => C
  | .v2400 C _ _ _ => C

/-- The total error count of an operation. -/
def ambeOpErrs : AmbeOp (IEEE m) → Int
  | .v2450 _ _ e _ => e
  | .v2400 _ _ e _ => e

theorem ambeOp_step {E : Env (IEEE m)} {op : AmbeOp (IEEE m)} (hd : Bits 49 op.payload) {s : St (IEEE m)}
    {o : Out (IEEE m)} {n : Nat} (hI : AmbeInv n s) (h : op.run E s = .ok o) :
    AmbeStep E (ambeOpCall op) (ambeOpErrs op) s o n op.kind := by
  cases op with
  | v2450 C c0 e d => exact processAmbe2450_step hd hI h
  | v2400 C e e2 d => exact processAmbe2400_step hd hI h

end Verif.Model
