import Verif.Lemmas.SynthFrame
import Verif.Lemmas.Keep
import Verif.Lemmas.Init

/-!
# The process functions taken apart
-/

namespace Verif.Model
open Verif Verif.Gen Arith
variable {F : Type} [Arith F]
set_option linter.unusedSectionVars false

/-! ## Status string -/

theorem putc_ok {cap : Nat} {s : List Char} {c : Char} (h : s.length < cap) : putc cap s c = .ok (s ++ [c]) := by
  unfold putc; rw [if_pos h]

theorem putc_inv {cap : Nat} {s t : List Char} {c : Char} (h : putc cap s c = .ok t) : t = s ++ [c] ∧ s.length < cap := by
  unfold putc at h
  split at h
  · cases h; exact ⟨rfl, by assumption⟩
  · cases h

theorem putEq_ok {cap : Nat} {n : Int} (h : n.toNat ≤ cap) : putEq cap n = .ok (List.replicate n.toNat '=') := by
  unfold putEq
  generalize n.toNat = k at h
  induction k with
  | zero => rfl
  | succ k ih =>
    rw [loop_succ, ih (by omega), ok_bind, putc_ok (by rw [List.length_replicate]; omega)]
    rw [List.replicate_succ']

theorem putEq_inv {cap : Nat} {n : Int} {s : List Char} (h : putEq cap n = .ok s) :
    s = List.replicate n.toNat '=' ∧ n.toNat ≤ cap := by
  unfold putEq at h
  generalize n.toNat = k at h
  induction k generalizing s with
  | zero => cases h; exact ⟨rfl, Nat.zero_le _⟩
  | succ k ih =>
    rw [loop_succ] at h
    obtain ⟨s', h1, h2⟩ := bind_ok h
    obtain ⟨rfl, h3⟩ := ih h1
    obtain ⟨rfl, h4⟩ := putc_inv h2
    rw [List.length_replicate] at h4
    exact ⟨(List.replicate_succ' ..).symm, h4⟩

theorem putOpt_inv {cap : Nat} {s t : List Char} {c : Option Char} (h : putOpt cap s c = .ok t) :
    t = s ++ c.toList ∧ (c.isSome → s.length < cap) := by
  cases c with
  | none => cases h; exact ⟨by simp, by simp⟩
  | some c => obtain ⟨rfl, h'⟩ := putc_inv h; exact ⟨rfl, fun _ => h'⟩

theorem putOpt_ok {cap : Nat} {s : List Char} {c : Option Char} (h : s.length < cap) :
    putOpt cap s c = .ok (s ++ c.toList) := by
  cases c with
  | none => simp [putOpt]
  | some c => exact putc_ok h

/-! ## Enhancement, synthesis and copies -/

/-- What `speak` may change and what it outputs. -/
structure SpeakFrame (E : Env F) (C : Call F) (s : St F) (o : Arr 160 F × St F) : Prop where
  prev_eq : o.2.prev = s.cur
  enh_eq : o.2.enh = o.2.cur
  cur_eq : o.2.cur = { s.cur with
    localEnergy := o.2.cur.localEnergy, amplitudeThreshold := o.2.cur.amplitudeThreshold,
    noiseSeed := o.2.cur.noiseSeed, noiseOverlap := o.2.cur.noiseOverlap, Ml := o.2.cur.Ml, Vl := o.2.cur.Vl,
    PHIl := o.2.cur.PHIl, PSIl := o.2.cur.PSIl, previousUw := o.2.cur.previousUw }
  tls_eq : o.2.tls = { s.tls with
    preEnhRm0 := o.2.tls.preEnhRm0, preEnhValid := o.2.tls.preEnhValid, preEnhOwner := o.2.tls.preEnhOwner,
    uvSeedOverride := o.2.tls.uvSeedOverride, plan := o.2.tls.plan, comfortSeed48 := o.2.tls.comfortSeed48,
    comfortSeeded := o.2.tls.comfortSeeded }
  muted : synthMuted s.cur = true → comfortNoisef C.buf s.tls = .ok (o.1, { s.tls with
    comfortSeed48 := o.2.tls.comfortSeed48, comfortSeeded := o.2.tls.comfortSeeded })
  unmuted : synthMuted s.cur = false →
    o.2.tls.comfortSeed48 = s.tls.comfortSeed48 ∧ o.2.tls.comfortSeeded = s.tls.comfortSeeded ∧
    ∃ c t r, synthUnmuted E c s.enh t = .ok r ∧ o.1 = r.out ∧ o.2.cur = r.cur ∧ o.2.tls = r.tls ∧
      c = { s.cur with localEnergy := c.localEnergy, Vl := c.Vl, Ml := c.Ml, amplitudeThreshold := c.amplitudeThreshold } ∧
      t.uvSeedOverride = s.tls.uvSeedOverride ∧ t.uvSeedState = s.tls.uvSeedState

theorem speak_frame (E : Env F) (C : Call F) (s : St F) : Post (speak E C s) (SpeakFrame E C s) := by
  unfold speak
  refine Post.bind (spectralAmpEnhance_frame _ _ _) fun q hq => ?_
  obtain ⟨c, t⟩ := q
  obtain ⟨hc, ht⟩ := hq
  dsimp only at hc ht ⊢
  refine Post.bind (synthesizeSpeechf_frame E _ _ _ _ _ _) fun r hr => Post.pure ?_
  have hm : synthMuted c = synthMuted s.cur := by rw [hc]; rfl
  refine ⟨rfl, rfl, ?_, ?_, ?_, ?_⟩
  · dsimp only; rw [hr.cur_eq, hc]
  · dsimp only; rw [hr.tls_eq, ht]
  · intro h
    have := hr.muted (hm.trans h)
    have h2 := comfortNoisef_tls _ t s.tls (by rw [ht]) (by rw [ht]) _ _ this
    exact h2
  · intro h
    obtain ⟨h1, h2, c', t', r', h3, h4, h5⟩ := hr.unmuted (hm.trans h)
    subst h5
    have h6 := applySmoothing_frame _ _ _ _ _ h3
    dsimp only at h6
    refine ⟨by rw [h1, ht], by rw [h2, ht], c', t', r, h4, rfl, rfl, rfl, ?_, ?_, ?_⟩
    · rw [h6.1, hc]
    · rw [h6.2, ht]
    · rw [h6.2, ht]

/-! ## IMBE -/

/-- The parts of a returned IMBE call. -/
structure ImbeParts (E : Env F) (C : Call F) (c0 : Option Int) (errs2 : Int) (d : Nat → Int) (s : St F) (o : Out F)
    (r : DecodeRes F) (cur : Parms F) (sp : Arr 160 F × St F) : Prop where
  decode : decodeImbe4400 E.lax d (imbePrepare c0 errs2 s).cur s.prev s.tls = .ok r
  repeated : imbeRepeat (imbeRepeatRequired r.bad c0 errs2 r.cur.errorRate) r.cur r.prev = .ok cur
  spoken : speak E C ⟨cur, r.prev, s.enh, r.tls⟩ = .ok sp
  pcm : o.pcm = sp.1
  st : o.st = sp.2
  str : o.str = List.replicate errs2.toNat '=' ++
    (if imbeRepeatRequired r.bad c0 errs2 r.cur.errorRate then ['R'] else []) ++
    (if isMaxFrameRepeat cur || requiresMuting cur then ['M'] else []) ++ ['\x00']

theorem processImbe4400_parts {E : Env F} {C : Call F} {c0 : Option Int} {errs2 : Int} {d : Nat → Int} {s : St F}
    {o : Out F} (h : processImbe4400 E C c0 errs2 d s = .ok o) : ∃ r cur sp, ImbeParts E C c0 errs2 d s o r cur sp := by
  unfold processImbe4400 at h
  obtain ⟨str1, h1, h⟩ := bind_ok h
  obtain ⟨r, h2, h⟩ := bind_ok h
  obtain ⟨cur, h3, h⟩ := bind_ok h
  obtain ⟨str2, h4, h⟩ := bind_ok h
  obtain ⟨sp, h5, h⟩ := bind_ok h
  obtain ⟨str3, h6, h⟩ := bind_ok h
  obtain ⟨str4, h7, h⟩ := bind_ok h
  cases h
  refine ⟨r, cur, sp, h2, h3, h5, rfl, rfl, ?_⟩
  obtain ⟨rfl, _⟩ := putEq_inv h1
  obtain ⟨rfl, _⟩ := putc_inv h7
  have e2 : str2 = List.replicate errs2.toNat '=' ++
      (if imbeRepeatRequired r.bad c0 errs2 r.cur.errorRate then ['R'] else []) := by
    split at h4
    · rw [(putc_inv h4).1, if_pos (by assumption)]
    · cases h4; rw [if_neg (by assumption), List.append_nil]
  have e3 : str3 = str2 ++ (if isMaxFrameRepeat cur || requiresMuting cur then ['M'] else []) := by
    split at h6
    · rw [(putc_inv h6).1, if_pos (by assumption)]
    · cases h6; rw [if_neg (by assumption), List.append_nil]
  rw [e3, e2]

theorem imbePrepare_prev (c0 : Option Int) (errs2 : Int) (s : St F) :
    (imbePrepare c0 errs2 s).prev = s.prev ∧ (imbePrepare c0 errs2 s).enh = s.enh ∧
    (imbePrepare c0 errs2 s).tls = s.tls := ⟨rfl, rfl, rfl⟩

theorem imbePrepare_cur (c0 : Option Int) (errs2 : Int) (s : St F) :
    (imbePrepare c0 errs2 s).cur = { s.cur with
      mutingThreshold := mutingImbe, errorCountTotal := errs2, errorRate := imbeErrorRate s.prev.errorRate errs2,
      errorCount4 := if c0.isNone then 0 else s.cur.errorCount4 } := by
  unfold imbePrepare
  cases c0 <;> rfl

/-! ## AMBE -/

/-- The parts of a returned AMBE 2450 call. -/
structure Ambe2450Parts (E : Env F) (C : Call F) (c0 : Option Int) (errs2 : Int) (d : Nat → Int) (s : St F) (o : Out F)
    (s1 : St F) (r : DecodeRes F) (v : Parms F × Option Char) (p : Arr 160 F × Option Char × St F) : Prop where
  prepare : ambePrepare errs2 s = .ok s1
  decode : decodeAmbe2450 E.lax d errs2 s1.cur s1.prev s1.tls = .ok r
  verdict : ambe2450Verdict r.bad c0 errs2 r.cur r.prev = .ok v
  render : ambe2450Render E C r.bad d ⟨v.1, r.prev, s1.enh, r.tls⟩ = .ok p
  pcm : o.pcm = p.1
  st : o.st = p.2.2
  str : o.str = List.replicate errs2.toNat '=' ++ v.2.toList ++ p.2.1.toList ++ ['\x00']

theorem processAmbe2450_parts {E : Env F} {C : Call F} {c0 : Option Int} {errs2 : Int} {d : Nat → Int} {s : St F}
    {o : Out F} (h : processAmbe2450 E C c0 errs2 d s = .ok o) :
    ∃ s1 r v p, Ambe2450Parts E C c0 errs2 d s o s1 r v p := by
  unfold processAmbe2450 at h
  obtain ⟨s1, h0, h⟩ := bind_ok h
  obtain ⟨str1, h1, h⟩ := bind_ok h
  obtain ⟨r, h2, h⟩ := bind_ok h
  obtain ⟨v, h3, h⟩ := bind_ok h
  obtain ⟨str2, h4, h⟩ := bind_ok h
  obtain ⟨p, h5, h⟩ := bind_ok h
  obtain ⟨str3, h6, h⟩ := bind_ok h
  obtain ⟨str4, h7, h⟩ := bind_ok h
  cases h
  refine ⟨s1, r, v, p, h0, h2, h3, h5, rfl, rfl, ?_⟩
  obtain ⟨rfl, _⟩ := putEq_inv h1
  obtain ⟨rfl, _⟩ := putc_inv h7
  obtain ⟨rfl, _⟩ := putOpt_inv h4
  obtain ⟨rfl, _⟩ := putOpt_inv h6
  rfl

/-- The parts of a returned AMBE 2400 call. -/
structure Ambe2400Parts (E : Env F) (C : Call F) (errs errs2 : Int) (d : Nat → Int) (s : St F) (o : Out F)
    (s1 : St F) (r : DecodeRes F) (v : Verdict2400 F) (p : Arr 160 F × Option Char × St F) : Prop where
  prepare : ambePrepare errs2 s = .ok s1
  decode : decodeAmbe2400 E.lax d s1.cur s1.prev s1.tls = .ok r
  verdict : ambe2400Verdict C r.bad errs errs2 d r.cur r.prev = .ok v
  render : ambe2400Render E { C with buf := v.buf } r.bad ⟨v.cur, v.prev, s1.enh, r.tls⟩ = .ok p
  pcm : o.pcm = p.1
  st : o.st = p.2.2
  str : o.str = List.replicate errs2.toNat '=' ++ v.letter.toList ++ p.2.1.toList ++ ['\x00']

theorem processAmbe2400_parts {E : Env F} {C : Call F} {errs errs2 : Int} {d : Nat → Int} {s : St F}
    {o : Out F} (h : processAmbe2400 E C errs errs2 d s = .ok o) :
    ∃ s1 r v p, Ambe2400Parts E C errs errs2 d s o s1 r v p := by
  unfold processAmbe2400 at h
  obtain ⟨s1, h0, h⟩ := bind_ok h
  obtain ⟨str1, h1, h⟩ := bind_ok h
  obtain ⟨r, h2, h⟩ := bind_ok h
  obtain ⟨v, h3, h⟩ := bind_ok h
  obtain ⟨str2, h4, h⟩ := bind_ok h
  obtain ⟨p, h5, h⟩ := bind_ok h
  obtain ⟨str3, h6, h⟩ := bind_ok h
  obtain ⟨str4, h7, h⟩ := bind_ok h
  cases h
  refine ⟨s1, r, v, p, h0, h2, h3, h5, rfl, rfl, ?_⟩
  obtain ⟨rfl, _⟩ := putEq_inv h1
  obtain ⟨rfl, _⟩ := putc_inv h7
  obtain ⟨rfl, _⟩ := putOpt_inv h4
  obtain ⟨rfl, _⟩ := putOpt_inv h6
  rfl

theorem i32_inv {n k : Int} (h : i32 n = .ok k) : k = n ∧ -2147483648 ≤ n ∧ n < 2147483648 := by
  unfold i32 at h
  split at h
  · cases h; exact ⟨rfl, by assumption⟩
  · cases h

theorem repeatLast_inv {p q : Parms F} (h : repeatLast p = .ok q) :
    q = { p with repeat_ := p.repeat_ + 1, repeatCount := p.repeatCount + 1 } := by
  unfold repeatLast at h
  obtain ⟨a, h1, h⟩ := bind_ok h
  obtain ⟨b, h2, h⟩ := bind_ok h
  cases h
  rw [(i32_inv h1).1, (i32_inv h2).1]

end Verif.Model
