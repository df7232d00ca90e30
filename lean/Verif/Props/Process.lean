import Verif.Lemmas.Buffers
import Verif.Lemmas.Payload
import Verif.Props.Repeat
import Verif.Props.Frames

/-!
# Properties C25 - C27, C32, C34 - C36, C38, C47, C51: calls of the process functions
-/

namespace Verif.Props
open Verif Verif.Spec Verif.Model Verif.Num Verif.Gen Arith
variable {m : Libm}

/-! ## C25 -/

/-- IMBE: the status string is `=` once per error, then nothing, `R`, `M` or `RM`, then NUL; in every arithmetic. -/
theorem C25_imbe_format {F : Type} [Arith F] (E : Env F) (C : Call F) (c0 : Option Int) (errs2 : Int) (d : Nat → Int)
    (s : St F) (o : Out F) (h : processImbe4400 E C c0 errs2 d s = .ok o) :
    ∃ u ∈ [[], ['R'], ['M'], ['R', 'M']], o.str = List.replicate errs2.toNat '=' ++ u ++ ['\x00'] := by
  obtain ⟨r, cur, sp, P⟩ := processImbe4400_parts h
  have hs := P.str
  rw [List.append_assoc (List.replicate _ _)] at hs
  refine ⟨_, ?_, hs⟩
  generalize imbeRepeatRequired r.bad c0 errs2 r.cur.errorRate = a
  generalize (isMaxFrameRepeat cur || requiresMuting cur) = b
  cases a <;> cases b <;> decide

/-- AMBE 2450: the suffix is nothing, `E`, `T`, `R` or `RM`. -/
theorem C25_ambe2450_format {F : Type} [Arith F] (E : Env F) (C : Call F) (c0 : Option Int) (errs2 : Int) (d : Nat → Int)
    (s : St F) (o : Out F) (h : processAmbe2450 E C c0 errs2 d s = .ok o) :
    ∃ u ∈ [[], ['E'], ['T'], ['R'], ['R', 'M']], o.str = List.replicate errs2.toNat '=' ++ u ++ ['\x00'] := by
  obtain ⟨s1, r, v, p, P⟩ := processAmbe2450_parts h
  have hs := P.str
  rw [List.append_assoc (List.replicate _ _)] at hs
  refine ⟨_, ?_, hs⟩
  have hv := P.verdict
  have hp := P.render
  unfold ambe2450Verdict at hv
  unfold ambe2450Render at hp
  have hp1 : p.2.1 = none ∨ (p.2.1 = some 'M' ∧ r.bad = 0 ∧ ¬ v.1.repeat_ ≤ 3) := by
    by_cases hb : r.bad = 0
    · rw [if_pos hb] at hp
      by_cases h3 : v.1.repeat_ ≤ 3
      · rw [if_pos h3] at hp
        obtain ⟨_, _, h2⟩ := bind_ok hp; cases h2; exact .inl rfl
      · rw [if_neg h3] at hp
        obtain ⟨_, _, h2⟩ := bind_ok hp; cases h2; exact .inr ⟨rfl, hb, h3⟩
    · rw [if_neg hb] at hp
      split at hp
      · obtain ⟨b, _, hp⟩ := bind_ok hp
        split at hp
        · obtain ⟨_, _, h2⟩ := bind_ok hp; cases h2; exact .inl rfl
        · split at hp <;> (obtain ⟨_, _, h2⟩ := bind_ok hp; cases h2; exact .inl rfl)
      · split at hp
        · obtain ⟨_, _, h2⟩ := bind_ok hp; cases h2; exact .inl rfl
        · obtain ⟨_, _, h2⟩ := bind_ok hp; cases h2; exact .inl rfl
  split at hv
  · obtain ⟨_, _, h2⟩ := bind_ok hv; cases h2
    rcases hp1 with e | ⟨_, e, _⟩
    · rw [e]; simp
    · omega
  · split at hv
    · cases hv
      rcases hp1 with e | ⟨_, e, _⟩
      · rw [e]; simp
      · omega
    · split at hv
      · obtain ⟨_, _, h2⟩ := bind_ok hv; cases h2
        rcases hp1 with e | ⟨e, _, _⟩ <;> rw [e] <;> simp
      · cases hv
        rcases hp1 with e | ⟨_, _, e⟩
        · rw [e]; simp
        · exact absurd (show (0 : Int) ≤ 3 by decide) e

/-- AMBE 2400: the same suffixes. -/
theorem C25_ambe2400_format {F : Type} [Arith F] (E : Env F) (C : Call F) (errs errs2 : Int) (d : Nat → Int)
    (s : St F) (o : Out F) (h : processAmbe2400 E C errs errs2 d s = .ok o) :
    ∃ u ∈ [[], ['E'], ['T'], ['R'], ['R', 'M']], o.str = List.replicate errs2.toNat '=' ++ u ++ ['\x00'] := by
  obtain ⟨s1, r, v, p, P⟩ := processAmbe2400_parts h
  have hs := P.str
  rw [List.append_assoc (List.replicate _ _)] at hs
  refine ⟨_, ?_, hs⟩
  have hv := P.verdict
  have hp := P.render
  unfold ambe2400Verdict at hv
  unfold ambe2400Render at hp
  have hp1 : p.2.1 = none ∨ (p.2.1 = some 'M' ∧ r.bad = 0 ∧ ¬ v.cur.repeat_ ≤ 3) := by
    by_cases hb : r.bad = 0
    · rw [if_pos hb] at hp
      by_cases h3 : v.cur.repeat_ ≤ 3
      · rw [if_pos h3] at hp
        obtain ⟨_, _, h2⟩ := bind_ok hp; cases h2; exact .inl rfl
      · rw [if_neg h3] at hp
        obtain ⟨_, _, h2⟩ := bind_ok hp; cases h2; exact .inr ⟨rfl, hb, h3⟩
    · rw [if_neg hb] at hp
      split at hp <;> (obtain ⟨_, _, h2⟩ := bind_ok hp; cases h2; exact .inl rfl)
  split at hv
  · obtain ⟨_, _, h2⟩ := bind_ok hv; cases h2
    rcases hp1 with e | ⟨_, e, _⟩
    · rw [e]; simp
    · omega
  · split at hv
    · cases hv
      rcases hp1 with e | ⟨_, e, _⟩
      · rw [e]; simp
      · omega
    · split at hv
      · obtain ⟨_, _, h2⟩ := bind_ok hv; cases h2
        rcases hp1 with e | ⟨_, e, _⟩
        · rw [e]; simp
        · omega
      · split at hv
        · obtain ⟨_, _, h2⟩ := bind_ok hv; cases h2
          rcases hp1 with e | ⟨e, _, _⟩ <;> rw [e] <;> simp
        · cases hv
          rcases hp1 with e | ⟨_, _, e⟩
          · rw [e]; simp
          · exact absurd (show (0 : Int) ≤ 3 by decide) e

/-- No byte at or beyond index `errs2 + 3` is written: the call does exactly the same (including any error it may end
with) for every buffer of at least `errs2 + 3` bytes, and the string it leaves has at most that length. -/
theorem C25_status_size {F : Type} [Arith F] (E : Env F) (C : Call F) (c0 : Option Int) (errs errs2 : Int) (d : Nat → Int)
    (s : St F) (cap : Nat) (h1 : errs2.toNat + 3 ≤ C.cap) (h2 : errs2.toNat + 3 ≤ cap) :
    (processImbe4400 E { C with cap := cap } c0 errs2 d s = processImbe4400 E C c0 errs2 d s ∧
      ∀ o, processImbe4400 E C c0 errs2 d s = .ok o → o.str.length ≤ errs2.toNat + 3) ∧
    (processAmbe2450 E { C with cap := cap } c0 errs2 d s = processAmbe2450 E C c0 errs2 d s ∧
      ∀ o, processAmbe2450 E C c0 errs2 d s = .ok o → o.str.length ≤ errs2.toNat + 3) ∧
    (processAmbe2400 E { C with cap := cap } errs errs2 d s = processAmbe2400 E C errs errs2 d s ∧
      ∀ o, processAmbe2400 E C errs errs2 d s = .ok o → o.str.length ≤ errs2.toNat + 3) := by
  have len : ∀ (str u : List Char), (u = [] ∨ u.length ≤ 2) → str = List.replicate errs2.toNat '=' ++ u ++ ['\x00'] →
      str.length ≤ errs2.toNat + 3 := by
    rintro str u hu rfl
    rw [List.length_append, List.length_append, List.length_replicate]
    rcases hu with rfl | hu
    · simp
    · simp; omega
  refine ⟨⟨processImbe4400_indep E (C := { C with cap := cap }) (D := C) ⟨rfl, rfl⟩ c0 h2 h1 d s, fun o ho => ?_⟩,
    ⟨processAmbe2450_indep E (C := { C with cap := cap }) (D := C) ⟨rfl, rfl⟩ c0 h2 h1 d s, fun o ho => ?_⟩,
    ⟨processAmbe2400_indep E (C := { C with cap := cap }) (D := C) ⟨rfl, rfl⟩ errs h2 h1 d s, fun o ho => ?_⟩⟩
  · obtain ⟨u, hu, e⟩ := C25_imbe_format E C c0 errs2 d s o ho
    exact len _ u (by fin_cases hu <;> simp) e
  · obtain ⟨u, hu, e⟩ := C25_ambe2450_format E C c0 errs2 d s o ho
    exact len _ u (by fin_cases hu <;> simp) e
  · obtain ⟨u, hu, e⟩ := C25_ambe2400_format E C errs errs2 d s o ho
    exact len _ u (by fin_cases hu <;> simp) e

/-- The bound is sharp: `C23_tone_does_not_interrupt` has a call with four errors that writes seven bytes. -/
example (hm : Exp2Acc m) : ∃ (s : St (IEEE m)) (o : Out (IEEE m)),
    processAmbe2450 sampleEnv sampleCall none 4 sampleAmbe s = .ok o ∧ o.str.length = 4 + 3 := by
  obtain ⟨s, o, _, h, _, e⟩ := C23_tone_does_not_interrupt hm
  exact ⟨s, o, h, by rw [e]; rfl⟩

/-! ## C26 -/

/-- IMBE 7200x4400 frames: error correction of word 0, descrambling, error correction of the rest, then the parameters,
with the counts of word 0, of all words and of word 4 handed over. -/
theorem C26_imbe7200_pipeline {F : Type} [Arith F] (E : Env F) (C : Call F) (fr : Frame) (d : Nat → Int) (s : St F)
    {fr0 fr1 : Frame} {d' : Nat → Int} {n0 n c4 : Nat} (h0 : eccImbe7200C0 fr = .ok (fr0, n0))
    (h1 : demodImbe7200 fr0 = .ok fr1) (h2 : eccImbe7200Data fr1 d = .ok (d', n, c4)) :
    (do .ok (← processImbe7200Framef E C fr d s).out : Exec (Out F)) =
      processImbe4400 E C (some n0) ((n0 + n : Nat) : Int) d' { s with cur := { s.cur with errorCount4 := c4 } } := by
  unfold processImbe7200Framef frameEcc7200
  rw [h0, ok_bind]
  dsimp only
  rw [h1, ok_bind, h2, ok_bind, ok_bind]
  dsimp only
  cases processImbe4400 E C (some n0) ((n0 + n : Nat) : Int) d' { s with cur := { s.cur with errorCount4 := c4 } } <;> rfl

/-- IMBE 7100x4400 frames: the same with the 7100x4400 functions, and the payload is converted to 7200x4400 order. -/
theorem C26_imbe7100_pipeline {F : Type} [Arith F] (E : Env F) (C : Call F) (fr : Frame) (d : Nat → Int) (s : St F)
    {fr0 fr1 : Frame} {d' d'' : Nat → Int} {n0 n c4 : Nat} (h0 : eccImbe7100C0 fr = .ok (fr0, n0))
    (h1 : demodImbe7100 fr0 = .ok fr1) (h2 : eccImbe7100Data fr1 d = .ok (d', n, c4))
    (h3 : convert7100to7200 F d' = .ok d'') :
    (do .ok (← processImbe7100Framef E C fr d s).out : Exec (Out F)) =
      processImbe4400 E C (some n0) ((n0 + n : Nat) : Int) d'' { s with cur := { s.cur with errorCount4 := c4 } } := by
  unfold processImbe7100Framef frameEcc7100
  rw [h0, ok_bind]
  dsimp only
  rw [h1, ok_bind, h2, ok_bind, ok_bind]
  dsimp only
  rw [h3, ok_bind]
  cases processImbe4400 E C (some n0) ((n0 + n : Nat) : Int) d'' { s with cur := { s.cur with errorCount4 := c4 } } <;> rfl

/-- AMBE frames of both codecs. -/
theorem C26_ambe_pipeline {F : Type} [Arith F] (E : Env F) (C : Call F) (fr : Frame) (d : Nat → Int) (s : St F)
    {fr0 fr1 : Frame} {d' : Nat → Int} {n0 n : Nat} (h0 : eccAmbeC0 fr = .ok (fr0, n0))
    (h1 : demodAmbe fr0 = .ok fr1) (h2 : eccAmbeData fr1 d = .ok (d', n)) :
    (do .ok (← processAmbe2450Framef E C fr d s).out : Exec (Out F)) =
        processAmbe2450 E C (some n0) ((n0 + n : Nat) : Int) d' s ∧
      (do .ok (← processAmbe2400Framef E C fr d s).out : Exec (Out F)) =
        processAmbe2400 E C n0 ((n0 + n : Nat) : Int) d' s := by
  unfold processAmbe2450Framef processAmbe2400Framef frameEccAmbe
  rw [h0, ok_bind]
  dsimp only
  rw [h1, ok_bind, h2, ok_bind, ok_bind, ok_bind]
  dsimp only
  constructor
  · cases processAmbe2450 E C (some n0) ((n0 + n : Nat) : Int) d' s <;> rfl
  · cases processAmbe2400 E C n0 ((n0 + n : Nat) : Int) d' s <;> rfl

/-- End to end: a received 7200x4400 frame within the correction capability is decoded exactly as if the transmitted
payload had been passed to the parameter decoder with the true numbers of corrected errors. -/
theorem C26_imbe7200_end_to_end {F : Type} [Arith F] {d : Nat → Int} {c e : Nat → Nat} {fr : Frame}
    (h : Imbe7200Tx d c e fr) (old : Nat → Int) (E : Env F) (C : Call F) (s : St F) :
    (do .ok (← processImbe7200Framef E C fr old s).out : Exec (Out F)) =
      processImbe4400 E C (some (weight 12 (e 0 >>> 11) : Nat))
        ((weight 12 (e 0 >>> 11) + weight 12 (e 1 >>> 11) + weight 12 (e 2 >>> 11) + weight 12 (e 3 >>> 11) +
          weight 15 (e 4) + weight 15 (e 5) + weight 15 (e 6) : Nat) : Int) d
        { s with cur := { s.cur with errorCount4 := (weight 15 (e 4) : Nat) } } := by
  obtain ⟨r, hr, h1, h2, h3, h4⟩ := C07_imbe7200_round_trip h old
  unfold processImbe7200Framef
  rw [hr, ok_bind, h2, h3, h4, processImbe4400_congr h1]
  generalize processImbe4400 E C _ _ d _ = x
  cases x <;> rfl

/-- End to end for 7100x4400 frames: the payload is converted in between. -/
theorem C26_imbe7100_end_to_end {d : Nat → Int} (hd : Bits 88 d) {c e : Nat → Nat} {fr : Frame}
    (h : Imbe7100Tx d c e fr) (old : Nat → Int) {out : Nat → Int} (ho : convert7100to7200 (IEEE m) d = .ok out)
    (E : Env (IEEE m)) (C : Call (IEEE m)) (s : St (IEEE m)) :
    (do .ok (← processImbe7100Framef E C fr old s).out : Exec (Out (IEEE m))) =
      processImbe4400 E C (some (weight 12 (e 0 >>> 11) : Nat))
        ((weight 12 (e 0 >>> 11) + weight 12 (e 1 >>> 11) + weight 12 (e 2 >>> 11) + weight 12 (e 3 >>> 11) +
          weight 15 (e 4) + weight 15 (e 5) : Nat) : Int) out
        { s with cur := { s.cur with errorCount4 := (weight 15 (e 4) : Nat) } } := by
  obtain ⟨r, hr, h1, h2, h3, h4⟩ := C08_imbe7100_round_trip h old
  have hd' : Bits 88 r.d := fun k hk => by rw [h1 k hk]; exact hd k hk
  obtain ⟨o1, e1, f1⟩ := C12_convert_moves_bits (m := m) d hd
  obtain ⟨o2, e2, f2⟩ := C12_convert_moves_bits (m := m) r.d hd'
  rw [ho] at e1
  cases e1
  have hfund : imbeFund7100 r.d = imbeFund7100 d := by
    show fieldVal r.d [1, 2, 3, 4, 5, 6, 86, 87] = fieldVal d [1, 2, 3, 4, 5, 6, 86, 87]
    unfold fieldVal
    simp only [List.foldl_cons, List.foldl_nil, h1 1 (by decide), h1 2 (by decide),
      h1 3 (by decide), h1 4 (by decide), h1 5 (by decide), h1 6 (by decide), h1 86 (by decide), h1 87 (by decide)]
  have hcongr : ∀ k, k < 88 → o2 k = out k := by
    intro k hk
    rw [f1 k hk, f2 k hk, hfund, imbeHarmonics_eq, Int.toNat_natCast]
    have hlt : imbeFund7100 d < 256 := fieldVal_lt (is := [1, 2, 3, 4, 5, 6, 86, 87]) fun i hi => by
      refine hd i ?_
      revert i; decide
    have h9 := imbeLTab_ge _ hlt
    generalize imbeLTab (imbeFund7100 d) = L at h9 ⊢
    have hK1 : 3 ≤ imbeBands L := by unfold imbeBands; omega
    have hK2 : imbeBands L < 13 := by unfold imbeBands; omega
    exact h1 _ (convSrc_lt _ hK2 hK1 k hk)
  unfold processImbe7100Framef
  rw [hr, ok_bind, e2, ok_bind, h2, h3, h4, processImbe4400_congr hcongr]
  generalize processImbe4400 E C _ _ out _ = x
  cases x <;> rfl

/-- End to end for AMBE frames. -/
theorem C26_ambe_end_to_end {F : Type} [Arith F] {d : Nat → Int} {c e : Nat → Nat} {pe : Bool} {fr : Frame}
    (h : AmbeTx d c e pe fr) (old : Nat → Int) (E : Env F) (C : Call F) (s : St F) :
    (do .ok (← processAmbe2450Framef E C fr old s).out : Exec (Out F)) =
      processAmbe2450 E C (some (ambeC0Count (e 0) pe : Nat))
        ((ambeC0Count (e 0) pe + weight 12 (e 1 >>> 11) : Nat) : Int) d s ∧
    (do .ok (← processAmbe2400Framef E C fr old s).out : Exec (Out F)) =
      processAmbe2400 E C (ambeC0Count (e 0) pe : Nat)
        ((ambeC0Count (e 0) pe + weight 12 (e 1 >>> 11) : Nat) : Int) d s := by
  obtain ⟨r, hr, h1, h2, h3⟩ := C09_ambe_round_trip h old
  constructor
  · unfold processAmbe2450Framef
    rw [hr, ok_bind, h2, h3, processAmbe2450_congr h1]
    generalize processAmbe2450 E C _ _ d _ = x
    cases x <;> rfl
  · unfold processAmbe2400Framef
    rw [hr, ok_bind, h2, h3, processAmbe2400_congr h1]
    generalize processAmbe2400 E C _ _ d _ = x
    cases x <;> rfl

/-- `uvquality`, the old contents of the sample buffer and (given enough room) the size of the status buffer have no
influence, in every arithmetic; nor has `*errs` for IMBE and AMBE 2450. -/
theorem C26_inert_arguments {F : Type} [Arith F] (E : Env F) (C : Call F) (uvq : Int) (buf : Arr 160 F) (cap : Nat)
    (c0 : Option Int) (errs errs' errs2 : Int) (d : Nat → Int) (s : St F) (h1 : errs2.toNat + 3 ≤ C.cap)
    (h2 : errs2.toNat + 3 ≤ cap) :
    processImbe4400 E { C with uvquality := uvq, buf := buf, cap := cap } c0 errs2 d s = processImbe4400 E C c0 errs2 d s ∧
    processAmbe2450 E { C with uvquality := uvq, buf := buf, cap := cap } c0 errs2 d s = processAmbe2450 E C c0 errs2 d s ∧
    processAmbe2400 E { C with uvquality := uvq, buf := buf, cap := cap } errs errs2 d s = processAmbe2400 E C errs errs2 d s ∧
    processImbe4400Dataf E C errs errs2 d s = processImbe4400Dataf E C errs' errs2 d s ∧
    processAmbe2450Dataf E C errs errs2 d s = processAmbe2450Dataf E C errs' errs2 d s :=
  ⟨processImbe4400_indep E (C := { C with uvquality := uvq, buf := buf, cap := cap }) (D := C) ⟨rfl, rfl⟩ c0 h2 h1 d s,
    processAmbe2450_indep E (C := { C with uvquality := uvq, buf := buf, cap := cap }) (D := C) ⟨rfl, rfl⟩ c0 h2 h1 d s,
    processAmbe2400_indep E (C := { C with uvquality := uvq, buf := buf, cap := cap }) (D := C) ⟨rfl, rfl⟩ errs h2 h1 d s,
    rfl, rfl⟩

/-- Under IEEE arithmetic `*errs` has no influence on AMBE 2400 either: it selects the synthesis of a tone that is
overwritten afterwards (see C34). -/
theorem C26_ambe2400_errs_inert (E : Env (IEEE m)) (C : Call (IEEE m)) (errs errs' errs2 : Int) (d : Nat → Int)
    (s : St (IEEE m)) : processAmbe2400 E C errs errs2 d s = processAmbe2400 E C errs' errs2 d s :=
  processAmbe2400_errs E C errs errs' errs2 d s

/-- A frame that meets the hypotheses of the end-to-end theorem: all-ones payload, one flipped data bit in word 0. -/
example : ∃ c fr, Imbe7200Tx (fun _ => 1) c (fun i => if i = 0 then 2 ^ 22 else 0) fr :=
  C07_imbe7200_frame_exists (fun _ _ => .inr rfl)
    (by intro i _; by_cases h : i = 0 <;> simp [h] <;> decide) (by intro i h _; rw [if_neg (by omega)]; decide)

/-! ## C27 -/

/-- The 16-bit sample is `mbe_floattoshort` of the float sample, element by element. -/
theorem C27_elementwise {F : Type} [Arith F] (inp : Arr 160 F) (old out : Arr 160 Int) :
    floatToShort inp old = .ok out ↔ ∀ i, shortSample (inp i) = .ok (out i) :=
  floatToShort_iff inp old out

/-- Every 16-bit data entry point: the same state and status string as the float entry point called with any other
float buffer, and the samples are the converted ones; the old contents of both buffers do not matter. -/
theorem C27_short_data {F : Type} [Arith F] (E : Env F) (C : Call F) (buf : Arr 160 F) (sbuf sbuf' : Arr 160 Int)
    (errs errs2 : Int) (d : Nat → Int) (s : St F) (h : errs2.toNat + 3 ≤ C.cap) :
    (shortData (fun C => processImbe4400Dataf E C errs errs2 d s) { C with buf := buf } sbuf = (do
      let o ← processImbe4400Dataf E C errs errs2 d s
      .ok (← floatToShort o.pcm sbuf', o))) ∧
    (shortData (fun C => processAmbe2450Dataf E C errs errs2 d s) { C with buf := buf } sbuf = (do
      let o ← processAmbe2450Dataf E C errs errs2 d s
      .ok (← floatToShort o.pcm sbuf', o))) ∧
    (shortData (fun C => processAmbe2400 E C errs errs2 d s) { C with buf := buf } sbuf = (do
      let o ← processAmbe2400 E C errs errs2 d s
      .ok (← floatToShort o.pcm sbuf', o))) := by
  unfold shortData processImbe4400Dataf processAmbe2450Dataf
  dsimp only
  rw [processImbe4400_indep E (C := { C with buf := buf }) (D := C) ⟨rfl, rfl⟩ none h h,
    processAmbe2450_indep E (C := { C with buf := buf }) (D := C) ⟨rfl, rfl⟩ none h h,
    processAmbe2400_indep E (C := { C with buf := buf }) (D := C) ⟨rfl, rfl⟩ errs h h]
  refine ⟨?_, ?_, ?_⟩ <;> exact congrArg _ (funext fun o => by rw [floatToShort_indep o.pcm sbuf sbuf'])

/-- The 16-bit frame entry points, for any float frame entry point `f`. -/
theorem C27_short_frame {F : Type} [Arith F] (f : Call F → Exec (FrameOut F)) (C : Call F) (sbuf sbuf' : Arr 160 Int) :
    shortFrame f C sbuf = (do
      let o ← f C
      .ok (← floatToShort o.out.pcm sbuf', o)) := by
  unfold shortFrame
  exact congrArg _ (funext fun o => by rw [floatToShort_indep o.out.pcm sbuf sbuf'])

/-- `mbe_synthesizeSpeech`, `mbe_synthesizeSilence` and `mbe_synthesizeComfortNoise`: the converted float results, same
parameters and generator state, independent of old buffer contents. -/
theorem C27_synthesis (E : Env (IEEE m)) (a : Nat) (buf : Arr 160 (IEEE m)) (sbuf sbuf' : Arr 160 Int)
    (cur prev : Parms (IEEE m)) (t : Tls (IEEE m)) (uvq uvq' : Int) :
    (synthesizeSpeech E a sbuf cur prev t uvq = (do
      let r ← synthesizeSpeechf E a buf cur prev t uvq'
      .ok (← floatToShort r.out sbuf', r))) ∧
    (comfortNoise sbuf t = (do
      let r ← comfortNoisef buf t
      .ok (← floatToShort r.1 sbuf', r.2))) ∧
    floatToShort (silencef : Arr 160 (IEEE m)) sbuf = .ok silence := by
  refine ⟨?_, ?_, ?_⟩
  · unfold synthesizeSpeech
    rw [synthesizeSpeechf_indep E a _ buf cur prev t uvq uvq']
    exact congrArg _ (funext fun r => by rw [floatToShort_indep r.out sbuf sbuf'])
  · unfold comfortNoise
    rw [comfortNoisef_indep _ buf]
    exact congrArg _ (funext fun r => by rw [floatToShort_indep r.1 sbuf sbuf'])
  · rw [floatToShort_iff]
    intro i
    have h0 : shortSample (fi 0 : IEEE libm0) = .ok 0 := by decide +kernel
    have e : ∀ x : FP, shortSample (F := IEEE m) x = shortSample (F := IEEE libm0) x := fun _ => rfl
    exact (e _).trans h0

/-! ## C32 -/

/-- The frame of `o` was synthesised, from the parameters stored as `prev`, with the 256 noise values `noise`. -/
def Excited {F : Type} [Arith F] (E : Env F) (o : Out F) (noise : Arr 256 F) : Prop :=
  ∃ c enh t r nr, synthUnmuted E c enh t = .ok r ∧ o.pcm = r.out ∧
    c = { o.st.prev with localEnergy := c.localEnergy, Vl := c.Vl, Ml := c.Ml, amplitudeThreshold := c.amplitudeThreshold } ∧
    noiseOverlap (Arr.const 256 (fi 0)) c.noiseSeed c.noiseOverlap t = .ok nr ∧ nr.buf = noise

/-- The noise does not depend on the thread-local variables. -/
theorem noiseOverlap_buf {F : Type} [Arith F] {b : Arr 256 F} {seed : F} {ov : Arr 96 F} {t t' : Tls F} {r r' : NoiseRes F}
    (h : noiseOverlap b seed ov t = .ok r) (h' : noiseOverlap b seed ov t' = .ok r') : r.buf = r'.buf := by
  unfold noiseOverlap at h h'
  by_cases hn : lt seed (lit 0 1) = true
  · rw [if_pos hn] at h h'
    have e : ∀ {t : Tls F} {r : NoiseRes F}, (if t.uvSeedOverride = true then
        (.ok ⟨Arr.const 256 (fi 0), ofInt (t.uvSeedState : Int), Arr.const 96 (fi 0), { t with uvSeedOverride := false }⟩ : Exec (NoiseRes F))
        else .ok ⟨Arr.const 256 (fi 0), lit 3147 1, Arr.const 96 (fi 0), t⟩) = .ok r → r.buf = Arr.const 256 (fi 0) := by
      intro t r h
      split at h <;> cases h <;> rfl
    rw [e h, e h']
  · rw [if_neg hn] at h h'
    obtain ⟨b1, g1, h⟩ := bind_ok h
    obtain ⟨n1, g2, h⟩ := bind_ok h
    obtain ⟨s1, g3, h⟩ := bind_ok h
    obtain ⟨o1, g4, h⟩ := bind_ok h
    obtain ⟨b2, k1, h'⟩ := bind_ok h'
    obtain ⟨n2, k2, h'⟩ := bind_ok h'
    obtain ⟨s2, k3, h'⟩ := bind_ok h'
    obtain ⟨o2, k4, h'⟩ := bind_ok h'
    cases h
    cases h'
    have e1 := ok_inj (g1.symm.trans k1)
    have e2 := ok_inj (g2.symm.trans k2)
    subst e1
    subst e2
    rw [ok_inj (g3.symm.trans k3)]

/-- The noise values of a frame are determined by the state it leaves. -/
theorem C32_excitation_unique {F : Type} [Arith F] {E : Env F} {o : Out F} {n n' : Arr 256 F} (h : Excited E o n)
    (h' : Excited E o n') : n = n' := by
  obtain ⟨c, e, t, r, nr, _, _, h3, h4, rfl⟩ := h
  obtain ⟨c', e', t', r', nr', _, _, k3, k4, rfl⟩ := h'
  have a : c.noiseSeed = c'.noiseSeed := by rw [h3, k3]
  have b : c.noiseOverlap = c'.noiseOverlap := by rw [h3, k3]
  rw [a, b] at h4
  exact noiseOverlap_buf h4 k4

theorem excited_of_speech {F : Type} [Arith F] {E : Env F} {s : St F} {enh : Parms F} {o o' : Out F} {n : Arr 256 F}
    (h : IsSpeech E s enh o') (e1 : o'.st.prev.noiseSeed = o.st.prev.noiseSeed)
    (e2 : o'.st.prev.noiseOverlap = o.st.prev.noiseOverlap) (hn : Excited E o n) : Excited E o' n := by
  obtain ⟨_, _, c, t, r, h1, h2, h3⟩ := h
  obtain ⟨c0, _, t0, _, nr0, _, _, k3, k4, rfl⟩ := hn
  have hr := h1
  unfold synthUnmuted at hr
  obtain ⟨nr, g1, _⟩ := bind_ok hr
  refine ⟨c, enh, t, r, nr, h1, h2, h3, g1, ?_⟩
  have a : c.noiseSeed = c0.noiseSeed := by rw [h3, k3]; exact e1
  have b : c.noiseOverlap = c0.noiseOverlap := by rw [h3, k3]; exact e2
  rw [a, b] at g1
  exact noiseOverlap_buf g1 k4

/-- IMBE: a repeat that is not muted is synthesised with the same noise as the frame before it. -/
theorem C32_imbe_replay (E : Env (IEEE m)) (op1 op2 : ImbeOp (IEEE m)) (hd : Bits 88 op2.d) (s : St (IEEE m))
    (o1 o2 : Out (IEEE m)) (h1 : op1.run E s = .ok o1) (h2 : op2.run E o1.st = .ok o2) (hr : 'R' ∈ o2.str)
    (hM : 'M' ∉ o2.str) (hc : o1.st.prev.repeatCount ≤ 3) (n : Arr 256 (IEEE m)) (hn : Excited E o1 n) :
    Excited E o2 n := by
  have st := imbeOp_step hd h2
  have hstr := st.str
  rw [List.append_assoc (List.replicate _ _)] at hstr
  rw [hstr, mem_status (by decide) (by decide), List.mem_append] at hr hM
  have hrep : imbeIsRepeat (imbeFund op2.d) (op2.counts.map (·.1)) op2.errs2 (imbeRate o1.st.prev.errorRate op2.errs2) = true := by
    rcases hr with hr | hr
    · by_contra hx
      rw [if_neg hx] at hr
      cases hr
    · split at hr
      · exact absurd hr (by decide)
      · cases hr
  have hmute : synthMuted o2.st.prev = false := by
    have : (isMaxFrameRepeat o2.st.prev || requiresMuting o2.st.prev) = false := by
      cases e : (isMaxFrameRepeat o2.st.prev || requiresMuting o2.st.prev) with
      | false => rfl
      | true => rw [e] at hM; exact absurd (.inr (by decide)) hM
    unfold synthMuted
    rw [Bool.or_eq_false_iff] at this
    rw [this.1, this.2, Bool.and_false]
    rfl
  obtain ⟨h3, _⟩ := st.last hrep hc
  exact excited_of_speech (st.speech hmute) (by rw [h3]) (by rw [h3]) hn

/-- AMBE, over histories: the same for every repeat that is not muted. -/
theorem C32_ambe_replay (E : Env (IEEE m)) (s0 s0' : St (IEEE m)) (h0 : initAmbeState s0 = .ok s0')
    (ops : List (AmbeOp (IEEE m))) (op1 op2 : AmbeOp (IEEE m)) (hd : ∀ op ∈ ops, Bits 49 op.payload)
    (hd1 : Bits 49 op1.payload) (hd2 : Bits 49 op2.payload) (s : St (IEEE m)) (o1 o2 : Out (IEEE m))
    (hs : runOps (AmbeOp.run E) ops s0' = .ok s) (h1 : op1.run E s = .ok o1) (h2 : op2.run E o1.st = .ok o2)
    (hk : op2.kind = .repeat_) (hM : 'M' ∉ o2.str) (n : Arr 256 (IEEE m)) (hn : Excited E o1 n) : Excited E o2 n := by
  rw [initAmbeState_eq] at h0
  cases h0
  have i1 := ambeInv_run hd (ambeInit_inv _) hs
  have i2 := (ambeOp_step hd1 i1 h1).inv
  have st := ambeOp_step hd2 i2 h2
  obtain ⟨u, hu, _, hu2, _⟩ := st.str
  rw [hu, mem_status (by decide) (by decide), hu2 hk] at hM
  have hlt : ambeNext ((ops.map AmbeOp.kind).foldl ambeNext 0) op1.kind < 3 := by
    have := ambeNext_le (ambeFold_le (n := 0) (by decide) (ops.map AmbeOp.kind)) op1.kind
    rcases Nat.lt_or_eq_of_le this with h | h
    · exact h
    · rw [if_pos h] at hM; exact absurd (by decide) hM
  obtain ⟨h3, _⟩ := st.last hk hlt
  exact excited_of_speech (st.speech (.inr ⟨hk, hlt⟩)) (by rw [h3]) (by rw [h3]) hn

/-- A repeat after a synthesised frame, in a history that starts with an error-free tone. -/
example (hm : Exp2Acc m) : ∃ (o1 o2 : Out (IEEE m)) (n : Arr 256 (IEEE m)),
    badAmbe.run sampleEnv o1.st = .ok o2 ∧ Excited sampleEnv o1 n ∧ Excited sampleEnv o2 n := by
  obtain ⟨s', h'⟩ := ambe_runs hm ([toneAmbe] ++ [badAmbe, badAmbe]) (by simp) (by simp)
  rw [runOps_append] at h'
  obtain ⟨s, h, h'⟩ := bind_ok h'
  obtain ⟨o1, h1, h'⟩ := bind_ok h'
  obtain ⟨o2, h2, _⟩ := bind_ok h'
  have hd : ∀ op ∈ [toneAmbe (m := m)], Bits 49 op.payload :=
    fun op h => (sampleAmbe_ok op (by revert h; simp; tauto)).1
  have hd' : ∀ op ∈ [toneAmbe, badAmbe (m := m)], Bits 49 op.payload :=
    fun op h => (sampleAmbe_ok op (by revert h; simp; tauto)).1
  have hs1 : runOps (AmbeOp.run (sampleEnv (m := m))) ([toneAmbe] ++ [badAmbe]) freshAmbe = .ok o1.st := by
    rw [runOps_append, h, ok_bind]
    show (AmbeOp.run sampleEnv badAmbe s >>= fun o => Except.ok o.st) = _
    rw [h1, ok_bind]
  have i1 := ambeInv_run hd (ambeInit_inv Tls.start) h
  have st1 := ambeOp_step (op := badAmbe) sampleAmbe_bits i1 h1
  have k := (C23_muting_exact sampleEnv freshAmbe _ _ (initAmbeState_eq _) _ hd' hs1 badAmbe sampleAmbe_bits o2 h2).1
  have hM : 'M' ∉ o2.str := by
    rw [k]
    simp only [List.map_cons, List.map_nil, badAmbe_kind, toneAmbe_kind]
    decide
  obtain ⟨_, _, c, t, r, g1, g2, g3⟩ := st1.speech (.inr ⟨badAmbe_kind, by
    simp only [List.map_cons, List.map_nil, toneAmbe_kind]; decide⟩)
  have hr := g1
  unfold synthUnmuted at hr
  obtain ⟨nr, g4, _⟩ := bind_ok hr
  have hn : Excited sampleEnv o1 nr.buf := ⟨c, _, t, r, nr, g1, g2, g3, g4, rfl⟩
  exact ⟨o1, o2, nr.buf, h2, hn, C32_ambe_replay sampleEnv freshAmbe _ (initAmbeState_eq _) _ badAmbe badAmbe hd
    sampleAmbe_bits sampleAmbe_bits s o1 o2 h h1 h2 badAmbe_kind hM _ hn⟩

/-! ## C34 -/

theorem ambePrepare_tls {F : Type} [Arith F] {errs2 : Int} {s s1 : St F} (h : ambePrepare errs2 s = .ok s1) :
    s1.tls = s.tls := by
  unfold ambePrepare ensureAmbeDefaults at h
  obtain ⟨s2, h1, h2⟩ := bind_ok h
  cases h2
  split at h1
  · rw [initAmbeState_eq] at h1; cases h1; rfl
  · cases h1; rfl

/-- What the code does: every D-STAR frame classified as tone or silence, from every state and with any error counts,
yields comfort noise and leaves a freshly initialised decoder. -/
theorem C34_tone_becomes_noise (E : Env (IEEE m)) (C : Call (IEEE m)) (errs errs2 : Int) (d : Nat → Int) (hd : Bits 49 d)
    (hf : 126 ≤ ambeFund2400 d) (s : St (IEEE m)) (o : Out (IEEE m)) (h : processAmbe2400 E C errs errs2 d s = .ok o) :
    ∃ t, comfortNoisef C.buf s.tls = .ok (o.pcm, t) ∧ initAmbeState { s with tls := t } = .ok o.st := by
  obtain ⟨s1, r, v, p, P⟩ := processAmbe2400_parts h
  obtain ⟨_, k2⟩ := decodeAmbe2400_eq hd E.lax s1.cur s1.prev s1.tls
  have htls := ambePrepare_tls P.prepare
  obtain ⟨k3, k4, k5⟩ := k2 hf
  have hbad : (r.bad = 3 ∨ 5 ≤ r.bad ∧ r.bad ≤ 122) ∧ r.tls = s.tls := by
    by_cases c1 : 5 ≤ toneIdx2400 d ∧ toneIdx2400 d ≤ 122
    · rw [ok_inj (P.decode.symm.trans (k3 c1)), ← htls]
      exact ⟨.inr (by dsimp only; omega), rfl⟩
    · by_cases c2 : 128 ≤ toneIdx2400 d ∧ toneIdx2400 d ≤ 163
      · rw [ok_inj (P.decode.symm.trans (k4 c2)), ← htls]
        exact ⟨.inl rfl, rfl⟩
      · have := (k5 ⟨c1, c2⟩).of_eq P.decode
        exact ⟨.inl this.1, this.2.2.1.trans htls⟩
  have hp := P.render
  rw [ambe2400Render, if_neg (by omega), if_neg (by omega)] at hp
  obtain ⟨q, h1, h2⟩ := bind_ok hp
  have hst := P.st
  have hpcm := P.pcm
  cases h2
  dsimp only at hst hpcm
  unfold noiseAndReset at h1
  obtain ⟨w, h3, h4⟩ := bind_ok h1
  obtain ⟨z, h5, h6⟩ := bind_ok h4
  cases h6
  dsimp only at h3 hpcm hst
  rw [hbad.2, comfortNoisef_indep _ C.buf] at h3
  refine ⟨w.2, by rw [hpcm]; exact h3, ?_⟩
  rw [initAmbeState_eq] at h5 ⊢
  rw [hst, ← ok_inj h5]

/-- The documented behaviour fails: no two such frames can be told apart by their samples or by the state they leave, so
the frequency that was sent is never heard. -/
theorem C34_tones_indistinguishable (E : Env (IEEE m)) (C : Call (IEEE m)) (errs errs' errs2 errs2' : Int)
    (d d' : Nat → Int) (hd : Bits 49 d) (hd' : Bits 49 d') (hf : 126 ≤ ambeFund2400 d) (hf' : 126 ≤ ambeFund2400 d')
    (s : St (IEEE m)) (o o' : Out (IEEE m)) (h : processAmbe2400 E C errs errs2 d s = .ok o)
    (h' : processAmbe2400 E C errs' errs2' d' s = .ok o') : o.pcm = o'.pcm ∧ o.st = o'.st := by
  obtain ⟨t, h1, h2⟩ := C34_tone_becomes_noise E C errs errs2 d hd hf s o h
  obtain ⟨t', h3, h4⟩ := C34_tone_becomes_noise E C errs' errs2' d' hd' hf' s o' h'
  rw [h1] at h3
  obtain ⟨e1, e2⟩ := Prod.mk.inj (ok_inj h3)
  rw [← e2, h2] at h4
  exact ⟨e1, ok_inj h4⟩

/-- A D-STAR payload with the tone marker and tone index `i` below 32. -/
def dstarTone (i : Nat) : Nat → Int := fun k =>
  if k < 6 then 1
  else if k = 6 ∨ k = 7 then 0
  else if k = 8 then 1
  else if k = 9 then ((i >>> 4) &&& 1 : Nat)
  else if k = 42 then ((i >>> 3) &&& 1 : Nat)
  else if k = 43 then ((i >>> 2) &&& 1 : Nat)
  else if k = 10 then ((i >>> 1) &&& 1 : Nat)
  else if k = 11 then (i &&& 1 : Nat)
  else 0

theorem dstarTone_bits (i : Nat) : Bits 49 (dstarTone i) := by
  intro k _
  unfold dstarTone
  have h : ∀ n : Nat, ((n &&& 1 : Nat) : Int) = 0 ∨ ((n &&& 1 : Nat) : Int) = 1 := by
    intro n; rw [Nat.and_one_is_mod]; omega
  repeat' (first | exact .inl rfl | exact .inr rfl | exact h _ | split)

/-- The hypotheses are met by frames that carry different valid tones without any error. -/
example : Bits 49 (dstarTone 10) ∧ Bits 49 (dstarTone 20) ∧ 126 ≤ ambeFund2400 (dstarTone 10) ∧
    126 ≤ ambeFund2400 (dstarTone 20) ∧ toneIdx2400 (dstarTone 10) = 10 ∧ toneIdx2400 (dstarTone 20) = 20 :=
  ⟨dstarTone_bits 10, dstarTone_bits 20, by decide, by decide, by decide, by decide⟩

/-! ## C35 -/

/-- The documented IMBE state: fundamental `4π / 173.5`, 39 harmonics, 12 bands, everything unvoiced with amplitude one,
no history. -/
theorem C35_imbe (s : St (IEEE m)) : ∃ p : Parms (IEEE m),
    initMbeState s = .ok ⟨p, p, p, s.tls⟩ ∧ (∀ s' : St (IEEE m), s'.tls = s.tls → initMbeState s' = initMbeState s) ∧
    p.w0 = toF ((dlit 4 1 *ᵈ mpi) /ᵈ (dlit 134 1 +ᵈ dlit 395 10)) ∧ p.L = 39 ∧ p.K = 12 ∧
    (∀ l, p.Vl l = 0 ∧ p.Ml l = lit 1 1 ∧ p.log2Ml l = fi 0 ∧ p.PHIl l = fi 0 ∧ p.PSIl l = lit 0 1) ∧
    p.gamma = fi 0 ∧ p.repeat_ = 0 ∧ p.repeatCount = 0 ∧ p.errorRate = lit 0 1 ∧ p.errorCountTotal = 0 ∧
    p.errorCount4 = 0 ∧ p.mutingThreshold = lit 875 10000 ∧ p.localEnergy = lit 75000 1 ∧ p.amplitudeThreshold = 20480 ∧
    p.noiseSeed = neg (lit 1 1) ∧ (∀ i, p.noiseOverlap i = fi 0) ∧ (∀ i, p.previousUw i = fi 0) :=
  ⟨imbeInit 39, initMbeState_ieee s, fun s' h => by rw [initMbeState_ieee, initMbeState_ieee, h], rfl, rfl, rfl,
    fun _ => ⟨rfl, rfl, rfl, rfl, rfl⟩, rfl, rfl, rfl, rfl, rfl, rfl, rfl, rfl, rfl, rfl, fun _ => rfl, fun _ => rfl⟩

/-- The AMBE state, in every arithmetic: 15 harmonics, everything unvoiced with amplitude one, no history. -/
theorem C35_ambe {F : Type} [Arith F] (s : St F) : ∃ p : Parms F,
    initAmbeState s = .ok ⟨p, p, p, s.tls⟩ ∧ (∀ s' : St F, s'.tls = s.tls → initAmbeState s' = initAmbeState s) ∧
    p.w0 = toF ((mpi /ᵈ dlit 32 1) *ᵈ (dlit 2 1 *ᵈ mpi)) ∧ p.L = 15 ∧ p.K = 0 ∧
    (∀ l, p.Vl l = 0 ∧ p.Ml l = lit 1 1 ∧ p.log2Ml l = lit 0 1 ∧ p.PHIl l = lit 0 1 ∧ p.PSIl l = lit 0 1) ∧
    p.gamma = lit 0 1 ∧ p.repeat_ = 0 ∧ p.repeatCount = 0 ∧ p.errorRate = lit 0 1 ∧ p.errorCountTotal = 0 ∧
    p.errorCount4 = 0 ∧ p.mutingThreshold = lit 96 1000 ∧ p.localEnergy = lit 75000 1 ∧ p.amplitudeThreshold = 20480 ∧
    p.noiseSeed = neg (lit 1 1) ∧ (∀ i, p.noiseOverlap i = fi 0) ∧ (∀ i, p.previousUw i = fi 0) :=
  ⟨ambeInit, initAmbeState_eq s, fun s' h => by rw [initAmbeState_eq, initAmbeState_eq, h], rfl, rfl, rfl,
    fun _ => ⟨rfl, rfl, rfl, rfl, rfl⟩, rfl, rfl, rfl, rfl, rfl, rfl, rfl, rfl, rfl, rfl, fun _ => rfl, fun _ => rfl⟩

/-! ## C36 -/

/-- One parameter set: between 9 and 56 harmonics, voicing flags 0 or 1, and a finite fundamental. -/
structure GoodSet (p : Parms (IEEE m)) : Prop where
  harmonics : 9 ≤ p.L ∧ p.L ≤ 56
  voicing : ∀ l, p.Vl l = 0 ∨ p.Vl l = 1
  fundamental : ∃ q : ℚ, Val p.w0 q ∧ |q| ≤ 32768

theorem SetOk.good {p : Parms (IEEE m)} (h : SetOk p) : GoodSet p := ⟨⟨h.lo, h.hi⟩, h.vl, h.w0⟩

/-- Over every history of calls of all codecs, initialisations and seedings, in any order. -/
theorem C36_invariant (hm : Exp2Acc m) (E : Env (IEEE m)) (s0 s : St (IEEE m)) (h0 : Fresh s0) (ops : List (Op (IEEE m)))
    (hp : ∀ op ∈ ops, op.Payload) (h : runHist E ops s0 = .ok s) :
    GoodSet s.cur ∧ GoodSet s.prev ∧ GoodSet s.enh ∧ 0 ≤ s.prev.repeatCount ∧ s.prev.repeatCount ≤ 4 ∧
      s.prev.repeat_ = s.prev.repeatCount := by
  have := hist_inv hm hp (fresh_ok h0).1 h
  exact ⟨SetOk.good this.cur, SetOk.good this.prev, SetOk.good this.enh, this.rep.lo, this.rep.hi, this.rep.eq⟩

/-- IMBE calls only: the IMBE muting threshold in all three sets. -/
theorem C36_imbe_threshold (E : Env (IEEE m)) (s0 s1 s : St (IEEE m)) (h0 : initMbeState s0 = .ok s1)
    (ops : List (ImbeOp (IEEE m))) (hp : ∀ op ∈ ops, Bits 88 op.d) (h : runOps (ImbeOp.run E) ops s1 = .ok s) :
    s.cur.mutingThreshold = lit 875 10000 ∧ s.prev.mutingThreshold = lit 875 10000 ∧
      s.enh.mutingThreshold = lit 875 10000 := by
  rw [initMbeState_ieee] at h0
  cases h0
  have := imbeInv_run hp (imbeInv_init _) h
  exact ⟨this.thrCur, this.thr, this.thrEnh⟩

/-- AMBE calls of both codecs only: the AMBE muting threshold in all three sets, and the counters stay below 4. -/
theorem C36_ambe_threshold (E : Env (IEEE m)) (s0 s1 s : St (IEEE m)) (h0 : initAmbeState s0 = .ok s1)
    (ops : List (AmbeOp (IEEE m))) (hp : ∀ op ∈ ops, Bits 49 op.payload) (h : runOps (AmbeOp.run E) ops s1 = .ok s) :
    ∀ p ∈ [s.cur, s.prev, s.enh], p.mutingThreshold = lit 96 1000 ∧ p.repeat_ = p.repeatCount ∧ 0 ≤ p.repeatCount ∧
      p.repeatCount ≤ 3 := by
  rw [initAmbeState_eq] at h0
  cases h0
  have inv := ambeInv_run hp (ambeInit_inv _) h
  have e : ∀ {p : Parms (IEEE m)}, AmbeSet p → p.mutingThreshold = lit 96 1000 ∧ p.repeat_ = p.repeatCount ∧
      0 ≤ p.repeatCount ∧ p.repeatCount ≤ 3 := fun h => ⟨h.thr, h.rep, h.lo, h.hi⟩
  intro p hp
  simp only [List.mem_cons, List.not_mem_nil, or_false] at hp
  rcases hp with rfl | rfl | rfl
  · exact e inv.cur
  · exact e inv.prev
  · exact e inv.enh

/-- Histories to which the theorems apply: any number up to 100 of sample frames. -/
example (hm : Exp2Acc m) : ∃ s : St (IEEE m), runOps (ImbeOp.run sampleEnv) [goodImbe, badImbe, goodImbe] freshImbe = .ok s :=
  imbe_runs hm _ (by intro op h; simp only [List.mem_cons, List.not_mem_nil, or_false] at h; tauto) (by simp)

/-! ## C38 -/

/-- After IMBE, an AMBE call of either codec does exactly what it would do after `mbe_initAmbeParms`, including any
error it may end with. -/
theorem C38_switch (E : Env (IEEE m)) (op : AmbeOp (IEEE m)) (s : St (IEEE m))
    (h : lt (lit 1 1000000) (abs (s.prev.mutingThreshold -ᶠ lit 96 1000)) = true) :
    op.run E s = (do op.run E (← initAmbeState s)) := by
  rw [initAmbeState_eq, ok_bind]
  cases op with
  | v2450 C c0 e d =>
    show processAmbe2450 E C c0 e d s = processAmbe2450 E C c0 e d _
    unfold processAmbe2450
    rw [ambePrepare_switch h]
  | v2400 C e e2 d =>
    show processAmbe2400 E C e e2 d s = processAmbe2400 E C e e2 d _
    unfold processAmbe2400
    rw [ambePrepare_switch h]

/-- In particular after `mbe_initMbeParms` and any IMBE calls. -/
theorem C38_after_imbe (E : Env (IEEE m)) (s0 s1 s : St (IEEE m)) (h0 : initMbeState s0 = .ok s1)
    (ops : List (ImbeOp (IEEE m))) (hp : ∀ op ∈ ops, Bits 88 op.d) (h : runOps (ImbeOp.run E) ops s1 = .ok s)
    (op : AmbeOp (IEEE m)) : op.run E s = (do op.run E (← initAmbeState s)) := by
  refine C38_switch E op s ?_
  rw [(C36_imbe_threshold E s0 s1 s h0 ops hp h).2.1]
  exact thr_imbe

/-- After any AMBE history nothing is reset: the next AMBE call starts from the state as it is. -/
theorem C38_same_family (E : Env (IEEE m)) (s0 s1 s : St (IEEE m)) (h0 : initAmbeState s0 = .ok s1)
    (ops : List (AmbeOp (IEEE m))) (hp : ∀ op ∈ ops, Bits 49 op.payload) (h : runOps (AmbeOp.run E) ops s1 = .ok s) :
    ensureAmbeDefaults s = .ok s := by
  unfold ensureAmbeDefaults
  rw [(C36_ambe_threshold E s0 s1 s h0 ops hp h s.prev (by simp)).1]
  exact if_neg (by rw [show (lit 96 1000 : IEEE m) = mutingAmbe from rfl, thr_ambe]; decide)

/-! ## C47 -/

/-- With at most 56 harmonics and any float contents whatsoever (in every arithmetic): no access outside an array and no
use of an unset value; only a float out of the range of `int` or an overflow of the amplitude threshold can be
undefined. -/
theorem C47_memory_safe {F : Type} [Arith F] (E : Env F) (a : Nat) (out : Arr 160 F) (cur prev : Parms F) (t : Tls F)
    (uvq : Int) (hc : 0 ≤ cur.L ∧ cur.L ≤ 56) (hp : 0 ≤ prev.L ∧ prev.L ≤ 56) (e : UB)
    (h : synthesizeSpeechf E a out cur prev t uvq = .error e) : e = .floatToInt ∨ e = .signedOverflow := by
  have := synthesizeSpeechf_ok (U := fun e => e = .floatToInt ∨ e = .signedOverflow) E a out cur prev t uvq
    ⟨⟨by omega, hc.2⟩, ⟨by omega, hp.2⟩, .inr (.inl rfl), .inr (.inl rfl), .inr (.inr rfl)⟩
  rcases this with ⟨r, hr, _⟩ | ⟨e', he, hU⟩
  · rw [hr] at h; cases h
  · rw [he] at h; cases h; exact hU

/-- The call is defined when the fundamental is at most 32768 in magnitude, the noise seed below 2^32, the error count
between 0 and 7000000 and the previous amplitude threshold at most 2147477647. -/
theorem C47_defined (E : Env (IEEE m)) (a : Nat) (out : Arr 160 (IEEE m)) (cur prev : Parms (IEEE m))
    (t : Tls (IEEE m)) (uvq : Int) (hc : 0 ≤ cur.L ∧ cur.L ≤ 56) (hp : 0 ≤ prev.L ∧ prev.L ≤ 56) (w seed : ℚ)
    (hw : Val cur.w0 w) (hw' : |w| ≤ 32768) (hs : Val cur.noiseSeed seed) (hs' : seed < 4294967296)
    (he : 0 ≤ cur.errorCountTotal ∧ cur.errorCountTotal ≤ 7000000) (ht : prev.amplitudeThreshold ≤ 2147477647) :
    ∃ r, synthesizeSpeechf E a out cur prev t uvq = .ok r := by
  have := synthesizeSpeechf_ok (U := fun _ => False) E a out cur prev t uvq
    ⟨⟨by omega, hc.2⟩, ⟨by omega, hp.2⟩, .inl (SeedGood.conv ⟨seed, hs, hs'⟩), .inl (edgeConv ⟨w, hw, hw'⟩ hc.2),
      .inl ⟨he.1, he.2, ht⟩⟩
  rcases this with ⟨r, hr, _⟩ | ⟨_, _, hU⟩
  · exact ⟨r, hr⟩
  · exact hU.elim

/-- The hypotheses are met by the initial state. -/
example : ∃ w seed : ℚ, Val (imbeInit 39 : Parms (IEEE m)).w0 w ∧ |w| ≤ 32768 ∧
    Val (imbeInit 39 : Parms (IEEE m)).noiseSeed seed ∧ seed < 4294967296 := by
  obtain ⟨w, h1, h2⟩ := (imbeInit_ok (F := IEEE m)).w0
  obtain ⟨q, h3, h4⟩ := (imbeInit_ok (F := IEEE m)).seed
  exact ⟨w, q, h1, h2, h3, h4⟩

/-! ## C51 -/

/-- Every documented call of a public entry point is one of the actions of the history theorems. -/
theorem Api.toOp {a : Api (IEEE m)} (h : a.Valid) :
    ∃ op : Op (IEEE m), op.Payload ∧ op.Counts 7000000 ∧ ∀ E s, a.run E s = op.run E s := by
  cases a with
  | imbe7200Frame C fr d =>
    obtain ⟨hb, hc⟩ := h
    obtain ⟨r, hr, h1, h2, h3, h4, h5⟩ := C13_imbe7200_counts fr hb d
    refine ⟨.imbe ⟨C, some (r.errs, r.c4), r.errs2, r.d⟩, h5, ⟨?_, ?_, ?_⟩, fun E s => ?_⟩
    · dsimp only; omega
    · dsimp only; omega
    · dsimp only; omega
    · show (do Except.ok (← processImbe7200Framef E C fr d s).out.st : Exec _) =
        (do Except.ok (← processImbe4400 E C (some (r.errs : Int)) (r.errs2 : Int) r.d
          { s with cur := { s.cur with errorCount4 := (r.c4 : Int) } }).st)
      unfold processImbe7200Framef
      rw [hr, ok_bind]
      generalize processImbe4400 E C _ _ r.d _ = x
      cases x <;> rfl
  | imbe7100Frame C fr d =>
    obtain ⟨hb, hc⟩ := h
    obtain ⟨r, hr, h1, h2, h3, h4, h5⟩ := C13_imbe7100_counts fr hb d
    obtain ⟨out, ho, _⟩ := C12_convert_moves_bits (m := m) r.d h5
    refine ⟨.imbe ⟨C, some (r.errs, r.c4), r.errs2, out⟩, (C12_convert_fundamental r.d h5 out ho).2, ⟨?_, ?_, ?_⟩,
      fun E s => ?_⟩
    · dsimp only; omega
    · dsimp only; omega
    · dsimp only; omega
    · show (do Except.ok (← processImbe7100Framef E C fr d s).out.st : Exec _) =
        (do Except.ok (← processImbe4400 E C (some (r.errs : Int)) (r.errs2 : Int) out
          { s with cur := { s.cur with errorCount4 := (r.c4 : Int) } }).st)
      unfold processImbe7100Framef
      rw [hr, ok_bind, ho, ok_bind]
      generalize processImbe4400 E C _ _ out _ = x
      cases x <;> rfl
  | ambe2450Frame C fr d =>
    obtain ⟨hb, hc⟩ := h
    obtain ⟨r, hr, h1, h2, h3, h5⟩ := C13_ambe_counts fr hb d
    refine ⟨.ambe (.v2450 C (some (r.errs : Int)) r.errs2 r.d), h5, ⟨?_, ?_, ?_⟩, fun E s => ?_⟩
    · omega
    · omega
    · omega
    · show (do Except.ok (← processAmbe2450Framef E C fr d s).out.st : Exec _) =
        (do Except.ok (← processAmbe2450 E C (some (r.errs : Int)) (r.errs2 : Int) r.d s).st)
      unfold processAmbe2450Framef
      rw [hr, ok_bind]
      generalize processAmbe2450 E C _ _ r.d _ = x
      cases x <;> rfl
  | ambe2400Frame C fr d =>
    obtain ⟨hb, hc⟩ := h
    obtain ⟨r, hr, h1, h2, h3, h5⟩ := C13_ambe_counts fr hb d
    refine ⟨.ambe (.v2400 C (r.errs : Int) r.errs2 r.d), h5, ⟨?_, ?_, ?_⟩, fun E s => ?_⟩
    · omega
    · omega
    · omega
    · show (do Except.ok (← processAmbe2400Framef E C fr d s).out.st : Exec _) =
        (do Except.ok (← processAmbe2400 E C (r.errs : Int) (r.errs2 : Int) r.d s).st)
      unfold processAmbe2400Framef
      rw [hr, ok_bind]
      generalize processAmbe2400 E C _ _ r.d _ = x
      cases x <;> rfl
  | imbeData C errs errs2 d => exact ⟨.imbe ⟨C, none, errs2, d⟩, h.1, h.2, fun E s => rfl⟩
  | ambe2450Data C errs errs2 d => exact ⟨.ambe (.v2450 C none errs2 d), h.1, h.2, fun E s => rfl⟩
  | ambe2400Data C errs errs2 d => exact ⟨.ambe (.v2400 C errs errs2 d), h.1, h.2, fun E s => rfl⟩
  | initMbe => exact ⟨.initMbe, trivial, trivial, fun E s => rfl⟩
  | initAmbe => exact ⟨.initAmbe, trivial, trivial, fun E s => rfl⟩
  | seed n => exact ⟨.seed n, trivial, trivial, fun E s => rfl⟩

theorem runApi_hist {as : List (Api (IEEE m))} (h : ∀ a ∈ as, a.Valid) : ∃ ops : List (Op (IEEE m)),
    (∀ op ∈ ops, op.Payload ∧ op.Counts 7000000) ∧ ops.length = as.length ∧ ∀ E s, runApi E as s = runHist E ops s := by
  induction as with
  | nil => exact ⟨[], by simp, rfl, fun _ _ => rfl⟩
  | cons a as ih =>
    obtain ⟨ops, h1, h2, h3⟩ := ih fun x hx => h x (.tail _ hx)
    obtain ⟨op, g1, g2, g3⟩ := Api.toOp (h a (.head _))
    refine ⟨op :: ops, ?_, by simp [h2], fun E s => ?_⟩
    · intro x hx
      rcases List.mem_cons.1 hx with rfl | hx
      · exact ⟨g1, g2⟩
      · exact h1 x hx
    · show (a.run E s >>= fun s => runApi E as s) = (op.run E s >>= fun s => runHist E ops s)
      rw [g3]
      exact congrArg _ (funext fun s => h3 E s)

/-- Any program that makes at most 357000 documented calls, in any order, on a decoder that was initialised once: no
undefined operation occurs, apart from the read one past the end of `log2Ml` of C16-C18. -/
theorem C51_program_defined (hm : Exp2Acc m) (E : Env (IEEE m)) (s0 : St (IEEE m)) (h0 : Fresh s0)
    (as : List (Api (IEEE m))) (h : ∀ a ∈ as, a.Valid) (hl : as.length ≤ 357000) :
    (E.lax = true → ∃ s, runApi E as s0 = .ok s) ∧ ∀ e, runApi E as s0 = .error e → e = .oobRead := by
  obtain ⟨ops, h1, h2, h3⟩ := runApi_hist h
  obtain ⟨g1, g2⟩ := fresh_ok h0
  rw [h3]
  constructor
  · intro hlax
    have := hist_u hm (U := fun _ => False) (E := E) (.inl hlax) h1 g1 (le_refl _) g2 (by omega)
    obtain ⟨s, hs, _⟩ := this.toOk
    exact ⟨s, hs⟩
  · intro e he
    have := hist_u hm (U := fun e => e = .oobRead) (E := E) (.inr rfl) h1 g1 (le_refl _) g2 (by omega)
    rcases this with ⟨s, hs, _⟩ | ⟨e', he', hU⟩
    · rw [hs] at he; cases he
    · rw [he'] at he; cases he; exact hU

/-- Documented calls exist for every entry point: for instance all-zero frames and payloads. -/
example : (Api.imbe7200Frame ⟨18, 1, 2, Arr.const 160 (fi 0), 3⟩ (fun _ _ => 0) (fun _ => 0) : Api (IEEE m)).Valid ∧
    (Api.ambe2400Data ⟨9, 1, 2, Arr.const 160 (fi 0), 3⟩ 7 6 (dstarTone 10) : Api (IEEE m)).Valid := by
  refine ⟨⟨fun _ _ _ _ => .inl rfl, le_refl 18⟩, dstarTone_bits 10, ?_, ?_, ?_⟩
  · decide
  · decide
  · exact le_refl 9

/-- Witness for the negation in C34: error-free frames that carry two different tones, from a fresh decoder. -/
theorem C34_witness (hm : Exp2Acc m) : ∃ o o' : Out (IEEE m),
    toneIdx2400 (dstarTone 10) ≠ toneIdx2400 (dstarTone 20) ∧
    processAmbe2400 sampleEnv sampleCall 0 0 (dstarTone 10) freshAmbe = .ok o ∧
    processAmbe2400 sampleEnv sampleCall 0 0 (dstarTone 20) freshAmbe = .ok o' ∧ o.pcm = o'.pcm ∧ o.st = o'.st := by
  have run : ∀ i, ∃ o : Out (IEEE m), processAmbe2400 sampleEnv sampleCall 0 0 (dstarTone i) freshAmbe = .ok o := by
    intro i
    obtain ⟨s, hs⟩ := (C51_program_defined hm sampleEnv freshAmbe freshAmbe_fresh [.ambe2400Data sampleCall 0 0 (dstarTone i)]
      (by
        intro a ha
        rw [List.mem_singleton] at ha
        subst ha
        exact ⟨dstarTone_bits i, show (0 : Int) ≤ 0 ∧ (0 : Int) ≤ 7000000 ∧ 0 + 3 ≤ 16 by decide⟩) (by simp)).1 rfl
    obtain ⟨s1, h1, _⟩ := bind_ok hs
    obtain ⟨o, ho, _⟩ := bind_ok h1
    exact ⟨o, ho⟩
  obtain ⟨o, ho⟩ := run 10
  obtain ⟨o', ho'⟩ := run 20
  exact ⟨o, o', by decide, ho, ho', C34_tones_indistinguishable _ _ _ _ _ _ _ _ (dstarTone_bits 10) (dstarTone_bits 20)
    (by decide) (by decide) _ _ _ ho ho'⟩

/-! ## C52 -/

/-- IMBE payload bit 87 and AMBE 3600x2400 payload bit 24 carry nothing: payloads that differ only there give the same
samples, status string and state. -/
theorem C52_reserved_bits {F : Type} [Arith F] (E : Env F) (C : Call F) (s : St F) (d d' : Nat → Int) :
    (∀ c0 errs2, (∀ k, k < 87 → d k = d' k) →
      processImbe4400 E C c0 errs2 d s = processImbe4400 E C c0 errs2 d' s) ∧
    (∀ errs errs2, (∀ k, k < 49 → k ≠ 24 → d k = d' k) →
      processAmbe2400 E C errs errs2 d s = processAmbe2400 E C errs errs2 d' s) :=
  ⟨fun c0 e h => processImbe4400_bit87 h E C c0 e s, fun a b h => processAmbe2400_bit24 h E C a b s⟩

/-- Two payloads that differ in bit 24 only. -/
example : ∃ d d' : Nat → Int, d ≠ d' ∧ Bits 49 d ∧ Bits 49 d' ∧ ∀ k, k < 49 → k ≠ 24 → d k = d' k := by
  refine ⟨fun _ => 0, fun k => if k = 24 then 1 else 0, fun h => ?_, fun _ _ => .inl rfl, fun k _ => ?_, fun k _ h => ?_⟩
  · have := congrFun h 24
    simp at this
  · dsimp only; split
    · exact .inr rfl
    · exact .inl rfl
  · dsimp only; rw [if_neg h]

end Verif.Props
