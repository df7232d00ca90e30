import Verif.Props.Repeat
import Verif.Spec.Tone
import Verif.Lemmas.ToneFrame

/-!
# C66, C67: tone frames of AMBE 2450
-/

namespace Verif.Props
open Verif Verif.Spec Verif.Model Verif.Num Verif.Gen Arith

variable {m : Libm}

/-! ## C66 -/

/-- The hypotheses on the state below hold after every AMBE history from a freshly initialised decoder. -/
theorem C66_history (E : Env (IEEE m)) (s0 s1 s : St (IEEE m)) (h0 : initAmbeState s0 = .ok s1) (pre : List (AmbeOp (IEEE m)))
    (hb : ∀ op ∈ pre, Bits 49 op.payload) (h : runOps (AmbeOp.run E) pre s1 = .ok s) :
    s.prev.mutingThreshold = mutingAmbe ∧ s.prev.repeatCount ≤ 3 := by
  rw [initAmbeState_eq] at h0
  obtain rfl := ok_inj h0
  have hI := ambeInv_run hb (ambeInit_inv _) h
  exact ⟨hI.prev.thr, hI.prev.hi⟩

/-- A tone frame with an index of the table: the status is the `=` signs and `T`. The previous and the enhanced parameters and
the thread-local variables stay as they are. In the current parameters only the error fields, the repeat fields and the two
phases change, and the phases advance by 160 steps and stay in the range of `int`. -/
theorem C66_valid (E : Env (IEEE m)) (C : Call (IEEE m)) (c0 : Option Int) (e : Int) (d : Nat → Int) (id : Nat)
    (hop : ToneFrame id (.v2450 C c0 e d)) (a b : ℚ) (h : toneHz id = some (a, b)) (s : St (IEEE m))
    (hs : s.prev.mutingThreshold = mutingAmbe) :
    ∃ o, processAmbe2450 E C c0 e d s = .ok o ∧ o.str = List.replicate e.toNat '=' ++ ['T', '\x00'] ∧
      o.st.prev = s.prev ∧ o.st.enh = s.enh ∧ o.st.tls = s.tls ∧ VoiceEqCur s.cur o.st.cur ∧
      o.st.cur.repeat_ = 0 ∧ o.st.cur.repeatCount = 0 ∧ o.st.cur.errorCountTotal = e ∧
      toUns32 o.st.cur.swn = (toUns32 s.cur.swn + 160 * stepHz a) % 2 ^ 32 ∧
      toUns32 o.st.cur.un = (toUns32 s.cur.un + if a = b then 0 else 160 * stepHz b) % 2 ^ 32 ∧
      (-2 ^ 31 ≤ o.st.cur.swn ∧ o.st.cur.swn < 2 ^ 31) ∧ -2 ^ 31 ≤ o.st.cur.un ∧ o.st.cur.un < 2 ^ 31 := by
  obtain ⟨hd, ht, he, hc, rfl⟩ := hop
  refine ⟨_, processTone_valid E c0 hc hd ht he hs h, rfl, rfl, rfl, rfl, rfl, rfl, rfl, rfl, ?_, ?_,
    toS32_range (phaseAt_lt _ _ _), toS32_range (phaseAt_lt _ _ _)⟩
  · dsimp only
    rw [toUns32_toS32 (phaseAt_lt _ _ _)]
    rfl
  · dsimp only
    rw [toUns32_toS32 (phaseAt_lt _ _ _)]
    unfold phaseAt
    by_cases e : a = b
    · rw [if_pos e, if_pos e]
    · rw [if_neg e, if_neg e]

/-- The samples of a run of tone frames with the same index are one continuous signal: sample `n` of the frame that follows
`ops` differs from the ideal signal at time `160 · ops.length + n + 1` by at most `1/200 + N/300000`, about a hundred-thousandth
of full scale in the first second. The ideal signal starts at the phases that the decoder holds, has the frequencies of the
table and the amplitude that the frame carries, which may vary from frame to frame. -/
theorem C66_waveform (hm : SinAcc m) (E : Env (IEEE m)) (id : Nat) (a b : ℚ) (h : toneHz id = some (a, b)) (s : St (IEEE m))
    (hs : s.prev.mutingThreshold = mutingAmbe) (ops : List (AmbeOp (IEEE m))) (hops : ∀ op ∈ ops, ToneFrame id op)
    (C : Call (IEEE m)) (c0 : Option Int) (e : Int) (d : Nat → Int) (hop : ToneFrame id (.v2450 C c0 e d)) :
    ∃ s' o, runOps (AmbeOp.run E) ops s = .ok s' ∧ processAmbe2450 E C c0 e d s' = .ok o ∧ ∀ n : Fin 160, ∀ N : Nat,
      N = 160 * ops.length + n.val + 1 → ∃ r : ℚ, Val (o.pcm n) r ∧
        |(r : ℝ) - toneWave a b (toneLevel (toneAmp2450 d)) (toUns32 s.cur.swn) (toUns32 s.cur.un) N| ≤ 1 / 200 + N / 300000 := by
  obtain ⟨s', h1, h2⟩ := runTones E h hops hs
  obtain ⟨hd, ht, he, hc, rfl⟩ := hop
  refine ⟨s', _, h1, processTone_valid E c0 hc hd ht he (by rw [h2.prev]; exact hs) h, fun n N hN => ?_⟩
  dsimp only
  rw [h2.swn, h2.un, phaseAt_add, phaseAt_add, show 160 * ops.length + (n.val + 1) = N by omega]
  exact toneOut_close hm (toneHz_pos h).1 (toneHz_pos h).2 _ (toneAmp_lt hd) _ _ _

/-- A tone frame with an index outside the table, within the repeat limit: the samples are those of speech synthesis from the
enhanced parameters, which are its current and its previous parameters at the same time. The previous parameters stay as
they are, and no oscillator moves. -/
theorem C66_invalid (E : Env (IEEE m)) (C : Call (IEEE m)) (c0 : Option Int) (e : Int) (d : Nat → Int) (id : Nat)
    (hop : ToneFrame id (.v2450 C c0 e d)) (h : toneHz id = none) (s : St (IEEE m))
    (hs : s.prev.mutingThreshold = mutingAmbe) (hr : s.prev.repeatCount ≤ 3) (o : Out (IEEE m))
    (ho : processAmbe2450 E C c0 e d s = .ok o) :
    ∃ r, synthesizeSpeechf E C.ps C.buf s.enh s.enh s.tls C.uvquality = .ok r ∧ o.pcm = r.out ∧ o.st.enh = r.cur ∧
      o.st.tls = r.tls ∧ o.st.prev = s.prev ∧ VoiceEqCur s.cur o.st.cur ∧ o.st.cur.swn = s.cur.swn ∧ o.st.cur.un = s.cur.un ∧
      o.str = List.replicate e.toNat '=' ++ ['T', '\x00'] := by
  obtain ⟨hd, ht, he, hc, rfl⟩ := hop
  rw [processTone_invalid E c0 hc hd ht he hs hr h] at ho
  revert ho
  generalize synthesizeSpeechf E C.ps C.buf s.enh s.enh s.tls C.uvquality = x
  intro ho
  cases x with
  | error e => cases ho
  | ok r =>
    cases ho
    exact ⟨r, rfl, rfl, rfl, rfl, rfl, rfl, rfl, rfl, rfl⟩

/-- Libraries with a sine of that accuracy exist. -/
theorem C66_hypothesis_satisfiable : ∃ m : Libm, SinAcc m := by
  classical
  have key : ∀ x e : ℝ, 0 < e → ∃ r : ℚ, |(r : ℝ) - x| ≤ e := by
    intro x e he
    obtain ⟨r, h1, h2⟩ := exists_rat_btwn (show x < x + e by linarith)
    exact ⟨r, by rw [abs_le]; constructor <;> linarith⟩
  let si : FP → FP := fun x => match x with
    | .fin _ y => .fin false (key (Real.sin y) (1 / 4194304) (by norm_num)).choose
    | x => x
  refine ⟨⟨id, si, id, id, id⟩, ?_⟩
  rintro x y ⟨s, rfl⟩ _
  exact ⟨_, ⟨false, rfl⟩, (key (Real.sin y) (1 / 4194304) (by norm_num)).choose_spec⟩

/-- The payload of DTMF key 5 with amplitude 127. -/
def key5 (i : Nat) : Int := if i < 13 ∨ i = 17 ∨ i = 19 ∨ i = 44 then 1 else 0

theorem key5_tone (C : Call (IEEE m)) (hC : 2 ≤ C.cap) : ToneFrame 133 (.v2450 C none 0 key5) := by
  refine ⟨fun i _ => ?_, by decide, by decide, hC, by decide⟩
  unfold key5
  split <;> simp

/-- It is the sum of 1336 Hz and 770 Hz with half the full amplitude each. -/
example (hm : SinAcc m) (E : Env (IEEE m)) (C : Call (IEEE m)) (hC : 2 ≤ C.cap) (k : Nat) :
    ∃ s' o, runOps (AmbeOp.run E) (List.replicate k (.v2450 C none 0 key5)) freshAmbe = .ok s' ∧
      processAmbe2450 E C none 0 key5 s' = .ok o ∧ ∀ n : Fin 160, ∃ r : ℚ, Val (o.pcm n) r ∧
        |(r : ℝ) - toneWave 1336 770 (32767 * 95 / 100 / 7) 0 0 (160 * k + n.val + 1)| ≤ 1 / 200 + (160 * k + n.val + 1 : ℕ) / 300000 := by
  obtain ⟨s', o, h1, h2, h3⟩ := C66_waveform hm E 133 1336 770 (by decide) freshAmbe rfl (List.replicate k (.v2450 C none 0 key5))
    (fun op h => by rw [List.eq_of_mem_replicate h]; exact key5_tone C hC) C none 0 key5 (key5_tone C hC)
  refine ⟨s', o, h1, h2, fun n => ?_⟩
  obtain ⟨r, hr, hd⟩ := h3 n (160 * k + n.val + 1) (by rw [List.length_replicate])
  refine ⟨r, hr, ?_⟩
  rw [show toneLevel (toneAmp2450 key5) = 32767 * 95 / 100 / 7 by
    rw [show toneAmp2450 key5 = 127 by decide]; unfold toneLevel; norm_num] at hd
  exact hd

/-- A tone frame with the index 1, which the table does not have. -/
example (C : Call (IEEE m)) (hC : 2 ≤ C.cap) : ∃ d, ToneFrame 1 (.v2450 C none 0 d) ∧ toneHz 1 = none :=
  ⟨fun i => if i < 6 ∨ i = 19 then 1 else 0, ⟨fun i _ => by by_cases h : i < 6 ∨ i = 19 <;> simp [h], by decide, by decide, hC, by decide⟩,
    by decide⟩

/-! ## C67 -/

theorem tones_voiceEq (E : Env (IEEE m)) (tones : List (AmbeOp (IEEE m))) (ht : ∀ op ∈ tones, AudibleTone op) (s : St (IEEE m))
    (hs : s.prev.mutingThreshold = mutingAmbe) : ∃ s', runOps (AmbeOp.run E) tones s = .ok s' ∧ VoiceEqSt s s' := by
  induction tones generalizing s with
  | nil => exact ⟨s, rfl, rfl, rfl, rfl, rfl⟩
  | cons op tones ih =>
    obtain ⟨id, hop, hid⟩ := ht op (.head _)
    obtain ⟨⟨a, b⟩, hab⟩ := Option.ne_none_iff_exists'.1 hid
    obtain ⟨C, c0, e, d⟩ | _ := op
    · obtain ⟨o, h1, -, h2, h3, h4, h5, -⟩ := C66_valid E C c0 e d id hop a b hab s hs
      obtain ⟨s', k1, k2, k3, k4, k5⟩ := ih (fun x hx => ht x (.tail _ hx)) o.st (by rw [h2]; exact hs)
      refine ⟨s', ?_, VoiceEqCur.trans h5 k2, by rw [← h2]; exact k3, by rw [← h3]; exact k4, by rw [← h4]; exact k5⟩
      rw [runOps, AmbeOp.run, h1, ok_bind]
      exact k1
    · exact hop.elim

/-- Tone frames are transparent to speech. Insert any number of tones, of any indices of the table, anywhere into a history of
AMBE calls. Whatever follows (`post`, then `op`), the next call fails in the same way or gives the same status string, and the
same samples too unless it is itself a tone frame with an index of the table, whose oscillators have moved on. -/
theorem C67_tones_transparent (E : Env (IEEE m)) (s0 s1 : St (IEEE m)) (h0 : initAmbeState s0 = .ok s1)
    (pre tones post : List (AmbeOp (IEEE m))) (hb : ∀ op ∈ pre, Bits 49 op.payload) (ht : ∀ op ∈ tones, AudibleTone op)
    (s : St (IEEE m)) (hp : runOps (AmbeOp.run E) pre s1 = .ok s) :
    ∃ s', runOps (AmbeOp.run E) tones s = .ok s' ∧
      (∀ e, runOps (AmbeOp.run E) post s = .error e ↔ runOps (AmbeOp.run E) post s' = .error e) ∧
      ∀ t, runOps (AmbeOp.run E) post s = .ok t → ∃ t', runOps (AmbeOp.run E) post s' = .ok t' ∧ VoiceEqSt t t' ∧
        ∀ op : AmbeOp (IEEE m), (op.run E t').map Out.str = (op.run E t).map Out.str ∧
          (Bits 49 op.payload → (∀ id, ToneTx id op → toneHz id = none) →
            (op.run E t').map Out.pcm = (op.run E t).map Out.pcm) := by
  obtain ⟨s', h1, h2⟩ := tones_voiceEq E tones ht s (C66_history E s0 s1 s h0 pre hb hp).1
  have hr := runOps_tw E post h2
  refine ⟨s', h1, fun e => ?_, fun t htt => ?_⟩
  · generalize runOps (AmbeOp.run E) post s = x at hr
    generalize runOps (AmbeOp.run E) post s' = y at hr
    cases hr with
    | ok _ => exact ⟨fun h => (by cases h), fun h => (by cases h)⟩
    | error => exact Iff.rfl
  · obtain ⟨t', k1, k2⟩ := hr.of_ok htt
    refine ⟨t', k1, k2, fun op => ⟨((ambeOp_tw E op k2).map_eq fun o o' k => k.str.symm).symm, fun hd hn => ?_⟩⟩
    exact ((ambeOp_tw E op k2).map_eq fun o o' k => (k.pcm ⟨hd, hn⟩).symm).symm

/-- A repeat, three times DTMF key 5, then another repeat: as without the tones. -/
example (E : Env (IEEE m)) (s : St (IEEE m)) (h : runOps (AmbeOp.run E) [badAmbe] freshAmbe = .ok s) :
    ∃ s', runOps (AmbeOp.run E) (List.replicate 3 (.v2450 sampleCall none 0 key5)) s = .ok s' ∧
      ((badAmbe (m := m)).run E s').map Out.pcm = ((badAmbe (m := m)).run E s).map Out.pcm := by
  obtain ⟨s', h1, -, h2⟩ := C67_tones_transparent E freshAmbe freshAmbe (initAmbeState_eq _) [badAmbe]
    (List.replicate 3 (.v2450 sampleCall none 0 key5)) []
    (fun op h => by rw [List.mem_singleton.1 h]; exact sampleAmbe_bits)
    (fun op h => by rw [List.eq_of_mem_replicate h]; exact ⟨133, key5_tone _ (show 2 ≤ 16 by decide), by decide⟩) s h
  obtain ⟨t', k1, -, k2⟩ := h2 s rfl
  obtain rfl := ok_inj k1
  exact ⟨s', h1, (k2 badAmbe).2 sampleAmbe_bits fun id hid => absurd hid.1 (by decide)⟩

end Verif.Props
