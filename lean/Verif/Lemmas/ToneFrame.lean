import Verif.Lemmas.VoiceEq
import Verif.Lemmas.ToneWave
import Verif.Lemmas.RepeatHist

/-!
# Tone frames of AMBE 2450, from payload to samples
-/

namespace Verif.Model
open Verif Verif.Num Verif.Spec Verif.Gen Arith

variable {m : Libm}

theorem validTone_table : ∀ id : Fin 256, (decide (id.val = 5 ∨ id.val = 6) ||
    decide ((id.val ≥ 7 ∧ id.val ≤ 122) ∨ (id.val ≥ 128 ∧ id.val ≤ 163))) = (toneHz id.val).isSome := by decide +kernel

theorem validToneId_eq {d : Nat → Int} (hd : Bits 49 d) : validToneId d = .ok (toneHz (toneIdx2450 d)).isSome := by
  have hl := toneIdx_lt hd
  have key := validTone_table ⟨_, hl⟩
  unfold validToneId
  rw [orField_fine hd _ _ (by decide), ok_bind]
  change (if toneIdx2450 d = 5 ∨ toneIdx2450 d = 6 then _ else _) = _
  dsimp only at key
  rw [← key]
  split
  · rename_i h; rw [decide_eq_true h]; rfl
  · rename_i h
    rw [decide_eq_false h, Bool.false_or]
    change (if (toneIdx2450 d ≥ 7 ∧ toneIdx2450 d ≤ 122) ∨ (toneIdx2450 d ≥ 128 ∧ toneIdx2450 d ≤ 163) then _ else _) = _
    split
    · rename_i h; rw [decide_eq_true h]
    · rename_i h; rw [decide_eq_false h]

/-- The current parameters of a tone frame before the oscillators run. -/
def toneCur {F : Type} [Arith F] (errs2 : Int) (s : St F) : Parms F :=
  { ambePreparedCur errs2 s with repeat_ := 0, repeatCount := 0 }

theorem processTone (E : Env (IEEE m)) {C : Call (IEEE m)} (c0 : Option Int) {e : Int} (hC : e.toNat + 2 ≤ C.cap) {d : Nat → Int}
    (hd : Bits 49 d) (ht : ToneSig d) (he : e < 6) {s : St (IEEE m)} (hs : s.prev.mutingThreshold = mutingAmbe) :
    processAmbe2450 E C c0 e d s = (ambe2450Render E C 7 d ⟨toneCur e s, s.prev, s.enh, s.tls⟩ >>= fun o =>
      putOpt C.cap (List.replicate e.toNat '=' ++ ['T']) o.2.1 >>= fun str => putc C.cap str '\x00' >>= fun str =>
        .ok ⟨o.1, str, o.2.2⟩) := by
  unfold processAmbe2450
  rw [ambePrepare_same hs, ok_bind, putEq_ok (by omega), ok_bind, (decodeAmbe2450_eq hd E.lax e _ _ _).1 ⟨ht, he⟩, ok_bind]
  dsimp only
  rw [ambe2450Verdict, if_neg (by decide), if_pos (by decide), ok_bind]
  dsimp only
  rw [putOpt_ok (by rw [List.length_replicate]; omega), ok_bind]
  rfl

theorem processTone_valid (E : Env (IEEE m)) {C : Call (IEEE m)} (c0 : Option Int) {e : Int} (hC : e.toNat + 2 ≤ C.cap) {d : Nat → Int}
    (hd : Bits 49 d) (ht : ToneSig d) (he : e < 6) {s : St (IEEE m)} (hs : s.prev.mutingThreshold = mutingAmbe) {a b : ℚ}
    (h : toneHz (toneIdx2450 d) = some (a, b)) :
    processAmbe2450 E C c0 e d s = .ok ⟨fun n => toneOut (!(decide (a = b))) (toneGain (toneAmp2450 d : Int))
        (phaseAt (toUns32 s.cur.swn) (stepHz a) (n.val + 1)) (phaseAt (toUns32 s.cur.un) (if a = b then 0 else stepHz b) (n.val + 1)),
      List.replicate e.toNat '=' ++ ['T', '\x00'],
      ⟨{ toneCur e s with swn := toS32 (phaseAt (toUns32 s.cur.swn) (stepHz a) 160),
                          un := toS32 (phaseAt (toUns32 s.cur.un) (if a = b then 0 else stepHz b) 160) }, s.prev, s.enh, s.tls⟩⟩ := by
  rw [processTone E c0 hC hd ht he hs, ambe2450Render, if_neg (by decide), if_pos rfl, validToneId_eq hd, h, ok_bind]
  rw [if_pos (show (some (a, b)).isSome = true from rfl), synthesizeTonef_some hd h, ok_bind, ok_bind]
  dsimp only
  rw [putOpt_ok (by rw [List.length_append, List.length_replicate]; simp; omega), ok_bind,
    putc_ok (by simp; omega), ok_bind]
  simp only [Option.toList_none, List.append_nil, List.append_assoc, List.cons_append, List.nil_append]
  rfl

theorem processTone_invalid (E : Env (IEEE m)) {C : Call (IEEE m)} (c0 : Option Int) {e : Int} (hC : e.toNat + 2 ≤ C.cap) {d : Nat → Int}
    (hd : Bits 49 d) (ht : ToneSig d) (he : e < 6) {s : St (IEEE m)} (hs : s.prev.mutingThreshold = mutingAmbe)
    (hr : s.prev.repeatCount ≤ 3) (h : toneHz (toneIdx2450 d) = none) :
    processAmbe2450 E C c0 e d s = (synthesizeSpeechf E C.ps C.buf s.enh s.enh s.tls C.uvquality).map fun r =>
      ⟨r.out, List.replicate e.toNat '=' ++ ['T', '\x00'], ⟨toneCur e s, s.prev, r.cur, r.tls⟩⟩ := by
  rw [processTone E c0 hC hd ht he hs, ambe2450Render, if_neg (by decide), if_pos rfl, validToneId_eq hd, h, ok_bind]
  rw [if_neg (by decide), if_neg (by unfold isMaxFrameRepeat; rw [decide_eq_true_eq]; show ¬ s.prev.repeatCount ≥ 4; omega)]
  unfold replayEnhanced
  dsimp only
  generalize synthesizeSpeechf E C.ps C.buf s.enh s.enh s.tls C.uvquality = x
  cases x with
  | error e => rfl
  | ok r =>
    rw [ok_bind, ok_bind, ok_bind]
    dsimp only
    rw [putOpt_ok (by rw [List.length_append, List.length_replicate]; simp; omega), ok_bind,
      putc_ok (by simp; omega), ok_bind]
    simp only [Option.toList_none, List.append_nil, List.append_assoc, List.cons_append, List.nil_append]
    rfl

theorem toneCur_voiceEq {F : Type} [Arith F] (e : Int) (s : St F) : VoiceEqCur s.cur (toneCur e s) := rfl

theorem VoiceEqCur.trans {F : Type} [Arith F] {p q r : Parms F} (h1 : VoiceEqCur p q) (h2 : VoiceEqCur q r) : VoiceEqCur p r := by
  obtain ⟨_, _, _, _, _, _, _, _, rfl⟩ := voiceEqCur_cases h1
  obtain ⟨_, _, _, _, _, _, _, _, rfl⟩ := voiceEqCur_cases h2
  rfl

/-- State reached by tone frames with index `id`, `k` of them. -/
structure ToneRun (a b : ℚ) (k : Nat) (s s' : St (IEEE m)) : Prop where
  prev : s'.prev = s.prev
  enh : s'.enh = s.enh
  tls : s'.tls = s.tls
  cur : VoiceEqCur s.cur s'.cur
  swn : toUns32 s'.cur.swn = phaseAt (toUns32 s.cur.swn) (stepHz a) (160 * k)
  un : toUns32 s'.cur.un = phaseAt (toUns32 s.cur.un) (if a = b then 0 else stepHz b) (160 * k)

theorem runTones (E : Env (IEEE m)) {id : Nat} {a b : ℚ} (h : toneHz id = some (a, b)) {ops : List (AmbeOp (IEEE m))}
    (hops : ∀ op ∈ ops, ToneFrame id op) {s : St (IEEE m)} (hs : s.prev.mutingThreshold = mutingAmbe) :
    ∃ s', runOps (AmbeOp.run E) ops s = .ok s' ∧ ToneRun a b ops.length s s' := by
  induction ops generalizing s with
  | nil => exact ⟨s, rfl, rfl, rfl, rfl, rfl, (phaseAt_zero (toUns32_lt _) _).symm, (phaseAt_zero (toUns32_lt _) _).symm⟩
  | cons op ops ih =>
    have hop := hops op (.head _)
    obtain ⟨C, c0, e, d⟩ | _ := op
    · obtain ⟨hd, ht, he, hc, rfl⟩ := hop
      have hp := processTone_valid E c0 hc hd ht he hs h
      obtain ⟨c, hc'⟩ : ∃ c : Parms (IEEE m), c = { toneCur e s with
          swn := toS32 (phaseAt (toUns32 s.cur.swn) (stepHz a) 160),
          un := toS32 (phaseAt (toUns32 s.cur.un) (if a = b then 0 else stepHz b) 160) } := ⟨_, rfl⟩
      rw [← hc'] at hp
      obtain ⟨s', h1, h2⟩ := ih (fun x hx => hops x (.tail _ hx)) (s := ⟨c, s.prev, s.enh, s.tls⟩) hs
      refine ⟨s', ?_, h2.prev, h2.enh, h2.tls, VoiceEqCur.trans ?_ h2.cur, ?_, ?_⟩
      · rw [runOps, AmbeOp.run, hp, ok_bind]
        exact h1
      · rw [hc']; rfl
      · rw [h2.swn, hc']
        dsimp only
        rw [toUns32_toS32 (phaseAt_lt _ _ _), phaseAt_add, List.length_cons]
        congr 1; omega
      · rw [h2.un, hc']
        dsimp only
        rw [toUns32_toS32 (phaseAt_lt _ _ _), phaseAt_add, List.length_cons]
        congr 1; omega
    · exact hop.elim

/-! ## Two runs -/

theorem Rel.weaken {α β} {x : Exec α} {y : Exec β} {P Q : α → β → Prop} (h : Rel x y P) (hpq : ∀ a b, P a b → Q a b) :
    Rel x y Q := by
  cases h with
  | ok h => exact .ok (hpq _ _ h)
  | error => exact .error

theorem ambeOp_tw (E : Env (IEEE m)) (op : AmbeOp (IEEE m)) {s s' : St (IEEE m)} (h : VoiceEqSt s s') :
    Rel (op.run E s) (op.run E s') (TwOut (Bits 49 op.payload ∧ ∀ id, ToneTx id op → toneHz id = none)) := by
  obtain ⟨C, c0, e, d⟩ | ⟨C, e1, e, d⟩ := op
  · refine Rel.weaken (processAmbe2450_tw E C c0 e d h) fun o o' k => ⟨fun hsame => k.pcm ?_, k.str, k.st⟩
    obtain ⟨hd, hn⟩ := hsame
    replace hd : Bits 49 d := hd
    by_cases ht : ToneSig d ∧ e < 6
    · right
      rw [validToneId_eq hd, hn _ ⟨ht.1, ht.2, rfl⟩]
      rfl
    · left
      intro p q t r hr
      have k2 := (decodeAmbe2450_eq hd E.lax e p q t).2 ht
      by_cases c : 120 ≤ ambeFund2450 d ∧ ambeFund2450 d ≠ 124 ∧ ambeFund2450 d ≠ 125
      · rw [k2.1 c] at hr
        cases hr
        show (2 : Int) ≠ 7
        decide
      · rw [k2.2 (by omega)] at hr
        rw [(ambe2450Voice_frame _ _ _ _ _ _ _ hr).2.2.1]
        decide
  · exact Rel.weaken (processAmbe2400_tw E C e1 e d h) fun o o' k => ⟨fun _ => k.pcm trivial, k.str, k.st⟩

theorem runOps_tw (E : Env (IEEE m)) (ops : List (AmbeOp (IEEE m))) {s s' : St (IEEE m)} (h : VoiceEqSt s s') :
    Rel (runOps (AmbeOp.run E) ops s) (runOps (AmbeOp.run E) ops s') VoiceEqSt := by
  induction ops generalizing s s' with
  | nil => exact .ok h
  | cons op ops ih => exact (ambeOp_tw E op h).bind fun o o' k => ih (VoSt.toSt k.st)

end Verif.Model
