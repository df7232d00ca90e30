import Verif.Lemmas.SafeIeee

/-!
# Old buffer contents and buffer sizes do not matter
-/

namespace Verif.Model
open Verif Verif.Gen Verif.Spec Verif.Num Arith
set_option linter.unusedSectionVars false

/-! ## Loops that assign every element -/

section
variable {α σ : Type} {n : Nat}

/-- A loop over the whole array that assigns element `i` in step `i`. -/
def fillAll (n : Nat) (g : Nat → σ → Exec (α × σ)) (a : Arr n α) (s : σ) : Exec (Arr n α × σ) :=
  loop n (fun i (p : Arr n α × σ) => do
    let v ← g i p.2
    .ok (← p.1.wr i v.1, v.2)) (a, s)

theorem fillAll_indep (g : Nat → σ → Exec (α × σ)) (a b : Arr n α) (s : σ) : fillAll n g a s = fillAll n g b s := by
  unfold fillAll
  generalize hf : (fun i (p : Arr n α × σ) => (do
    let v ← g i p.2
    .ok (← p.1.wr i v.1, v.2) : Exec (Arr n α × σ))) = f
  have key : ∀ k, k ≤ n → (∃ e, loop k f (a, s) = .error e ∧ loop k f (b, s) = .error e) ∨
      ∃ x y t, loop k f (a, s) = .ok (x, t) ∧ loop k f (b, s) = .ok (y, t) ∧ ∀ j : Fin n, j.val < k → x j = y j := by
    intro k
    induction k with
    | zero => exact fun _ => .inr ⟨a, b, s, rfl, rfl, fun j h => absurd h (by omega)⟩
    | succ k ih =>
      intro hk
      rw [loop_succ, loop_succ]
      rcases ih (by omega) with ⟨e, h1, h2⟩ | ⟨x, y, t, h1, h2, h3⟩
      · exact .inl ⟨e, by rw [h1]; rfl, by rw [h2]; rfl⟩
      · rw [h1, h2, ok_bind, ok_bind, ← hf]
        dsimp only
        cases hg : g k t with
        | error e => exact .inl ⟨e, rfl, rfl⟩
        | ok v =>
          simp only [ok_bind, Arr.wr_nat (show k < n by omega)]
          refine .inr ⟨_, _, _, rfl, rfl, fun j hj => ?_⟩
          by_cases h : j.val = k
          · rw [Arr.set_same h, Arr.set_same h]
          · rw [Arr.set_ne h, Arr.set_ne h]
            exact h3 j (by omega)
  rcases key n (le_refl n) with ⟨e, h1, h2⟩ | ⟨x, y, t, h1, h2, h3⟩
  · rw [h1, h2]
  · rw [h1, h2, show x = y from funext fun j => h3 j j.isLt]

/-- A loop over the whole array that assigns element `i` in step `i`, without further state. -/
theorem loop_wr_indep (g : Nat → Exec α) (a b : Arr n α) :
    loop n (fun i (p : Arr n α) => do p.wr i (← g i)) a = loop n (fun i (p : Arr n α) => do p.wr i (← g i)) b := by
  have key : ∀ c : Arr n α, (do .ok (← loop n (fun i (p : Arr n α) => do p.wr i (← g i)) c, ()) : Exec (Arr n α × Unit)) =
      fillAll n (fun i (_ : Unit) => do .ok (← g i, ())) c () := by
    intro c
    unfold fillAll
    have : ∀ k, (do .ok (← loop k (fun i (p : Arr n α) => do p.wr i (← g i)) c, ()) : Exec (Arr n α × Unit)) =
        loop k (fun i (p : Arr n α × Unit) => do
          let v ← (do .ok (← g i, ()) : Exec (α × Unit))
          .ok (← p.1.wr i v.1, v.2)) (c, ()) := by
      intro k
      induction k with
      | zero => rfl
      | succ k ih =>
        rw [loop_succ, loop_succ, ← ih]
        cases loop k (fun i (p : Arr n α) => do p.wr i (← g i)) c with
        | error e => rfl
        | ok x =>
          simp only [ok_bind]
          cases g k with
          | error e => rfl
          | ok v => simp only [ok_bind]
    exact this n
  have h := (key a).trans ((fillAll_indep _ a b ()).trans (key b).symm)
  generalize loop n (fun i (p : Arr n α) => do p.wr i (← g i)) a = x at h
  generalize loop n (fun i (p : Arr n α) => do p.wr i (← g i)) b = y at h
  cases x with
  | error e => cases y with
    | error e' => cases h; rfl
    | ok y => cases h
  | ok x => cases y with
    | error e' => cases h
    | ok y => cases h; rfl

/-- Success of such a loop element by element. -/
theorem loop_wr_iff (g : Nat → Exec α) (a r : Arr n α) :
    loop n (fun i (p : Arr n α) => do p.wr i (← g i)) a = .ok r ↔ ∀ j : Fin n, g j.val = .ok (r j) := by
  constructor
  · intro h
    have key : ∀ k, k ≤ n → ∀ x, loop k (fun i (p : Arr n α) => do p.wr i (← g i)) a = .ok x →
        ∀ j : Fin n, j.val < k → g j.val = .ok (x j) := by
      intro k
      induction k with
      | zero => intro _ x _ j hj; omega
      | succ k ih =>
        intro hk x hx j hj
        rw [loop_succ] at hx
        obtain ⟨y, h1, h2⟩ := bind_ok hx
        obtain ⟨v, h3, h4⟩ := bind_ok h2
        rw [Arr.wr_nat (show k < n by omega)] at h4
        cases h4
        by_cases e : j.val = k
        · rw [Arr.set_same e, e]; exact h3
        · rw [Arr.set_ne e]
          exact ih (by omega) y h1 j (by omega)
    exact fun j => key n (le_refl n) r h j j.isLt
  · intro h
    have key : ∀ k, k ≤ n → ∃ x, loop k (fun i (p : Arr n α) => do p.wr i (← g i)) a = .ok x ∧
        ∀ j : Fin n, j.val < k → x j = r j := by
      intro k
      induction k with
      | zero => exact fun _ => ⟨a, rfl, fun j hj => absurd hj (by omega)⟩
      | succ k ih =>
        intro hk
        obtain ⟨x, h1, h2⟩ := ih (by omega)
        rw [loop_succ, h1, ok_bind, h ⟨k, by omega⟩, ok_bind, Arr.wr_nat (show k < n by omega)]
        refine ⟨_, rfl, fun j hj => ?_⟩
        by_cases e : j.val = k
        · rw [Arr.set_same e]
          exact congrArg r (Fin.ext e.symm)
        · rw [Arr.set_ne e]
          exact h2 j (by omega)
    obtain ⟨x, h1, h2⟩ := key n (le_refl n)
    rw [h1, show x = r from funext fun j => h2 j j.isLt]
end

variable {F : Type} [Arith F]

theorem comfortNoisef_indep (a b : Arr 160 F) (t : Tls F) : comfortNoisef a t = comfortNoisef b t := by
  have e : ∀ c : Arr 160 F, comfortNoisef c t =
      fillAll 160 (fun _ t => .ok (comfortSample (javaNext24 t).1, (javaNext24 t).2)) c t := by
    intro c
    unfold comfortNoisef fillAll
    refine loop_congr fun i hi => funext fun s => ?_
    dsimp only
    rw [ok_bind]
  rw [e, e]
  exact fillAll_indep _ a b t

theorem floatToShort_indep (inp : Arr 160 F) (a b : Arr 160 Int) : floatToShort inp a = floatToShort inp b := by
  have e : ∀ c : Arr 160 Int, floatToShort inp c =
      loop 160 (fun i (p : Arr 160 Int) => do p.wr i (← (do shortSample (← inp.rd i)))) c := by
    intro c
    unfold floatToShort
    refine loop_congr fun i hi => funext fun s => ?_
    simp only [Arr.rd_nat hi, ok_bind]
  rw [e, e]
  exact loop_wr_indep _ a b

theorem floatToShort_iff (inp : Arr 160 F) (a r : Arr 160 Int) :
    floatToShort inp a = .ok r ↔ ∀ i, shortSample (inp i) = .ok (r i) := by
  have e : floatToShort inp a = loop 160 (fun i (p : Arr 160 Int) => do p.wr i (← (do shortSample (← inp.rd i)))) a := by
    unfold floatToShort
    refine loop_congr fun i hi => funext fun s => ?_
    simp only [Arr.rd_nat hi, ok_bind]
  rw [e, loop_wr_iff]
  refine forall_congr' fun j => ?_
  rw [Arr.rd_nat j.isLt, ok_bind]

theorem renderTonef_indep (a b : Arr 160 F) (cur : Parms F) (f1 f2 : F) (amp : Int) :
    renderTonef a cur f1 f2 amp = renderTonef b cur f1 f2 amp := by
  unfold renderTonef
  split
  · rfl
  · dsimp only
    refine congrArg _ (funext fun s1 => ?_)
    refine congrArg _ (funext fun s2 => ?_)
    have e : ∀ c : Arr 160 F, (loop 160 (fun n (s : Arr 160 F × Nat × Nat) =>
        (if dualTone f1 f2 then do
          .ok (← s.1.wr n (((lit 5 10 *ᶠ toneGain amp) *ᶠ toneSample ((s.2.1 + s1) % 4294967296)) +ᶠ
            ((lit 5 10 *ᶠ toneGain amp) *ᶠ toneSample ((s.2.2 + s2) % 4294967296))), (s.2.1 + s1) % 4294967296,
            (s.2.2 + s2) % 4294967296)
        else do
          .ok (← s.1.wr n (toneGain amp *ᶠ toneSample ((s.2.1 + s1) % 4294967296)), (s.2.1 + s1) % 4294967296, s.2.2) :
          Exec (Arr 160 F × Nat × Nat))) (c, toUns32 cur.swn, toUns32 cur.un)) =
        fillAll 160 (fun _ (s : Nat × Nat) => if dualTone f1 f2 then .ok
          (((lit 5 10 *ᶠ toneGain amp) *ᶠ toneSample ((s.1 + s1) % 4294967296)) +ᶠ
            ((lit 5 10 *ᶠ toneGain amp) *ᶠ toneSample ((s.2 + s2) % 4294967296)),
            ((s.1 + s1) % 4294967296, (s.2 + s2) % 4294967296))
          else .ok (toneGain amp *ᶠ toneSample ((s.1 + s1) % 4294967296), ((s.1 + s1) % 4294967296, s.2))) c
          (toUns32 cur.swn, toUns32 cur.un) := by
      intro c
      unfold fillAll
      refine loop_congr fun i hi => funext fun s => ?_
      cases dualTone f1 f2
      · simp only [Bool.false_eq_true, if_false, ok_bind]
      · simp only [if_true, ok_bind]
    rw [e, e, fillAll_indep _ a b]

/-- Two calls that differ only in things the code must not depend on: the status buffer size, the old sample buffer
contents and `uvquality`. -/
structure SameCall (C D : Call F) : Prop where
  pc : C.pc = D.pc
  ps : C.ps = D.ps

theorem synthesizeSpeechf_indep (E : Env F) (addr : Nat) (a b : Arr 160 F) (cur prev : Parms F) (t : Tls F) (u v : Int) :
    synthesizeSpeechf E addr a cur prev t u = synthesizeSpeechf E addr b cur prev t v := by
  unfold synthesizeSpeechf
  refine congrArg _ (funext fun q => ?_)
  dsimp only
  split
  · rw [comfortNoisef_indep a b]
  · rfl

theorem speak_indep (E : Env F) {C D : Call F} (h : SameCall C D) (s : St F) : speak E C s = speak E D s := by
  unfold speak
  rw [h.pc]
  refine congrArg _ (funext fun q => ?_)
  dsimp only
  rw [synthesizeSpeechf_indep E D.pc C.buf D.buf q.1 s.enh q.2 C.uvquality D.uvquality]

theorem noiseAndReset_indep {C D : Call F} (s : St F) : noiseAndReset C s = noiseAndReset D s := by
  unfold noiseAndReset
  rw [comfortNoisef_indep C.buf D.buf]

theorem replayEnhanced_indep (E : Env F) {C D : Call F} (h : SameCall C D) (s : St F) :
    replayEnhanced E C s = replayEnhanced E D s := by
  unfold replayEnhanced
  rw [h.ps, synthesizeSpeechf_indep E D.ps C.buf D.buf s.enh s.enh s.tls C.uvquality D.uvquality]

theorem synthesizeTonef_indep (a b : Arr 160 F) (d : Nat → Int) (cur : Parms F) :
    synthesizeTonef a d cur = synthesizeTonef b d cur := by
  unfold synthesizeTonef
  simp only [renderTonef_indep a b]

theorem synthesizeTonefdstar_indep (a b : Arr 160 F) (d : Nat → Int) (cur : Parms F) (id : Int) :
    synthesizeTonefdstar a d cur id = synthesizeTonefdstar b d cur id := by
  unfold synthesizeTonefdstar
  simp only [renderTonef_indep a b]

theorem ambe2450Render_indep (E : Env F) {C D : Call F} (h : SameCall C D) (bad : Int) (d : Nat → Int) (s : St F) :
    ambe2450Render E C bad d s = ambe2450Render E D bad d s := by
  unfold ambe2450Render
  rw [speak_indep E h, noiseAndReset_indep (C := C) (D := D), synthesizeTonef_indep C.buf D.buf, replayEnhanced_indep E h,
    comfortNoisef_indep C.buf D.buf]

theorem ambe2400Render_indep (E : Env F) {C D : Call F} (h : SameCall C D) (bad : Int) (s : St F) :
    ambe2400Render E C bad s = ambe2400Render E D bad s := by
  unfold ambe2400Render
  rw [speak_indep E h, noiseAndReset_indep (C := C) (D := D), comfortNoisef_indep C.buf D.buf]

/-! ## Process functions -/

theorem putEq_rep {cap : Nat} {n : Int} (h : n.toNat + 3 ≤ cap) : putEq cap n = .ok (List.replicate n.toNat '=') :=
  putEq_ok (by omega)

theorem processImbe4400_indep (E : Env F) {C D : Call F} (h : SameCall C D) (c0 : Option Int) {errs2 : Int}
    (hC : errs2.toNat + 3 ≤ C.cap) (hD : errs2.toNat + 3 ≤ D.cap) (d : Nat → Int) (s : St F) :
    processImbe4400 E C c0 errs2 d s = processImbe4400 E D c0 errs2 d s := by
  unfold processImbe4400
  dsimp only
  rw [putEq_rep hC, putEq_rep hD, ok_bind, ok_bind]
  refine congrArg _ (funext fun r => ?_)
  refine congrArg _ (funext fun cur => ?_)
  generalize imbeRepeatRequired r.bad c0 errs2 r.cur.errorRate = rep
  have e : ∀ (c : Nat), errs2.toNat + 3 ≤ c → (if rep then putc c (List.replicate errs2.toNat '=') 'R' else .ok (List.replicate errs2.toNat '=')) =
      (.ok (List.replicate errs2.toNat '=' ++ if rep then ['R'] else []) : Exec (List Char)) := by
    intro c hc
    cases rep
    · simp
    · rw [if_pos rfl, if_pos rfl, putc_ok (by rw [List.length_replicate]; omega)]
  rw [e _ hC, e _ hD, ok_bind, ok_bind, speak_indep E h]
  refine congrArg _ (funext fun o => ?_)
  have hl : (List.replicate errs2.toNat '=' ++ if rep then ['R'] else []).length ≤ errs2.toNat + 1 := by
    cases rep <;> simp
  generalize (List.replicate errs2.toNat '=' ++ if rep then ['R'] else []) = str at hl
  generalize (isMaxFrameRepeat cur || requiresMuting cur) = mu
  have e2 : ∀ (c : Nat), errs2.toNat + 3 ≤ c → (if mu then putc c str 'M' else .ok str) =
      (.ok (str ++ if mu then ['M'] else []) : Exec (List Char)) := by
    intro c hc
    cases mu
    · simp
    · rw [if_pos rfl, if_pos rfl, putc_ok (by omega)]
  rw [e2 _ hC, e2 _ hD, ok_bind, ok_bind]
  have hl2 : (str ++ if mu then ['M'] else []).length ≤ errs2.toNat + 2 := by
    rw [List.length_append]
    cases mu <;> simp <;> omega
  rw [putc_ok (by omega), putc_ok (by omega)]

theorem putOpt_len {s : List Char} {c : Option Char} {n : Nat} (h : s.length ≤ n) : (s ++ c.toList).length ≤ n + 1 := by
  rw [List.length_append]
  cases c <;> simp <;> omega

theorem processAmbe2450_indep (E : Env F) {C D : Call F} (h : SameCall C D) (c0 : Option Int) {errs2 : Int}
    (hC : errs2.toNat + 3 ≤ C.cap) (hD : errs2.toNat + 3 ≤ D.cap) (d : Nat → Int) (s : St F) :
    processAmbe2450 E C c0 errs2 d s = processAmbe2450 E D c0 errs2 d s := by
  unfold processAmbe2450
  refine congrArg _ (funext fun s1 => ?_)
  rw [putEq_rep hC, putEq_rep hD, ok_bind, ok_bind]
  refine congrArg _ (funext fun r => ?_)
  refine congrArg _ (funext fun v => ?_)
  have h0 : (List.replicate errs2.toNat '=').length ≤ errs2.toNat := by rw [List.length_replicate]
  rw [putOpt_ok (by omega), putOpt_ok (by omega), ok_bind, ok_bind, ambe2450Render_indep E h]
  refine congrArg _ (funext fun o => ?_)
  have h1 := putOpt_len (c := v.2) h0
  rw [putOpt_ok (by omega), putOpt_ok (by omega), ok_bind, ok_bind]
  have h2 := putOpt_len (c := o.2.1) h1
  rw [putc_ok (by omega), putc_ok (by omega)]

theorem processAmbe2400_indep (E : Env F) {C D : Call F} (h : SameCall C D) (errs : Int) {errs2 : Int}
    (hC : errs2.toNat + 3 ≤ C.cap) (hD : errs2.toNat + 3 ≤ D.cap) (d : Nat → Int) (s : St F) :
    processAmbe2400 E C errs errs2 d s = processAmbe2400 E D errs errs2 d s := by
  unfold processAmbe2400
  refine congrArg _ (funext fun s1 => ?_)
  rw [putEq_rep hC, putEq_rep hD, ok_bind, ok_bind]
  refine congrArg _ (funext fun r => ?_)
  have h0 : (List.replicate errs2.toNat '=').length ≤ errs2.toNat := by rw [List.length_replicate]
  have hv : ∀ X : Call F, errs2.toNat + 3 ≤ X.cap → X.pc = C.pc → X.ps = C.ps →
      ((ambe2400Verdict X r.bad errs errs2 d r.cur r.prev >>= fun v =>
        putOpt X.cap (List.replicate errs2.toNat '=') v.letter >>= fun str =>
        ambe2400Render E { X with buf := v.buf } r.bad ⟨v.cur, v.prev, s1.enh, r.tls⟩ >>= fun o =>
        putOpt X.cap str o.2.1 >>= fun str => putc X.cap str '\x00' >>= fun str => .ok ⟨o.1, str, o.2.2⟩) : Exec (Out F)) =
      (ambe2400Verdict C r.bad errs errs2 d r.cur r.prev >>= fun v =>
        ambe2400Render E C r.bad ⟨v.cur, v.prev, s1.enh, r.tls⟩ >>= fun o =>
        .ok ⟨o.1, List.replicate errs2.toNat '=' ++ v.letter.toList ++ o.2.1.toList ++ ['\x00'], o.2.2⟩) := by
    intro X hX e1 e2
    have tail : ∀ v w : Verdict2400 F, v.letter = w.letter → v.cur = w.cur → v.prev = w.prev →
        ((putOpt X.cap (List.replicate errs2.toNat '=') v.letter >>= fun str =>
          ambe2400Render E { X with buf := v.buf } r.bad ⟨v.cur, v.prev, s1.enh, r.tls⟩ >>= fun o =>
          putOpt X.cap str o.2.1 >>= fun str => putc X.cap str '\x00' >>= fun str => .ok ⟨o.1, str, o.2.2⟩) : Exec (Out F)) =
        (ambe2400Render E C r.bad ⟨w.cur, w.prev, s1.enh, r.tls⟩ >>= fun o =>
          .ok ⟨o.1, List.replicate errs2.toNat '=' ++ w.letter.toList ++ o.2.1.toList ++ ['\x00'], o.2.2⟩) := by
      intro v w g1 g2 g3
      rw [g1, g2, g3, putOpt_ok (by omega), ok_bind, ambe2400Render_indep E (C := { X with buf := v.buf }) (D := C) ⟨e1, e2⟩]
      refine congrArg _ (funext fun o => ?_)
      have h1 := putOpt_len (c := w.letter) h0
      rw [putOpt_ok (by omega), ok_bind]
      have h2 := putOpt_len (c := o.2.1) h1
      rw [putc_ok (by omega)]
      rfl
    unfold ambe2400Verdict
    split
    · cases setAmbeErasureParms { r.cur with repeat_ := 0, repeatCount := 0 } r.prev with
      | error e => rfl
      | ok c => exact tail ⟨some 'E', X.buf, c, r.prev⟩ ⟨some 'E', C.buf, c, r.prev⟩ rfl rfl rfl
    · split
      · exact tail ⟨some 'T', X.buf, _, r.prev⟩ ⟨some 'T', C.buf, _, r.prev⟩ rfl rfl rfl
      · split
        · rw [synthesizeTonefdstar_indep X.buf C.buf]
          cases synthesizeTonefdstar C.buf d r.cur r.bad with
          | error e => rfl
          | ok c => exact tail ⟨none, c.1, c.2, c.2⟩ ⟨none, c.1, c.2, c.2⟩ rfl rfl rfl
        · split
          · cases repeatLast r.prev with
            | error e => rfl
            | ok c => exact tail ⟨some 'R', X.buf, c, r.prev⟩ ⟨some 'R', C.buf, c, r.prev⟩ rfl rfl rfl
          · exact tail ⟨none, X.buf, _, r.prev⟩ ⟨none, C.buf, _, r.prev⟩ rfl rfl rfl
  exact (hv C hC rfl rfl).trans (hv D hD h.pc.symm h.ps.symm).symm

/-- `*errs` of the 2400 data entry point is inert: it decides only whether a tone is rendered that is then overwritten. -/
theorem processAmbe2400_errs {m : Libm} (E : Env (IEEE m)) (C : Call (IEEE m)) (errs errs' errs2 : Int) (d : Nat → Int)
    (s : St (IEEE m)) : processAmbe2400 E C errs errs2 d s = processAmbe2400 E C errs' errs2 d s := by
  have key : ∀ errs, processAmbe2400 E C errs errs2 d s = processAmbe2400 E C 2 errs2 d s := by
    intro errs
    unfold processAmbe2400
    refine congrArg _ (funext fun s1 => ?_)
    refine congrArg _ (funext fun str => ?_)
    refine congrArg _ (funext fun r => ?_)
    by_cases h : r.bad ≥ 7 ∧ r.bad ≤ 122 ∧ errs < 2 ∧ errs2 < 3
    · obtain ⟨h1, h2, h3, h4⟩ := h
      unfold ambe2400Verdict
      rw [if_neg (by omega), if_neg (by omega), if_pos ⟨h1, h2, h3, h4⟩, if_neg (by omega), if_neg (by omega),
        if_neg (by omega), if_neg (by omega)]
      obtain ⟨q, hq, _⟩ := synthesizeTonefdstar_fine d C.buf r.cur (id := r.bad) (by omega) (by omega)
      rw [hq]
      simp only [ok_bind, putOpt]
      unfold ambe2400Render
      rw [if_neg (by omega), if_neg (by omega), if_neg (by omega), if_neg (by omega)]
      unfold noiseAndReset
      simp only [initAmbeState_eq, ok_bind]
      rw [comfortNoisef_indep q.1 C.buf]
    · have e : ambe2400Verdict C r.bad errs errs2 d r.cur r.prev = ambe2400Verdict C r.bad 2 errs2 d r.cur r.prev := by
        unfold ambe2400Verdict
        rw [if_neg h, if_neg (show ¬ (r.bad ≥ 7 ∧ r.bad ≤ 122 ∧ (2 : Int) < 2 ∧ errs2 < 3) by omega)]
      rw [e]
  rw [key errs, key errs']

end Verif.Model
