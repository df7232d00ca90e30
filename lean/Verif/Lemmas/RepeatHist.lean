import Verif.Lemmas.History

/-!
# Repeat counters over histories
-/

namespace Verif.Model
open Verif Verif.Gen Verif.Spec Verif.Num Arith
set_option linter.unusedSectionVars false

/-! ## Runs -/

theorem runOps_append {F : Type} [Arith F] {Op : Type} (step : Op → St F → Exec (Out F)) (xs ys : List Op) (s : St F) :
    runOps step (xs ++ ys) s = (runOps step xs s >>= runOps step ys) := by
  induction xs generalizing s with
  | nil => rfl
  | cons x xs ih =>
    show (step x s >>= fun o => runOps step (xs ++ ys) o.st) = ((step x s >>= fun o => runOps step xs o.st) >>= runOps step ys)
    cases h : step x s with
    | error e => rfl
    | ok o => exact ih o.st

theorem runHist_imbe {F : Type} [Arith F] (E : Env F) (ops : List (ImbeOp F)) (s : St F) :
    runHist E (ops.map Op.imbe) s = runOps (ImbeOp.run E) ops s := by
  induction ops generalizing s with
  | nil => rfl
  | cons x xs ih =>
    show ((do Except.ok (← x.run E s).st : Exec (St F)) >>= fun s => runHist E (xs.map Op.imbe) s) =
      (x.run E s >>= fun o => runOps (ImbeOp.run E) xs o.st)
    cases h : x.run E s with
    | error e => rfl
    | ok o => exact ih o.st

theorem runHist_ambe {F : Type} [Arith F] (E : Env F) (ops : List (AmbeOp F)) (s : St F) :
    runHist E (ops.map Op.ambe) s = runOps (AmbeOp.run E) ops s := by
  induction ops generalizing s with
  | nil => rfl
  | cons x xs ih =>
    show ((do Except.ok (← x.run E s).st : Exec (St F)) >>= fun s => runHist E (xs.map Op.ambe) s) =
      (x.run E s >>= fun o => runOps (AmbeOp.run E) xs o.st)
    cases h : x.run E s with
    | error e => rfl
    | ok o => exact ih o.st

variable {m : Libm}

/-! ## IMBE -/

/-- The stored previous frame agrees with the abstract counters. -/
structure ImbeInv (a : ImbeAbs (IEEE m)) (s : St (IEEE m)) : Prop where
  count : s.prev.repeatCount = ((a.streak % 5 : Nat) : Int)
  rate : s.prev.errorRate = a.rate
  thr : s.prev.mutingThreshold = mutingImbe
  thrCur : s.cur.mutingThreshold = mutingImbe
  thrEnh : s.enh.mutingThreshold = mutingImbe

theorem imbeInv_init (t : Tls (IEEE m)) : ImbeInv ImbeAbs.init (⟨imbeInit 39, imbeInit 39, imbeInit 39, t⟩ : St (IEEE m)) :=
  ⟨rfl, rfl, rfl, rfl, rfl⟩

theorem imbeInv_step {E : Env (IEEE m)} {op : ImbeOp (IEEE m)} (hd : Bits 88 op.d) {s : St (IEEE m)} {o : Out (IEEE m)}
    {a : ImbeAbs (IEEE m)} (hI : ImbeInv a s) (h : op.run E s = .ok o) : ImbeInv (a.next op) o.st := by
  have st := imbeOp_step hd h
  rw [hI.rate] at st
  have key : o.st.prev.repeatCount = (((a.next op).streak % 5 : Nat) : Int) ∧ o.st.prev.errorRate = (a.next op).rate ∧
      o.st.prev.mutingThreshold = mutingImbe := by
    have hc := hI.count
    unfold ImbeAbs.next
    by_cases hr : a.isRepeat op = true
    · rw [if_pos hr]
      by_cases h4 : a.streak % 5 = 4
      · obtain ⟨c, L, _, h1, h2, _⟩ := st.reset hr (by omega)
        rw [h1, if_pos h4]
        refine ⟨?_, ?_, rfl⟩
        · show (0 : Int) = _
          dsimp only; omega
        · show c.errorRate = _
          rw [h2, hI.rate]
      · obtain ⟨h1, _⟩ := st.last hr (by omega)
        rw [if_neg h4]
        refine ⟨?_, ?_, ?_⟩
        · rw [h1]; dsimp only; omega
        · rw [h1]; exact hI.rate
        · rw [h1]; exact hI.thr
    · rw [if_neg hr]
      rw [Bool.not_eq_true] at hr
      obtain ⟨h1, _, h3, _, h5⟩ := st.good hr
      exact ⟨h1, by rw [h3, hI.rate], h5⟩
  obtain ⟨k1, k2, k3⟩ := key
  have hcur : o.st.cur.mutingThreshold = mutingImbe := by rw [st.cur]; exact k3
  exact ⟨k1, k2, k3, hcur, by rw [st.enh]; exact hcur⟩

theorem imbeInv_run {E : Env (IEEE m)} {ops : List (ImbeOp (IEEE m))} (hd : ∀ op ∈ ops, Bits 88 op.d)
    {s s' : St (IEEE m)} {a : ImbeAbs (IEEE m)} (hI : ImbeInv a s) (h : runOps (ImbeOp.run E) ops s = .ok s') :
    ImbeInv (ops.foldl ImbeAbs.next a) s' := by
  induction ops generalizing s a with
  | nil => cases h; exact hI
  | cons op ops ih =>
    obtain ⟨o, h1, h2⟩ := bind_ok h
    exact ih (fun x hx => hd x (.tail _ hx)) (imbeInv_step (hd op (.head _)) hI h1) h2

/-- Muting of a frame in terms of the counters after it. -/
theorem imbeInv_muted {a : ImbeAbs (IEEE m)} {s : St (IEEE m)} (h : ImbeInv a s) :
    (isMaxFrameRepeat s.prev || requiresMuting s.prev) = decide a.Muted := by
  unfold isMaxFrameRepeat requiresMuting
  rw [h.count, h.rate, h.thr]
  rw [Bool.eq_iff_iff, Bool.or_eq_true, decide_eq_true_eq, decide_eq_true_eq]
  unfold ImbeAbs.Muted
  rw [show (mutingImbe : IEEE m) = lit 875 10000 from rfl]
  refine or_congr ?_ Iff.rfl
  omega

theorem mem_status {k : Nat} {c : Char} {u : List Char} (h1 : c ≠ '=') (h2 : c ≠ '\x00') :
    c ∈ List.replicate k '=' ++ u ++ ['\x00'] ↔ c ∈ u := by
  simp only [List.mem_append, List.mem_replicate, List.mem_singleton]
  tauto

/-! ## AMBE -/

theorem ambeInv_run {E : Env (IEEE m)} {ops : List (AmbeOp (IEEE m))} (hd : ∀ op ∈ ops, Bits 49 op.payload)
    {s s' : St (IEEE m)} {n : Nat} (hI : AmbeInv n s) (h : runOps (AmbeOp.run E) ops s = .ok s') :
    AmbeInv ((ops.map AmbeOp.kind).foldl ambeNext n) s' := by
  induction ops generalizing s n with
  | nil => cases h; exact hI
  | cons op ops ih =>
    obtain ⟨o, h1, h2⟩ := bind_ok h
    exact ih (fun x hx => hd x (.tail _ hx)) (ambeOp_step (hd op (.head _)) hI h1).inv h2

theorem ambeNext_le {n : Nat} (h : n ≤ 3) (k : Kind) : ambeNext n k ≤ 3 := by
  unfold ambeNext
  cases k <;> dsimp only <;> (try split) <;> omega

theorem ambeFold_le {n : Nat} (h : n ≤ 3) (ks : List Kind) : ks.foldl ambeNext n ≤ 3 := by
  induction ks generalizing n with
  | nil => exact h
  | cons k ks ih => exact ih (ambeNext_le h k)

theorem ambeFold_replicate (k : Nat) : (List.replicate k Kind.repeat_).foldl ambeNext 0 = k % 4 := by
  induction k with
  | zero => rfl
  | succ k ih =>
    rw [List.replicate_succ', List.foldl_append, ih]
    show (if k % 4 = 3 then 0 else k % 4 + 1) = (k + 1) % 4
    split <;> omega

end Verif.Model
