import Verif.Lemmas.SafeIeee
import Verif.Spec.History

/-!
# Histories: the invariant, and absence of undefined operations
-/

namespace Verif.Model
open Verif Verif.Gen Verif.Spec Verif.Num Arith
set_option linter.unusedSectionVars false

variable {F : Type} [Arith F] [Base F] [Decodes F]

theorem initMbeState_ieee {m : Libm} (s : St (IEEE m)) :
    initMbeState s = .ok ⟨imbeInit 39, imbeInit 39, imbeInit 39, s.tls⟩ := Base.init s

theorem fresh_cases {s : St F} (h : Fresh s) : s.tls = Tls.start ∧
    (s = ⟨imbeInit 39, imbeInit 39, imbeInit 39, Tls.start⟩ ∨ s = ⟨ambeInit, ambeInit, ambeInit, Tls.start⟩) := by
  obtain ⟨s0, h0, h | h⟩ := h
  · rw [Base.init, h0] at h; cases h; exact ⟨rfl, .inl rfl⟩
  · rw [initAmbeState_eq, h0] at h; cases h; exact ⟨rfl, .inr rfl⟩

theorem tls_start_uv : (Tls.start : Tls F).uvSeedState ≤ 2 ^ 24 := by
  show 3147 ≤ 2 ^ 24
  decide

theorem fresh_ok {s : St F} (h : Fresh s) : StOk s ∧ LimAll 20480 s := by
  rcases (fresh_cases h).2 with rfl | rfl
  · exact ⟨stOk_imbeInit tls_start_uv, imbeInit_lim (le_refl _), imbeInit_lim (le_refl _), imbeInit_lim (le_refl _)⟩
  · exact ⟨stOk_ambeInit tls_start_uv, ambeInit_lim (le_refl _), ambeInit_lim (le_refl _), ambeInit_lim (le_refl _)⟩

theorem seed_uv (n : Nat) (t : Tls F) : (setThreadRngSeed n t).uvSeedState ≤ 2 ^ 24 := by
  have : (setThreadRngSeed n t).uvSeedState < 53125 := by
    unfold setThreadRngSeed
    exact Nat.mod_lt _ (by decide)
  omega

/-- Either the invariant alone (anything is tolerated), or the invariant with the bounds. -/
theorem op_u (hm : Decodes.Acc F) {U : UB → Prop} {E : Env F} (hlax : E.lax = true ∨ U .oobRead) {op : Op F}
    (hd : op.Payload) {s : St F} (hs : StOk s) {T : Int} (hT : 20480 ≤ T)
    (hb : (op.Counts 7000000 ∧ LimAll T s ∧ T ≤ 2147477647) ∨ U .oobWrite ∧ U .signedOverflow) :
    OkU U (op.run E s) fun s' => StOk s' ∧ (op.Counts 7000000 → LimAll T s → LimAll (T + 6000) s') := by
  have stp : ∀ {e : Int} {cap : Nat} {x : Exec (Out F)},
      ((0 ≤ e ∧ e ≤ 7000000 ∧ e.toNat + 3 ≤ cap) ∧ LimAll T s ∧ T ≤ 2147477647) ∨ U .oobWrite ∧ U .signedOverflow →
      ((e.toNat + 3 ≤ cap ∨ U .oobWrite) → (NoOverflow e s ∨ U .signedOverflow) → StepOk U e s x) →
      OkU U (do Except.ok (← x).st) fun s' => StOk s' ∧ ((0 ≤ e ∧ e ≤ 7000000 ∧ e.toNat + 3 ≤ cap) → LimAll T s → LimAll (T + 6000) s') := by
    intro e cap x hb h
    have h1 : e.toNat + 3 ≤ cap ∨ U .oobWrite := hb.imp (fun h => h.1.2.2) (fun h => h.1)
    have h2 : NoOverflow e s ∨ U .signedOverflow := by
      refine hb.imp (fun h => ⟨⟨h.2.1.cur.mono h.2.2, h.2.1.prev.mono h.2.2, h.2.1.enh.mono h.2.2⟩, h.1.1, h.1.2.1⟩) (fun h => h.2)
    exact OkU.bind (h h1 h2) fun o ho => OkU.ok ⟨ho.1, fun hc hl => ho.2 T hT hl hc.1 hc.2.1⟩
  cases op with
  | imbe op =>
    refine stp hb fun h1 h2 => ?_
    obtain ⟨C, cs, e, d⟩ := op
    cases cs with
    | none => exact processImbe4400_u hlax none h1 hd hs h2
    | some c =>
      have hs' : StOk { s with cur := { s.cur with errorCount4 := c.2 } } :=
        ⟨hs.cur.congr rfl rfl rfl rfl, hs.prev, hs.enh, hs.rep, hs.uv⟩
      have hl : ∀ T, LimAll T s → LimAll T { s with cur := { s.cur with errorCount4 := c.2 } } :=
        fun T h => ⟨h.cur.congr rfl rfl, h.prev, h.enh⟩
      refine (processImbe4400_u hlax (some c.1) h1 hd hs' (h2.imp (fun h => ⟨hl _ h.1, h.2⟩) id)).mono ?_
      exact fun o ho => ⟨ho.1, fun T hT h a b => ho.2 T hT (hl T h) a b⟩
  | ambe op =>
    cases op with
    | v2450 C c0 e d => exact stp hb fun h1 h2 => processAmbe2450_u hlax c0 h1 hd hs h2
    | v2400 C c0 e d => exact stp hb fun h1 h2 => processAmbe2400_u hm hlax c0 h1 hd hs h2
  | initMbe =>
    show OkU U (initMbeState s) _
    rw [Base.init]
    exact OkU.ok ⟨stOk_imbeInit hs.uv, fun _ _ => ⟨imbeInit_lim (by omega), imbeInit_lim (by omega), imbeInit_lim (by omega)⟩⟩
  | initAmbe =>
    show OkU U (initAmbeState s) _
    rw [initAmbeState_eq]
    exact OkU.ok ⟨stOk_ambeInit hs.uv, fun _ _ => ⟨ambeInit_lim (by omega), ambeInit_lim (by omega), ambeInit_lim (by omega)⟩⟩
  | seed n =>
    refine OkU.ok ⟨⟨hs.cur, hs.prev, hs.enh, hs.rep, seed_uv n s.tls⟩, fun _ h => ?_⟩
    exact ⟨h.cur.mono (by omega), h.prev.mono (by omega), h.enh.mono (by omega)⟩

theorem hist_inv (hm : Decodes.Acc F) {E : Env F} {ops : List (Op F)} (hd : ∀ op ∈ ops, op.Payload)
    {s s' : St F} (hs : StOk s) (h : runHist E ops s = .ok s') : StOk s' := by
  induction ops generalizing s with
  | nil => cases h; exact hs
  | cons op ops ih =>
    obtain ⟨s1, h1, h2⟩ := bind_ok h
    have := op_u hm (U := fun _ => True) (E := E) (.inr trivial) (hd op (.head _)) hs (le_refl 20480) (.inr ⟨trivial, trivial⟩)
    rw [h1] at this
    rcases this with ⟨a, ha, hP⟩ | ⟨e, he, _⟩
    · cases ha
      exact ih (fun op h => hd op (.tail _ h)) hP.1 h2
    · cases he

theorem hist_u (hm : Decodes.Acc F) {U : UB → Prop} {E : Env F} (hlax : E.lax = true ∨ U .oobRead)
    {ops : List (Op F)} (hd : ∀ op ∈ ops, op.Payload ∧ op.Counts 7000000) {s : St F} (hs : StOk s) {T : Int}
    (hT : 20480 ≤ T) (hl : LimAll T s) (hlen : T + 6000 * ops.length ≤ 2147483647) :
    OkU U (runHist E ops s) fun s' => StOk s' ∧ LimAll (T + 6000 * ops.length) s' := by
  induction ops generalizing s T with
  | nil => refine OkU.ok ⟨hs, ?_⟩; simpa using hl
  | cons op ops ih =>
    rw [List.length_cons] at hlen ⊢
    push_cast at hlen ⊢
    obtain ⟨d1, d2⟩ := hd op (.head _)
    refine OkU.bind (op_u hm hlax d1 hs hT (.inl ⟨d2, hl, by omega⟩)) fun s1 h1 => ?_
    have := ih (T := T + 6000) (fun op h => hd op (.tail _ h)) h1.1 (by omega) (h1.2 d2 hl) (by omega)
    rw [show T + 6000 * ((ops.length : Int) + 1) = T + 6000 + 6000 * (ops.length : Int) by omega]
    exact this

end Verif.Model
