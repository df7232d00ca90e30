import Verif.Lemmas.FinHist
import Verif.Lemmas.Simd
import Verif.Props.Process

/-!
# Finite samples: programs
-/

namespace Verif.Model
open Verif Verif.Gen Verif.Spec Verif.Num Arith
variable {m : Libm}

theorem FinSt.err4 {s : St (IEEE m)} (h : FinSt s) (n : Int) : FinSt { s with cur := { s.cur with errorCount4 := n } } :=
  ⟨h.cur.congr rfl rfl rfl rfl rfl h.cur.et, h.prev, h.enh, h.amps, h.spk, h.plan⟩

theorem StOk.err4 {s : St (IEEE m)} (h : StOk s) (n : Int) : StOk { s with cur := { s.cur with errorCount4 := n } } :=
  ⟨h.cur.congr rfl rfl rfl rfl, h.prev, h.enh, h.rep, h.uv⟩

theorem api_stOk (he : Exp2Acc m) {E : Env (IEEE m)} {a : Api (IEEE m)} (hv : a.Valid) {s s' : St (IEEE m)} (hs : StOk s)
    (h : a.run E s = .ok s') : StOk s' := by
  obtain ⟨op, h1, _, h3⟩ := Props.Api.toOp hv
  rw [h3] at h
  exact ((op_u (F := IEEE m) he (U := fun _ => True) (E := E) (.inr trivial) h1 hs (le_refl 20480) (.inr ⟨trivial, trivial⟩)).toPost _ h).1

theorem api_fin (hm : TrigAcc m) (he : Exp2Acc m) {E : Env (IEEE m)} (hE : Runs E) {a : Api (IEEE m)} (hv : a.Valid) (h20 : a.ErrsLe 20)
    {s : St (IEEE m)} (hs : StOk s) (hf : FinSt s) :
    Post (a.call E s) fun r => AmpsOk r.2.prev → (∀ p, r.1 = some p → Made E p.1) ∧ FinSt r.2 := by
  cases a with
  | imbe7200Frame C fr d =>
    obtain ⟨e, hr, h1, h2, h3, h4, h5⟩ := Props.C13_imbe7200_counts fr hv.1 d
    unfold Api.call processImbe7200Framef
    dsimp only
    rw [hr, ok_bind]
    intro r h ha
    obtain ⟨o, ho, h⟩ := bind_ok h
    obtain ⟨o', ho', ho⟩ := bind_ok ho
    cases ho
    cases h
    have := Voice.made <| imbe_fin hm hE h5 (by omega) (hs.err4 _) (hf.err4 _) o' ho' ha
    exact ⟨fun p hp => by cases hp; exact this.1, this.2⟩
  | imbe7100Frame C fr d =>
    obtain ⟨e, hr, h1, h2, h3, h4, h5⟩ := Props.C13_imbe7100_counts fr hv.1 d
    obtain ⟨out, ho, _⟩ := Props.C12_convert_moves_bits (m := m) e.d h5
    have h6 := (Props.C12_convert_fundamental e.d h5 out ho).2
    unfold Api.call processImbe7100Framef
    dsimp only
    rw [hr, ok_bind, ho, ok_bind]
    intro r h ha
    obtain ⟨o, ho, h⟩ := bind_ok h
    obtain ⟨o', ho', ho⟩ := bind_ok ho
    cases ho
    cases h
    have := Voice.made <| imbe_fin hm hE h6 (by omega) (hs.err4 _) (hf.err4 _) o' ho' ha
    exact ⟨fun p hp => by cases hp; exact this.1, this.2⟩
  | ambe2450Frame C fr d =>
    obtain ⟨e, hr, h1, h2, h3, h5⟩ := Props.C13_ambe_counts fr hv.1 d
    unfold Api.call processAmbe2450Framef
    dsimp only
    rw [hr, ok_bind]
    intro r h ha
    obtain ⟨o, ho, h⟩ := bind_ok h
    obtain ⟨o', ho', ho⟩ := bind_ok ho
    cases ho
    cases h
    have := ambe2450_fin hm hE h5 (by omega) hs hf o' ho' ha
    exact ⟨fun p hp => by cases hp; exact this.1, this.2⟩
  | ambe2400Frame C fr d =>
    obtain ⟨e, hr, h1, h2, h3, h5⟩ := Props.C13_ambe_counts fr hv.1 d
    unfold Api.call processAmbe2400Framef
    dsimp only
    rw [hr, ok_bind]
    intro r h ha
    obtain ⟨o, ho, h⟩ := bind_ok h
    obtain ⟨o', ho', ho⟩ := bind_ok ho
    cases ho
    cases h
    have := ambe2400_fin hm he hE h5 (by omega) hs hf o' ho' ha
    exact ⟨fun p hp => by cases hp; exact this.1, this.2⟩
  | imbeData C errs errs2 d =>
    intro r h ha
    obtain ⟨o, ho, h⟩ := bind_ok h
    cases h
    have := Voice.made <| imbe_fin hm hE hv.1 h20 hs hf o ho ha
    exact ⟨fun p hp => by cases hp; exact this.1, this.2⟩
  | ambe2450Data C errs errs2 d =>
    intro r h ha
    obtain ⟨o, ho, h⟩ := bind_ok h
    cases h
    have := ambe2450_fin hm hE hv.1 h20 hs hf o ho ha
    exact ⟨fun p hp => by cases hp; exact this.1, this.2⟩
  | ambe2400Data C errs errs2 d =>
    intro r h ha
    obtain ⟨o, ho, h⟩ := bind_ok h
    cases h
    have := ambe2400_fin hm he hE hv.1 h20 hs hf o ho ha
    exact ⟨fun p hp => by cases hp; exact this.1, this.2⟩
  | initMbe =>
    intro r h _
    obtain ⟨o, ho, h⟩ := bind_ok h
    rw [initMbeState_ieee] at ho
    cases ho
    cases h
    exact ⟨nofun, .imbe hf.plan⟩
  | initAmbe =>
    intro r h _
    obtain ⟨o, ho, h⟩ := bind_ok h
    rw [initAmbeState_eq] at ho
    cases ho
    cases h
    exact ⟨nofun, .ambe hf.plan⟩
  | seed n =>
    intro r h _
    cases h
    exact ⟨nofun, hf.cur, hf.prev, hf.enh, hf.amps, hf.spk, hf.plan.of_eq rfl⟩

theorem fresh_fin {s : St (IEEE m)} (h : Fresh s) : FinSt s := by
  have hp : PlanOk (Tls.start : Tls (IEEE m)) := fun P hP => by cases hP
  rcases (fresh_cases h).2 with rfl | rfl
  · exact .imbe hp
  · exact .ambe hp

/-- The state after a program, and the last call. -/
theorem runApi_fin (hm : TrigAcc m) (he : Exp2Acc m) {E : Env (IEEE m)} (hE : Runs E) {as : List (Api (IEEE m))} (hv : ∀ a ∈ as, a.Valid)
    (h20 : ∀ a ∈ as, a.ErrsLe 20) {s : St (IEEE m)} (hs : StOk s) (hf : FinSt s)
    (ha : ∀ bs, bs <+: as → ∀ s', runApi E bs s = .ok s' → AmpsOk s'.prev) {l : List (Option (Arr 160 (IEEE m) × List Char))} {s' : St (IEEE m)}
    (h : deliveries (Api.call E) as s = .ok (l, s')) : ∀ x ∈ l, ∀ p, x = some p → Made E p.1 := by
  induction as generalizing s l with
  | nil => cases h; simp
  | cons a as ih =>
    obtain ⟨r, h1, h⟩ := bind_ok h
    obtain ⟨q, h2, h⟩ := bind_ok h
    cases h
    have hr := call_run h1
    obtain ⟨k1, k2⟩ := api_fin hm he hE (hv a (.head _)) (h20 a (.head _)) hs hf r h1 (ha [a] ⟨as, rfl⟩ r.2 (by
      show (a.run E s >>= fun s => runApi E [] s) = _
      rw [hr]; rfl))
    intro x hx
    rcases List.mem_cons.1 hx with rfl | hx
    · exact k1
    · refine ih (fun b hb => hv b (.tail _ hb)) (fun b hb => h20 b (.tail _ hb)) (api_stOk he (hv a (.head _)) hs hr) k2 ?_ (l := q.1) h2 x hx
      intro bs hb s2 h3
      refine ha (a :: bs) ?_ s2 ?_
      · obtain ⟨cs, rfl⟩ := hb; exact ⟨cs, rfl⟩
      · show (a.run E s >>= fun s => runApi E bs s) = _
        rw [hr]; exact h3

end Verif.Model
