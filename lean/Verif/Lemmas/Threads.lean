import Verif.Spec.Threads
import Verif.Lemmas.Exec

/-!
# Locality of calls
-/

set_option linter.unusedSectionVars false

namespace Verif.Model
open Verif Verif.Spec Verif.Gen Arith

variable {F : Type} [Arith F]

/-- The call by thread `t` depends only on, and changes only, the part of the state that belongs to `t`. -/
structure IsLocal (own : Nat → Nat → Prop) (t : Nat) (f : World F → Exec (Res F × World F)) : Prop where
  same : ∀ w v, SameFor own t w v → ∀ r w', f w = .ok (r, w') → ∃ v', f v = .ok (r, v') ∧ SameFor own t w' v'
  keep : ∀ w r w', f w = .ok (r, w') → (∀ a, ¬ own t a → w'.heap a = w.heap a) ∧ ∀ u, u ≠ t → w'.tls u = w.tls u

theorem onTls_local (own : Nat → Nat → Prop) (t : Nat) (f : Tls F → Exec (Res F × Tls F)) : IsLocal own t (onTls t f) := by
  constructor
  · intro w v h r w' hw
    obtain ⟨⟨r1, z⟩, h1, h2⟩ := bind_ok hw
    cases h2
    refine ⟨_, by unfold onTls; rw [← h.1, h1]; rfl, ?_, ?_⟩
    · simp [World.putTls]
    · exact h.2
  · intro w r w' hw
    obtain ⟨⟨r1, z⟩, h1, h2⟩ := bind_ok hw
    cases h2
    exact ⟨fun a _ => rfl, fun u hu => if_neg hu⟩

theorem onOne_local {own : Nat → Nat → Prop} {t a : Nat} (ha : own t a) (f : Parms F → Tls F → Exec (Res F × Parms F × Tls F)) :
    IsLocal own t (onOne t a f) := by
  constructor
  · intro w v h r w' hw
    obtain ⟨⟨r1, x, z⟩, h1, h2⟩ := bind_ok hw
    cases h2
    refine ⟨_, by unfold onOne; rw [← h.1, ← h.2 a ha, h1]; rfl, ?_, fun b hb => ?_⟩
    · simp [World.putTls]
    · have := h.2 b hb
      simp only [World.putTls, World.put, this]
  · intro w r w' hw
    obtain ⟨⟨r1, x, z⟩, h1, h2⟩ := bind_ok hw
    cases h2
    refine ⟨fun b hb => ?_, fun u hu => if_neg hu⟩
    exact if_neg fun e : b = a => hb (e ▸ ha)

theorem onTwo_local {own : Nat → Nat → Prop} {t a b : Nat} (ha : own t a) (hb : own t b)
    (f : Parms F → Parms F → Tls F → Exec (Res F × Parms F × Parms F × Tls F)) : IsLocal own t (onTwo t a b f) := by
  constructor
  · intro w v h r w' hw
    obtain ⟨⟨r1, x, y, z⟩, h1, h2⟩ := bind_ok hw
    cases h2
    refine ⟨_, by unfold onTwo; rw [← h.1, ← h.2 a ha, ← h.2 b hb, h1]; rfl, ?_, fun c hc => ?_⟩
    · simp [World.putTls]
    · have := h.2 c hc
      simp only [World.putTls, World.put, this]
  · intro w r w' hw
    obtain ⟨⟨r1, x, y, z⟩, h1, h2⟩ := bind_ok hw
    cases h2
    refine ⟨fun c hc => ?_, fun u hu => if_neg hu⟩
    show (if c = b then _ else if c = a then _ else _) = _
    rw [if_neg fun e : c = b => hc (e ▸ hb), if_neg fun e : c = a => hc (e ▸ ha)]

theorem onThree_local {own : Nat → Nat → Prop} {t : Nat} {p : Ptrs} (h1 : own t p.cur) (h2 : own t p.prev) (h3 : own t p.enh)
    (f : St F → Exec (Res F × St F)) : IsLocal own t (onThree t p f) := by
  constructor
  · intro w v h r w' hw
    obtain ⟨⟨r1, s⟩, h4, h5⟩ := bind_ok hw
    cases h5
    refine ⟨_, by unfold onThree; rw [← h.1, ← h.2 _ h1, ← h.2 _ h2, ← h.2 _ h3, h4]; rfl, ?_, fun c hc => ?_⟩
    · simp [World.putTls]
    · have := h.2 c hc
      simp only [World.putTls, World.put, this]
  · intro w r w' hw
    obtain ⟨⟨r1, s⟩, h4, h5⟩ := bind_ok hw
    cases h5
    refine ⟨fun c hc => ?_, fun u hu => if_neg hu⟩
    show (if c = p.enh then _ else if c = p.prev then _ else if c = p.cur then _ else _) = _
    rw [if_neg fun e : c = p.enh => hc (e ▸ h3), if_neg fun e : c = p.prev => hc (e ▸ h2), if_neg fun e : c = p.cur => hc (e ▸ h1)]

/-- Every public function is local. -/
theorem exec_local (E : Env F) {own : Nat → Nat → Prop} {t : Nat} {a : Act F} (h : ∀ x ∈ a.addrs, own t x) :
    IsLocal own t (a.exec E t) := by
  cases a <;> dsimp only [Act.addrs] at h <;> unfold Act.exec <;> simp only [List.mem_cons, List.not_mem_nil, or_false, forall_eq_or_imp, forall_eq] at h
  case initMbe => exact onThree_local h.1 h.2.1 h.2.2 _
  case comfortNoisef => exact onTls_local _ _ _
  case comfortNoise => exact onTls_local _ _ _
  case seed => exact onTls_local _ _ _
  case enhance => exact onOne_local h _
  case tonef => exact onOne_local h _
  case tonefdstar => exact onOne_local h _
  case requiresMuting => exact onOne_local h _
  case isMaxFrameRepeat => exact onOne_local h _
  case requiresSmoothing => exact onOne_local h _
  case decodeImbe4400 => exact onTwo_local h.1 h.2 _
  case decodeAmbe2450 => exact onTwo_local h.1 h.2 _
  case decodeAmbe2400 => exact onTwo_local h.1 h.2 _
  case move => exact onTwo_local h.1 h.2 _
  case useLast => exact onTwo_local h.1 h.2 _
  case smooth => exact onTwo_local h.1 h.2 _
  case speechf => exact onTwo_local h.1 h.2 _
  case speech => exact onTwo_local h.1 h.2 _
  all_goals exact onThree_local h.1 h.2.1 h.2.2 _

end Verif.Model

namespace Verif.Spec
open Verif Verif.Model

variable {F : Type} [Arith F]

theorem SameFor.symm {own : Nat → Nat → Prop} {t : Nat} {w v : World F} (h : SameFor own t w v) : SameFor own t v w :=
  ⟨h.1.symm, fun a ha => (h.2 a ha).symm⟩

theorem SameFor.trans {own : Nat → Nat → Prop} {t : Nat} {w v u : World F} (h : SameFor own t w v) (h' : SameFor own t v u) :
    SameFor own t w u := ⟨h.1.trans h'.1, fun a ha => (h.2 a ha).trans (h'.2 a ha)⟩

theorem SameFor.refl {own : Nat → Nat → Prop} {t : Nat} (w : World F) : SameFor own t w w := ⟨rfl, fun _ _ => rfl⟩

end Verif.Spec

namespace Verif.Model
open Verif Verif.Spec Verif.Gen Arith

variable {F : Type} [Arith F]

/-- A call by another thread changes nothing for `t`. -/
theorem IsLocal.other {own : Nat → Nat → Prop} (hd : Disjoint2 own) {u t : Nat} (hut : t ≠ u) {f : World F → Exec (Res F × World F)}
    (h : IsLocal own u f) {w w' : World F} {r : Res F} (e : f w = .ok (r, w')) : SameFor own t w w' := by
  obtain ⟨h1, h2⟩ := h.keep w r w' e
  exact ⟨(h2 t hut).symm, fun a ha => (h1 a fun hu => hut (hd t u a ha hu)).symm⟩

theorem runSched_cons (E : Env F) (x : Nat × Act F) (xs : List (Nat × Act F)) (w : World F) :
    runSched E (x :: xs) w = (do
      let p ← x.2.exec E x.1 w
      let q ← runSched E xs p.2
      .ok ((x.1, p.1) :: q.1, q.2)) := rfl

theorem only_cons_self {α : Type} (t : Nat) (a : α) (xs : List (Nat × α)) : only t ((t, a) :: xs) = (t, a) :: only t xs := by
  simp [only]

theorem only_cons_ne {α : Type} {t : Nat} {x : Nat × α} (h : x.1 ≠ t) (xs : List (Nat × α)) : only t (x :: xs) = only t xs := by
  simp [only, h]

/-- What a thread gets in a schedule is what it gets when it runs alone, from any state that agrees on its part. -/
theorem sched_alone (E : Env F) {own : Nat → Nat → Prop} (hd : Disjoint2 own) (t : Nat) (xs : List (Nat × Act F))
    (ho : ∀ x ∈ xs, ∀ a ∈ x.2.addrs, own x.1 a) : ∀ (w v : World F) (rs : List (Nat × Res F)) (w' : World F), SameFor own t w v →
      runSched E xs w = .ok (rs, w') → ∃ v', runSched E (only t xs) v = .ok (only t rs, v') ∧ SameFor own t w' v' := by
  induction xs with
  | nil =>
    intro w v rs w' h e
    cases e
    exact ⟨v, rfl, h⟩
  | cons x xs ih =>
    intro w v rs w' h e
    rw [runSched_cons] at e
    obtain ⟨⟨r, w1⟩, e1, e⟩ := bind_ok e
    obtain ⟨⟨rs1, w2⟩, e2, e⟩ := bind_ok e
    cases e
    have hl := exec_local E (t := x.1) (a := x.2) (own := own) (ho x List.mem_cons_self)
    have ho' : ∀ y ∈ xs, ∀ a ∈ y.2.addrs, own y.1 a := fun y hy => ho y (List.mem_cons_of_mem _ hy)
    by_cases ht : x.1 = t
    · obtain ⟨u, a⟩ := x
      dsimp only at ht hl e1
      subst ht
      obtain ⟨v1, f1, g1⟩ := hl.same w v h r w1 e1
      obtain ⟨v2, f2, g2⟩ := ih ho' w1 v1 rs1 w2 g1 e2
      refine ⟨v2, ?_, g2⟩
      rw [only_cons_self, only_cons_self, runSched_cons]
      dsimp only
      rw [f1, ok_bind]
      dsimp only
      rw [f2, ok_bind]
    · have := IsLocal.other hd (fun h => ht h.symm) hl e1
      obtain ⟨v2, f2, g2⟩ := ih ho' w1 v rs1 w2 (this.symm.trans h) e2
      refine ⟨v2, ?_, g2⟩
      rw [only_cons_ne ht, only_cons_ne (x := (x.1, r)) ht]
      exact f2

/-- If each thread alone runs without undefined behaviour, so does the schedule. -/
theorem sched_defined (E : Env F) {own : Nat → Nat → Prop} (hd : Disjoint2 own) (xs : List (Nat × Act F))
    (ho : ∀ x ∈ xs, ∀ a ∈ x.2.addrs, own x.1 a) : ∀ (w : World F) (v : Nat → World F), (∀ t, SameFor own t w (v t)) →
      (∀ t, ∃ o, runSched E (only t xs) (v t) = .ok o) → ∃ o, runSched E xs w = .ok o := by
  induction xs with
  | nil => exact fun w _ _ _ => ⟨_, rfl⟩
  | cons x xs ih =>
    intro w v h e
    have hl := exec_local E (t := x.1) (a := x.2) (own := own) (ho x List.mem_cons_self)
    have ho' : ∀ y ∈ xs, ∀ a ∈ y.2.addrs, own y.1 a := fun y hy => ho y (List.mem_cons_of_mem _ hy)
    obtain ⟨o, e0⟩ := e x.1
    rw [show x = (x.1, x.2) from rfl, only_cons_self, runSched_cons] at e0
    obtain ⟨⟨r, v1⟩, f1, f2⟩ := bind_ok e0
    obtain ⟨q, f3, _⟩ := bind_ok f2
    obtain ⟨w1, g1, g2⟩ := hl.same (v x.1) w (h x.1).symm r v1 f1
    have := ih ho' w1 (fun t => if t = x.1 then v1 else v t) ?_ ?_
    · obtain ⟨q, hq⟩ := this
      exact ⟨_, by rw [runSched_cons, g1, ok_bind]; dsimp only; rw [hq, ok_bind]⟩
    · intro t
      by_cases ht : t = x.1
      · subst ht
        rw [if_pos rfl]
        exact g2.symm
      · rw [if_neg ht]
        exact (IsLocal.other hd ht hl g1).symm.trans (h t)
    · intro t
      by_cases ht : t = x.1
      · subst ht
        rw [if_pos rfl]
        exact ⟨_, f3⟩
      · rw [if_neg ht]
        obtain ⟨o', e'⟩ := e t
        rw [only_cons_ne fun h => ht h.symm] at e'
        exact ⟨_, e'⟩

/-- Addresses nobody owns keep their contents. -/
theorem sched_unowned (E : Env F) {own : Nat → Nat → Prop} (xs : List (Nat × Act F))
    (ho : ∀ x ∈ xs, ∀ a ∈ x.2.addrs, own x.1 a) : ∀ (w : World F) (o : List (Nat × Res F) × World F), runSched E xs w = .ok o →
      ∀ a, (∀ t, ¬ own t a) → o.2.heap a = w.heap a := by
  induction xs with
  | nil =>
    intro w o e
    cases e
    exact fun _ _ => rfl
  | cons x xs ih =>
    intro w o e a ha
    rw [runSched_cons] at e
    obtain ⟨⟨r, w1⟩, e1, e⟩ := bind_ok e
    obtain ⟨q, e2, e⟩ := bind_ok e
    cases e
    have hl := exec_local E (t := x.1) (a := x.2) (own := own) (ho x List.mem_cons_self)
    exact (ih (fun y hy => ho y (List.mem_cons_of_mem _ hy)) w1 q e2 a ha).trans ((hl.keep w r w1 e1).1 a (ha _))

end Verif.Model

namespace Verif.Model
open Verif Verif.Spec Verif.Gen Arith

variable {F : Type} [Arith F]

theorem view_put {p : Ptrs} (h1 : p.cur ≠ p.prev) (h2 : p.cur ≠ p.enh) (h3 : p.prev ≠ p.enh) (t : Nat) (w : World F) (s : St F) :
    view p t ((((w.put p.cur s.cur).put p.prev s.prev).put p.enh s.enh).putTls t s.tls) = s := by
  unfold view World.putTls World.put
  dsimp only
  rw [if_neg h2, if_neg h1, if_pos rfl, if_neg h3, if_pos rfl, if_pos rfl, if_pos rfl]

theorem onThree_view {p : Ptrs} (h1 : p.cur ≠ p.prev) (h2 : p.cur ≠ p.enh) (h3 : p.prev ≠ p.enh) {t : Nat}
    {f : St F → Exec (Res F × St F)} {w w' : World F} {r : Res F} (h : onThree t p f w = .ok (r, w')) :
    f (view p t w) = .ok (r, view p t w') := by
  obtain ⟨⟨r1, s⟩, h4, h5⟩ := bind_ok h
  have h6 := ok_inj h5
  rw [Prod.mk.injEq] at h6
  rw [← h6.2, view_put h1 h2 h3, ← h6.1]
  exact h4

theorem frameCall_hands {f : St F → Exec (FrameOut F)} {s s' : St F} {r : Res F} (h : frameCall f s = .ok (r, s')) :
    ∃ o, f s = .ok o ∧ o.out.st = s' ∧ Hands none r (some (o.out.pcm, o.out.str)) := by
  obtain ⟨o, h1, h2⟩ := bind_ok h
  have h3 := ok_inj h2
  rw [Prod.mk.injEq] at h3
  exact ⟨o, h1, h3.2, by rw [← h3.1]; exact ⟨rfl, rfl, rfl⟩⟩

theorem dataCall_hands {f : St F → Exec (Out F)} {s s' : St F} {r : Res F} (h : dataCall f s = .ok (r, s')) :
    ∃ o, f s = .ok o ∧ o.st = s' ∧ Hands none r (some (o.pcm, o.str)) := by
  obtain ⟨o, h1, h2⟩ := bind_ok h
  have h3 := ok_inj h2
  rw [Prod.mk.injEq] at h3
  exact ⟨o, h1, h3.2, by rw [← h3.1]; exact ⟨rfl, rfl, rfl⟩⟩

theorem frameCallS_hands {f : Call F → St F → Exec (FrameOut F)} {C : Call F} {b : Arr 160 Int} {s s' : St F} {r : Res F}
    (h : frameCallS (fun s => shortFrame (fun C => f C s) C b) s = .ok (r, s')) :
    ∃ o, f C s = .ok o ∧ o.out.st = s' ∧ Hands (some b) r (some (o.out.pcm, o.out.str)) := by
  obtain ⟨⟨q, o⟩, h1, h2⟩ := bind_ok h
  obtain ⟨o', h3, h1⟩ := bind_ok h1
  obtain ⟨q', h4, h1⟩ := bind_ok h1
  have h5 := ok_inj h1
  rw [Prod.mk.injEq] at h5
  obtain ⟨rfl, rfl⟩ := h5
  have h6 := ok_inj h2
  rw [Prod.mk.injEq] at h6
  exact ⟨o', h3, h6.2, by rw [← h6.1]; exact ⟨rfl, rfl, q', h4, rfl⟩⟩

theorem dataCallS_hands {f : Call F → St F → Exec (Out F)} {C : Call F} {b : Arr 160 Int} {s s' : St F} {r : Res F}
    (h : dataCallS (fun s => shortData (fun C => f C s) C b) s = .ok (r, s')) :
    ∃ o, f C s = .ok o ∧ o.st = s' ∧ Hands (some b) r (some (o.pcm, o.str)) := by
  obtain ⟨⟨q, o⟩, h1, h2⟩ := bind_ok h
  obtain ⟨o', h3, h1⟩ := bind_ok h1
  obtain ⟨q', h4, h1⟩ := bind_ok h1
  have h5 := ok_inj h1
  rw [Prod.mk.injEq] at h5
  obtain ⟨rfl, rfl⟩ := h5
  have h6 := ok_inj h2
  rw [Prod.mk.injEq] at h6
  exact ⟨o', h3, h6.2, by rw [← h6.1]; exact ⟨rfl, rfl, q', h4, rfl⟩⟩

/-- One call of a thread is the call on its decoder. -/
theorem exec_does (E : Env F) {p : Ptrs} (h1 : p.cur ≠ p.prev) (h2 : p.cur ≠ p.enh) (h3 : p.prev ≠ p.enh) (t : Nat)
    {b : Option (Arr 160 Int)} {a : Act F} {x : Api F} (hd : Does p b a x) {w w' : World F} {r : Res F}
    (h : a.exec E t w = .ok (r, w')) :
    ∃ d, x.call E (view p t w) = .ok (d, view p t w') ∧ Hands b r d := by
  cases hd
  case init =>
    unfold Act.exec at h
    have h := onThree_view h1 h2 h3 h
    obtain ⟨s, e1, e2⟩ := bind_ok h
    have e3 := ok_inj e2
    rw [Prod.mk.injEq] at e3
    refine ⟨none, ?_, by rw [← e3.1]; exact ⟨rfl, rfl⟩⟩
    dsimp only [Api.call]
    rw [e1, ok_bind, e3.2]
  case seed n =>
    have e3 := ok_inj h
    rw [Prod.mk.injEq] at e3
    refine ⟨none, ?_, by rw [← e3.1]; exact ⟨rfl, rfl⟩⟩
    rw [← e3.2]
    unfold Api.call view World.putTls
    dsimp only
    rw [if_pos rfl]
  case imbe7200f C fr d =>
    obtain ⟨o, e1, e2, e3⟩ := frameCall_hands (onThree_view h1 h2 h3 h)
    exact ⟨_, by dsimp only [Api.call]; rw [e1, ok_bind, e2], e3⟩
  case imbe7100f C fr d =>
    obtain ⟨o, e1, e2, e3⟩ := frameCall_hands (onThree_view h1 h2 h3 h)
    exact ⟨_, by dsimp only [Api.call]; rw [e1, ok_bind, e2], e3⟩
  case ambe2450f C fr d =>
    obtain ⟨o, e1, e2, e3⟩ := frameCall_hands (onThree_view h1 h2 h3 h)
    exact ⟨_, by dsimp only [Api.call]; rw [e1, ok_bind, e2], e3⟩
  case ambe2400f C fr d =>
    obtain ⟨o, e1, e2, e3⟩ := frameCall_hands (onThree_view h1 h2 h3 h)
    exact ⟨_, by dsimp only [Api.call]; rw [e1, ok_bind, e2], e3⟩
  case imbe7200 C b fr d =>
    obtain ⟨o, e1, e2, e3⟩ := frameCallS_hands (f := fun C s => processImbe7200Framef E C fr d s) (onThree_view h1 h2 h3 h)
    exact ⟨_, by dsimp only [Api.call]; rw [e1, ok_bind, e2], e3⟩
  case imbe7100 C b fr d =>
    obtain ⟨o, e1, e2, e3⟩ := frameCallS_hands (f := fun C s => processImbe7100Framef E C fr d s) (onThree_view h1 h2 h3 h)
    exact ⟨_, by dsimp only [Api.call]; rw [e1, ok_bind, e2], e3⟩
  case ambe2450 C b fr d =>
    obtain ⟨o, e1, e2, e3⟩ := frameCallS_hands (f := fun C s => processAmbe2450Framef E C fr d s) (onThree_view h1 h2 h3 h)
    exact ⟨_, by dsimp only [Api.call]; rw [e1, ok_bind, e2], e3⟩
  case ambe2400 C b fr d =>
    obtain ⟨o, e1, e2, e3⟩ := frameCallS_hands (f := fun C s => processAmbe2400Framef E C fr d s) (onThree_view h1 h2 h3 h)
    exact ⟨_, by dsimp only [Api.call]; rw [e1, ok_bind, e2], e3⟩
  case imbeDataf C e e' d =>
    obtain ⟨o, e1, e2, e3⟩ := dataCall_hands (onThree_view h1 h2 h3 h)
    exact ⟨_, by dsimp only [Api.call]; rw [e1, ok_bind, e2], e3⟩
  case ambe2450Dataf C e e' d =>
    obtain ⟨o, e1, e2, e3⟩ := dataCall_hands (onThree_view h1 h2 h3 h)
    exact ⟨_, by dsimp only [Api.call]; rw [e1, ok_bind, e2], e3⟩
  case ambe2400Dataf C e e' d =>
    obtain ⟨o, e1, e2, e3⟩ := dataCall_hands (onThree_view h1 h2 h3 h)
    exact ⟨_, by dsimp only [Api.call]; rw [e1, ok_bind, e2], e3⟩
  case imbeData C b e e' d =>
    obtain ⟨o, e1, e2, e3⟩ := dataCallS_hands (f := fun C s => processImbe4400Dataf E C e e' d s) (onThree_view h1 h2 h3 h)
    exact ⟨_, by dsimp only [Api.call]; rw [e1, ok_bind, e2], e3⟩
  case ambe2450Data C b e e' d =>
    obtain ⟨o, e1, e2, e3⟩ := dataCallS_hands (f := fun C s => processAmbe2450Dataf E C e e' d s) (onThree_view h1 h2 h3 h)
    exact ⟨_, by dsimp only [Api.call]; rw [e1, ok_bind, e2], e3⟩
  case ambe2400Data C b e e' d =>
    obtain ⟨o, e1, e2, e3⟩ := dataCallS_hands (f := fun C s => processAmbe2400 E C e e' d s) (onThree_view h1 h2 h3 h)
    exact ⟨_, by dsimp only [Api.call]; rw [e1, ok_bind, e2], e3⟩

/-- All calls of a thread on its decoder. -/
theorem runSched_does (E : Env F) {p : Ptrs} (h1 : p.cur ≠ p.prev) (h2 : p.cur ≠ p.enh) (h3 : p.prev ≠ p.enh) (t : Nat) :
    ∀ (cs : List (Option (Arr 160 Int) × Act F × Api F)) (_ : ∀ c ∈ cs, Does p c.1 c.2.1 c.2.2) (w w' : World F)
      (rs : List (Nat × Res F)) (_ : runSched E (cs.map fun c => (t, c.2.1)) w = .ok (rs, w')),
    ∃ ds, deliveries (Api.call E) (cs.map fun c => c.2.2) (view p t w) = .ok (ds, view p t w') ∧
      List.Forall₂ (fun (r : Nat × Res F) (x : (Option (Arr 160 Int) × Act F × Api F) × Option (Arr 160 F × List Char)) => Hands x.1.1 r.2 x.2) rs (cs.zip ds) ∧ ds.length = cs.length
  | [], _, w, w', rs, h => by
    have h := ok_inj h
    rw [Prod.mk.injEq] at h
    obtain ⟨rfl, rfl⟩ := h
    exact ⟨[], rfl, .nil, rfl⟩
  | c :: cs, hc, w, w', rs, h => by
    obtain ⟨⟨r, w1⟩, e1, h⟩ := bind_ok h
    obtain ⟨⟨rs', w2⟩, e2, h⟩ := bind_ok h
    have h := ok_inj h
    rw [Prod.mk.injEq] at h
    obtain ⟨rfl, rfl⟩ := h
    obtain ⟨d, f1, f2⟩ := exec_does E h1 h2 h3 t (hc c List.mem_cons_self) e1
    obtain ⟨ds, g1, g2, g3⟩ := runSched_does E h1 h2 h3 t cs (fun c h => hc c (List.mem_cons_of_mem _ h)) w1 w2 rs' e2
    refine ⟨d :: ds, ?_, .cons f2 g2, by rw [List.length_cons, List.length_cons, g3]⟩
    rw [List.map_cons]
    unfold deliveries
    rw [f1, ok_bind]
    dsimp only
    rw [g1, ok_bind]

theorem onTwo_view {t a b : Nat} (hab : a ≠ b) {f : Parms F → Parms F → Tls F → Exec (Res F × Parms F × Parms F × Tls F)}
    {w w' : World F} {r : Res F} (h : onTwo t a b f w = .ok (r, w')) :
    f (w.heap a) (w.heap b) (w.tls t) = .ok (r, w'.heap a, w'.heap b, w'.tls t) := by
  obtain ⟨⟨r1, x, y, z⟩, h4, h5⟩ := bind_ok h
  have h6 := ok_inj h5
  rw [Prod.mk.injEq] at h6
  rw [← h6.2, h4]
  unfold World.putTls World.put
  dsimp only
  rw [if_neg hab, if_pos rfl, if_pos rfl, if_pos rfl, ← h6.1]

theorem onOne_view {t a : Nat} {f : Parms F → Tls F → Exec (Res F × Parms F × Tls F)}
    {w w' : World F} {r : Res F} (h : onOne t a f w = .ok (r, w')) :
    f (w.heap a) (w.tls t) = .ok (r, w'.heap a, w'.tls t) := by
  obtain ⟨⟨r1, x, z⟩, h4, h5⟩ := bind_ok h
  have h6 := ok_inj h5
  rw [Prod.mk.injEq] at h6
  rw [← h6.2, h4]
  unfold World.putTls World.put
  dsimp only
  rw [if_pos rfl, if_pos rfl, ← h6.1]

theorem onTls_view {t : Nat} {f : Tls F → Exec (Res F × Tls F)} {w w' : World F} {r : Res F} (h : onTls t f w = .ok (r, w')) :
    f (w.tls t) = .ok (r, w'.tls t) := by
  obtain ⟨⟨r1, z⟩, h4, h5⟩ := bind_ok h
  have h6 := ok_inj h5
  rw [Prod.mk.injEq] at h6
  rw [← h6.2, h4]
  unfold World.putTls
  dsimp only
  rw [if_pos rfl, ← h6.1]

theorem decodeCall_view {f : Parms F → Parms F → Tls F → Exec (DecodeRes F)} {x y : Parms F} {z : Tls F} {r : Res F}
    {x' y' : Parms F} {z' : Tls F} (h : decodeCall f x y z = .ok (r, x', y', z')) :
    ∃ o, f x y z = .ok o ∧ r.ret = o.bad ∧ x' = o.cur ∧ y' = o.prev ∧ z' = o.tls := by
  obtain ⟨o, h1, h2⟩ := bind_ok h
  have h3 := ok_inj h2
  simp only [Prod.mk.injEq] at h3
  exact ⟨o, h1, by rw [← h3.1], h3.2.1.symm, h3.2.2.1.symm, h3.2.2.2.symm⟩

theorem flag_ne (b : Bool) : (if b = true then (1 : Int) else 0) ≠ 0 ↔ b = true := by cases b <;> decide

theorem exec_means (E : Env F) (t : Nat) (a : Act F) (hn : a.addrs.Nodup) (w w' : World F) (r : Res F)
    (h : a.exec E t w = .ok (r, w')) : Means E a w.heap (w.tls t) r w'.heap (w'.tls t) := by
  cases a <;> dsimp only [Act.exec] at h
  case decodeImbe4400 c p d =>
    have hn : c ≠ p := by simpa [Act.addrs] using hn
    exact decodeCall_view (onTwo_view hn h)
  case decodeAmbe2450 c p d =>
    have hn : c ≠ p := by simpa [Act.addrs] using hn
    exact decodeCall_view (onTwo_view hn h)
  case decodeAmbe2400 c p d =>
    have hn : c ≠ p := by simpa [Act.addrs] using hn
    exact decodeCall_view (onTwo_view hn h)
  case move c p =>
    have hn : c ≠ p := by simpa [Act.addrs] using hn
    have h := ok_inj (onTwo_view hn h)
    simp only [Prod.mk.injEq] at h
    exact ⟨h.2.2.1.symm, h.2.1.symm, h.2.2.2.symm⟩
  case useLast c p =>
    have hn : c ≠ p := by simpa [Act.addrs] using hn
    have h := ok_inj (onTwo_view hn h)
    simp only [Prod.mk.injEq] at h
    exact ⟨h.2.1.symm, h.2.2.1.symm, h.2.2.2.symm⟩
  case enhance c =>
    obtain ⟨o, h1, h⟩ := bind_ok (onOne_view h)
    have h := ok_inj h
    simp only [Prod.mk.injEq] at h
    show _ = _
    rw [h1, ← h.2.1, ← h.2.2]
  case smooth c p =>
    have hn : c ≠ p := by simpa [Act.addrs] using hn
    obtain ⟨o, h1, h⟩ := bind_ok (onTwo_view hn h)
    have h := ok_inj h
    simp only [Prod.mk.injEq] at h
    refine ⟨?_, h.2.2.1.symm⟩
    rw [h1, ← h.2.1, ← h.2.2.2]
  case speechf c p out uvq =>
    have hn : c ≠ p := by simpa [Act.addrs] using hn
    obtain ⟨o, h1, h⟩ := bind_ok (onTwo_view hn h)
    have h := ok_inj h
    simp only [Prod.mk.injEq] at h
    refine ⟨o.out, by rw [← h.1], ?_⟩
    rw [h1, ← h.2.1, ← h.2.2.1, ← h.2.2.2]
  case speech c p out uvq =>
    have hn : c ≠ p := by simpa [Act.addrs] using hn
    obtain ⟨o, h1, h⟩ := bind_ok (onTwo_view hn h)
    have h := ok_inj h
    simp only [Prod.mk.injEq] at h
    refine ⟨o.1, o.2.out, by rw [← h.1], ?_⟩
    rw [h1, ← h.2.1, ← h.2.2.1, ← h.2.2.2]
  case tonef c out d =>
    obtain ⟨o, h1, h⟩ := bind_ok (onOne_view h)
    have h := ok_inj h
    simp only [Prod.mk.injEq] at h
    refine ⟨o.1, by rw [← h.1], ?_, h.2.2.symm⟩
    rw [h1, ← h.2.1]
  case tonefdstar c out d id =>
    obtain ⟨o, h1, h⟩ := bind_ok (onOne_view h)
    have h := ok_inj h
    simp only [Prod.mk.injEq] at h
    refine ⟨o.1, by rw [← h.1], ?_, h.2.2.symm⟩
    rw [h1, ← h.2.1]
  case requiresMuting c =>
    have h := ok_inj (onOne_view h)
    simp only [Prod.mk.injEq] at h
    exact ⟨by rw [← h.1]; exact flag_ne _, h.2.1.symm, h.2.2.symm⟩
  case isMaxFrameRepeat c =>
    have h := ok_inj (onOne_view h)
    simp only [Prod.mk.injEq] at h
    exact ⟨by rw [← h.1]; exact flag_ne _, h.2.1.symm, h.2.2.symm⟩
  case requiresSmoothing c =>
    have h := ok_inj (onOne_view h)
    simp only [Prod.mk.injEq] at h
    exact ⟨by rw [← h.1]; exact flag_ne _, h.2.1.symm, h.2.2.symm⟩
  case comfortNoisef out =>
    obtain ⟨o, h1, h⟩ := bind_ok (onTls_view h)
    have h := ok_inj h
    simp only [Prod.mk.injEq] at h
    exact ⟨o.1, by rw [← h.1], by rw [h1, ← h.2]⟩
  case comfortNoise out =>
    obtain ⟨o, h1, h⟩ := bind_ok (onTls_view h)
    have h := ok_inj h
    simp only [Prod.mk.injEq] at h
    exact ⟨o.1, by rw [← h.1], by rw [h1, ← h.2]⟩
  all_goals trivial

end Verif.Model
