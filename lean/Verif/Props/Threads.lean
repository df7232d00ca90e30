import Verif.Lemmas.Threads
import Verif.Props.Repeat

/-!
# C37: threads do not interfere
-/

namespace Verif.Props
open Verif Verif.Spec Verif.Model Verif.Num Verif.Gen Arith

section
variable {F : Type} [Arith F]

/-- For every interleaving of calls by threads that own disjoint sets of parameter sets: each thread gets the results
and ends in the state that it gets when it makes its calls alone. -/
theorem C37_alone (E : Env F) (own : Nat → Nat → Prop) (hd : Disjoint2 own) (xs : List (Nat × Act F)) (ho : Owned own xs)
    (w : World F) (rs : List (Nat × Res F)) (w' : World F) (h : runSched E xs w = .ok (rs, w')) (t : Nat) :
    ∃ v, runSched E (only t xs) w = .ok (only t rs, v) ∧ v.tls t = w'.tls t ∧ ∀ a, own t a → v.heap a = w'.heap a := by
  obtain ⟨v, h1, h2⟩ := sched_alone E hd t xs (fun x hx => (ho x hx).1) w w rs w' (.refl w) h
  exact ⟨v, h1, h2.1.symm, fun a ha => (h2.2 a ha).symm⟩

/-- A schedule runs into undefined behaviour only if some thread alone would. -/
theorem C37_defined (E : Env F) (own : Nat → Nat → Prop) (hd : Disjoint2 own) (xs : List (Nat × Act F)) (ho : Owned own xs)
    (w : World F) : (∃ o, runSched E xs w = .ok o) ↔ ∀ t, ∃ o, runSched E (only t xs) w = .ok o := by
  constructor
  · rintro ⟨⟨rs, w'⟩, h⟩ t
    obtain ⟨v, h1, _⟩ := C37_alone E own hd xs ho w rs w' h t
    exact ⟨_, h1⟩
  · exact fun h => sched_defined E hd xs (fun x hx => (ho x hx).1) w (fun _ => w) (fun _ => .refl w) h

/-- Two schedules in which every thread makes the same calls in the same order give every thread the same results and
end in the same state of the whole process. -/
theorem C37_schedules (E : Env F) (own : Nat → Nat → Prop) (hd : Disjoint2 own) (xs ys : List (Nat × Act F))
    (hx : Owned own xs) (hy : Owned own ys) (hxy : ∀ t, only t xs = only t ys) (w : World F)
    (rs : List (Nat × Res F)) (w' : World F) (h : runSched E xs w = .ok (rs, w')) :
    ∃ rs', runSched E ys w = .ok (rs', w') ∧ ∀ t, only t rs' = only t rs := by
  have hdef : ∃ o, runSched E ys w = .ok o := (C37_defined E own hd ys hy w).2 fun t => by
    rw [← hxy t]
    exact (C37_defined E own hd xs hx w).1 ⟨_, h⟩ t
  obtain ⟨⟨rs', v⟩, hv⟩ := hdef
  have key : ∀ t, only t rs' = only t rs ∧ v.tls t = w'.tls t ∧ ∀ a, own t a → v.heap a = w'.heap a := by
    intro t
    obtain ⟨v1, e1, e2, e3⟩ := C37_alone E own hd xs hx w rs w' h t
    obtain ⟨v2, f1, f2, f3⟩ := C37_alone E own hd ys hy w rs' v hv t
    rw [← hxy t, e1] at f1
    have e := ok_inj f1
    rw [Prod.mk.injEq] at e
    obtain ⟨e4, rfl⟩ := e
    exact ⟨e4.symm, f2.symm.trans e2, fun a ha => (f3 a ha).symm.trans (e3 a ha)⟩
  have hvw : v = w' := by
    ext1
    · funext a
      by_cases ha : ∃ t, own t a
      · obtain ⟨t, ht⟩ := ha
        exact (key t).2.2 a ht
      · have ha' : ∀ t, ¬ own t a := fun t ht => ha ⟨t, ht⟩
        exact (sched_unowned E ys (fun x hx => (hy x hx).1) w _ hv a ha').trans
          (sched_unowned E xs (fun x h => (hx x h).1) w _ h a ha').symm
    · funext t
      exact (key t).2.1
  subst hvw
  exact ⟨rs', hv, fun t => (key t).1⟩

/-- In every interleaving, a thread that makes calls on one decoder (three different parameter sets `p` that it owns) gets
what the same program gets on that decoder without threads: the same samples, or their conversion to 16 bits, the same
status strings, the same final parameter sets and thread-local variables. -/
theorem C37_program (E : Env F) (own : Nat → Nat → Prop) (hd : Disjoint2 own) (xs : List (Nat × Act F)) (ho : Owned own xs)
    (w : World F) (rs : List (Nat × Res F)) (w' : World F) (h : runSched E xs w = .ok (rs, w')) (t : Nat) (p : Ptrs)
    (hp : own t p.cur ∧ own t p.prev ∧ own t p.enh) (hn : [p.cur, p.prev, p.enh].Nodup)
    (cs : List (Option (Arr 160 Int) × Act F × Api F)) (hc : ∀ c ∈ cs, Does p c.1 c.2.1 c.2.2)
    (hx : only t xs = cs.map fun c => (t, c.2.1)) :
    ∃ ds, deliveries (Api.call E) (cs.map fun c => c.2.2) (view p t w) = .ok (ds, view p t w') ∧ ds.length = cs.length ∧
      List.Forall₂ (fun (r : Nat × Res F) (x : (Option (Arr 160 Int) × Act F × Api F) × Option (Arr 160 F × List Char)) =>
        Hands x.1.1 r.2 x.2) (only t rs) (cs.zip ds) := by
  obtain ⟨v, e1, e2, e3⟩ := C37_alone E own hd xs ho w rs w' h t
  rw [hx] at e1
  simp only [List.nodup_cons, List.mem_cons, List.not_mem_nil, or_false, not_or, not_false_eq_true, List.nodup_nil, and_true] at hn
  obtain ⟨ds, f1, f2, f3⟩ := runSched_does E hn.1.1 hn.1.2 hn.2 t cs hc w v (only t rs) e1
  refine ⟨ds, ?_, f3, f2⟩
  rw [f1]
  unfold view
  rw [e2, e3 _ hp.1, e3 _ hp.2.1, e3 _ hp.2.2]

/-- The other calls: each does to the parameter sets it is given, and to the thread's variables, what the function says;
everything else stays as it is. -/
theorem C37_calls (E : Env F) (t : Nat) (a : Act F) (hn : a.addrs.Nodup) (w w' : World F) (r : Res F)
    (h : a.exec E t w = .ok (r, w')) :
    Means E a w.heap (w.tls t) r w'.heap (w'.tls t) ∧ (∀ x, x ∉ a.addrs → w'.heap x = w.heap x) ∧
      ∀ u, u ≠ t → w'.tls u = w.tls u := by
  refine ⟨exec_means E t a hn w w' r h, ?_⟩
  exact (exec_local E (own := fun _ x => x ∈ a.addrs) (fun x hx => hx)).keep w r w' h

/-- Seeding on one thread does not change what another thread gets. -/
theorem C37_seed (E : Env F) (own : Nat → Nat → Prop) (hd : Disjoint2 own) (xs ys : List (Nat × Act F))
    (ho : Owned own (xs ++ ys)) (u n : Nat) (w : World F) (rs rs' : List (Nat × Res F)) (w1 w2 : World F)
    (h1 : runSched E (xs ++ ys) w = .ok (rs, w1)) (h2 : runSched E (xs ++ (u, .seed n) :: ys) w = .ok (rs', w2))
    (t : Nat) (ht : t ≠ u) : only t rs = only t rs' ∧ w1.tls t = w2.tls t ∧ ∀ a, own t a → w1.heap a = w2.heap a := by
  have ho' : Owned own (xs ++ (u, Act.seed n) :: ys) := by
    intro x hx
    rcases List.mem_append.1 hx with h | h
    · exact ho x (List.mem_append_left _ h)
    · rcases List.mem_cons.1 h with rfl | h
      · exact ⟨fun a (ha : a ∈ ([] : List Nat)) => absurd ha List.not_mem_nil, List.nodup_nil⟩
      · exact ho x (List.mem_append_right _ h)
  have e : only t (xs ++ (u, Act.seed n) :: ys) = only t (xs ++ ys) := by
    unfold only
    rw [List.filter_append, List.filter_append, List.filter_cons_of_neg]
    exact fun h => ht (beq_iff_eq.1 h).symm
  obtain ⟨v1, e1, e2, e3⟩ := C37_alone E own hd _ ho w rs w1 h1 t
  obtain ⟨v2, f1, f2, f3⟩ := C37_alone E own hd _ ho' w rs' w2 h2 t
  rw [e, e1] at f1
  have g := ok_inj f1
  rw [Prod.mk.injEq] at g
  obtain ⟨g1, rfl⟩ := g
  exact ⟨g1, e2.symm.trans f2, fun a ha => (e3 a ha).symm.trans (f3 a ha)⟩

end

variable {m : Libm}

/-- Two threads, each with its own decoder (addresses 1-3 and 4-6), interleaved: the hypotheses of the theorems hold and
the schedule runs. Seeding does matter on the thread itself. -/
example : ∃ (own : Nat → Nat → Prop) (xs : List (Nat × Act (IEEE m))), Disjoint2 own ∧ Owned own xs ∧ only 0 xs ≠ [] ∧ only 1 xs ≠ [] ∧
    ∀ w, ∃ o, runSched sampleEnv xs w = .ok o := by
  refine ⟨fun t a => a / 4 = t, [(0, .initMbe ⟨1, 2, 3⟩), (1, .seed 7), (1, .initMbe ⟨4, 5, 6⟩), (0, .requiresMuting 1),
    (1, .move 4 5)], fun t u a h1 h2 => h1.symm.trans h2, ?_, by simp [only], by simp [only], fun w => ?_⟩
  · intro x hx
    fin_cases hx <;> simp [Act.addrs]
  · simp only [runSched_cons, runSched, Act.exec, onThree, onTls, onOne, onTwo, initMbeState_ieee, ok_bind]
    exact ⟨_, rfl⟩

/-- Thread 0 of an interleaving makes two calls on the decoder at addresses 1, 2 and 3, as `C37_program` requires. -/
example : ∃ (xs : List (Nat × Act (IEEE m))) (cs : List (Option (Arr 160 Int) × Act (IEEE m) × Api (IEEE m))),
    (∀ c ∈ cs, Does ⟨1, 2, 3⟩ c.1 c.2.1 c.2.2) ∧ only 0 xs = cs.map (fun c => (0, c.2.1)) ∧ cs.length = 2 ∧ only 1 xs ≠ [] := by
  refine ⟨[(0, .initMbe ⟨1, 2, 3⟩), (1, .initMbe ⟨4, 5, 6⟩), (0, .seed 9)],
    [(none, .initMbe ⟨1, 2, 3⟩, .initMbe), (none, .seed 9, .seed 9)], ?_, by simp [only], rfl, by simp [only]⟩
  intro c hc
  fin_cases hc
  · exact .init
  · exact .seed 9

example (z : Tls (IEEE m)) : (setThreadRngSeed 1 z).rngState ≠ (setThreadRngSeed 2 z).rngState := by
  show (1 : Nat) ≠ 2
  decide

end Verif.Props
