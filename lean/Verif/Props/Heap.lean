import Verif.Spec.Heap
import Mathlib.Data.List.Nodup

/-!
# C58: blocks of the FFT plan
-/

namespace Verif.Props
open Verif.Spec Verif.Model

/-- The whole table of outcomes of `mbe_fft_plan_alloc`. -/
theorem planAlloc_eq (grant : Nat → Bool) (factors : Bool) (h : Heap) :
    planAlloc grant factors h =
      if grant h.req = false then .ok (none, ⟨h.req + 1, h.live⟩)
      else if grant (h.req + 1) = false ∨ grant (h.req + 2) = false then .error .nullDeref
      else if factors = false then .ok (none, ⟨h.req + 3, h.live⟩)
      else if grant (h.req + 3) && grant (h.req + 4) && grant (h.req + 5) && grant (h.req + 6) then
        .ok (some ⟨h.req, some ⟨h.req + 1, some (h.req + 2)⟩, some (h.req + 3), some (h.req + 4), some (h.req + 5),
          some (h.req + 6)⟩, ⟨h.req + 7, [h.req + 6, h.req + 5, h.req + 4, h.req + 3, h.req + 2, h.req + 1, h.req] ++ h.live⟩)
      else .ok (none, ⟨h.req + 7, h.live⟩) := by
  obtain ⟨r, l⟩ := h
  dsimp only at *
  cases h0 : grant r <;> cases h1 : grant (r + 1) <;> cases h2 : grant (r + 2) <;> cases factors <;>
  cases h3 : grant (r + 3) <;> cases h4 : grant (r + 4) <;> cases h5 : grant (r + 5) <;> cases h6 : grant (r + 6) <;>
    simp [planAlloc, alignedMalloc, hmalloc, newSetup, hderef, destroySetup, alignedFree, hfree, planFree, h0, h1, h2, h3, h4, h5, h6,
      bind, StateT.bind, pure, StateT.pure, Except.bind, Except.pure, List.erase_cons]

/-- Nothing but the two requests inside `pffft_new_setup` can make the allocation undefined. If both are granted (or not
reached), the result is null exactly when a request or the factorisation fails, and then every block has been returned. -/
theorem C58_alloc_partial (grant : Nat → Bool) (factors : Bool) (h : Heap)
    (hg : grant h.req = true → grant (h.req + 1) = true ∧ grant (h.req + 2) = true) :
    ∃ res h', planAlloc grant factors h = .ok (res, h') ∧ (res = none → h'.live = h.live) ∧
      (res.isSome ↔ factors = true ∧ ∀ k < 7, grant (h.req + k) = true) := by
  have all : (∀ k < 7, grant (h.req + k) = true) ↔ grant h.req = true ∧ grant (h.req + 1) = true ∧ grant (h.req + 2) = true ∧
      grant (h.req + 3) = true ∧ grant (h.req + 4) = true ∧ grant (h.req + 5) = true ∧ grant (h.req + 6) = true := by
    constructor
    · intro g
      exact ⟨g 0 (by omega), g 1 (by omega), g 2 (by omega), g 3 (by omega), g 4 (by omega), g 5 (by omega), g 6 (by omega)⟩
    · rintro ⟨g0, g1, g2, g3, g4, g5, g6⟩ k hk
      rcases k with _ | _ | _ | _ | _ | _ | _ | k
      all_goals first | assumption | omega
  rw [planAlloc_eq, all]
  by_cases g0 : grant h.req = true
  · obtain ⟨g1, g2⟩ := hg g0
    cases factors
    · rw [if_neg (by simp [g0]), if_neg (by simp [g1, g2]), if_pos rfl]
      exact ⟨_, _, rfl, fun _ => rfl, by simp⟩
    · rw [if_neg (by simp [g0]), if_neg (by simp [g1, g2]), if_neg (by simp)]
      by_cases g3 : (grant (h.req + 3) && grant (h.req + 4) && grant (h.req + 5) && grant (h.req + 6)) = true
      · rw [if_pos g3]
        simp only [Bool.and_eq_true] at g3
        exact ⟨_, _, rfl, fun e => by simp at e, by simp [g0, g1, g2, g3]⟩
      · rw [if_neg g3]
        refine ⟨_, _, rfl, fun _ => rfl, ?_⟩
        simp only [Bool.and_eq_true] at g3
        simp only [Option.isSome_none, Bool.false_eq_true, true_and, false_iff]
        tauto
  · rw [if_pos (by simpa using g0)]
    exact ⟨_, _, rfl, fun _ => rfl, by simp [g0]⟩

/-- When memory lasts for the plan itself but not for the setup or its table, the allocation dereferences a null pointer
instead of returning null: `pffft_new_setup` does not check its two requests. -/
theorem C58_setup_unchecked (grant : Nat → Bool) (factors : Bool) (h : Heap) (h0 : grant h.req = true)
    (h1 : grant (h.req + 1) = false ∨ grant (h.req + 2) = false) : planAlloc grant factors h = .error .nullDeref := by
  rw [planAlloc_eq, if_neg (by simp [h0]), if_pos h1]

/-- A system that grants one request and refuses the second. -/
example : planAlloc (fun k => k == 0) true ⟨0, []⟩ = .error .nullDeref := by decide

/-- A plan that is handed out has no null pointer and owns seven blocks, all of them new, which become live. -/
theorem C58_complete (grant : Nat → Bool) (factors : Bool) (h h' : Heap) (hs : Spec.Heap.Sane h) (p : PlanPtr)
    (e : planAlloc grant factors h = .ok (some p, h')) :
    Complete p ∧ (owned p).length = 7 ∧ (owned p).Nodup ∧ (∀ b ∈ owned p, b ∉ h.live) ∧
      h'.live.Perm (owned p ++ h.live) ∧ Spec.Heap.Sane h' := by
  rw [planAlloc_eq] at e
  split at e
  · cases e
  split at e
  · cases e
  split at e
  · cases e
  split at e
  · cases e
    have hp : ([h.req + 6, h.req + 5, h.req + 4, h.req + 3, h.req + 2, h.req + 1, h.req] ++ h.live).Perm
        ([h.req, h.req + 1, h.req + 2, h.req + 3, h.req + 4, h.req + 5, h.req + 6] ++ h.live) :=
      (List.reverse_perm [h.req, h.req + 1, h.req + 2, h.req + 3, h.req + 4, h.req + 5, h.req + 6]).append_right _
    have hn : ∀ b ∈ [h.req, h.req + 1, h.req + 2, h.req + 3, h.req + 4, h.req + 5, h.req + 6], b ∉ h.live := by
      intro b hb hl
      have := hs.1 b hl
      simp only [List.mem_cons, List.not_mem_nil, or_false] at hb
      omega
    have hd : [h.req, h.req + 1, h.req + 2, h.req + 3, h.req + 4, h.req + 5, h.req + 6].Nodup := by simp
    refine ⟨⟨⟨_, rfl, rfl⟩, rfl, rfl, rfl, rfl⟩, rfl, hd, hn, hp, ?_, ?_⟩
    · intro b hb
      have hb := hp.subset hb
      rw [List.mem_append] at hb
      dsimp only
      rcases hb with hb | hb
      · simp only [List.mem_cons, List.not_mem_nil, or_false] at hb
        omega
      · have := hs.1 b hb
        omega
    · exact hp.nodup_iff.2 (List.nodup_append.2 ⟨hd, hs.2, fun a ha b hb e => hn a ha (e ▸ hb)⟩)
  · cases e

/-- Allocation on an empty heap where every request is granted. -/
example : Spec.Heap.Sane ⟨0, []⟩ ∧ ∃ p h', planAlloc (fun _ => true) true ⟨0, []⟩ = .ok (some p, h') :=
  ⟨⟨by simp, by simp⟩, _, _, rfl⟩

theorem hbind {α β : Type} {x : HExec α} {f : α → HExec β} {h h' : Heap} {a : α} (e : x h = .ok (a, h')) :
    (x >>= f) h = f a h' := by
  simp [bind, StateT.bind, e, Except.bind]

theorem hderef_mem {x : Nat} {h : Heap} (hx : x ∈ h.live) : hderef (some x) h = .ok (x, h) := by simp [hderef, hx]

theorem hfree_perm {x : Nat} {l : List Nat} {h : Heap} (hl : h.live.Perm (x :: l)) :
    ∃ h', hfree x h = .ok ((), h') ∧ h'.live.Perm l ∧ h'.req = h.req := by
  refine ⟨⟨h.req, h.live.erase x⟩, ?_, ?_, rfl⟩
  · simp [hfree, hl.mem_iff]
  · simpa using hl.erase x

/-- Releasing a complete plan whose blocks are live returns exactly its blocks, each once. -/
theorem C58_free (p : PlanPtr) (hc : Complete p) (h : Heap) (l : List Nat) (hl : h.live.Perm (owned p ++ l)) :
    ∃ h', planFree (some p) h = .ok ((), h') ∧ h'.live.Perm l ∧ h'.req = h.req := by
  obtain ⟨a, st, uw, uf, uo, w⟩ := p
  obtain ⟨⟨⟨s, d⟩, h1, h2⟩, h3, h4, h5, h6⟩ := hc
  dsimp only at h1 h2 h3 h4 h5 h6
  subst h1
  obtain ⟨d, rfl⟩ := Option.isSome_iff_exists.1 h2
  obtain ⟨uw, rfl⟩ := Option.isSome_iff_exists.1 h3
  obtain ⟨uf, rfl⟩ := Option.isSome_iff_exists.1 h4
  obtain ⟨uo, rfl⟩ := Option.isSome_iff_exists.1 h5
  obtain ⟨w, rfl⟩ := Option.isSome_iff_exists.1 h6
  have hl : h.live.Perm (d :: s :: uw :: uf :: uo :: w :: a :: l) := by
    refine hl.trans ?_
    show (a :: s :: d :: uw :: uf :: uo :: w :: l).Perm _
    refine (List.perm_middle (l₁ := [s, d, uw, uf, uo, w])).symm.trans ?_
    exact List.Perm.swap _ _ _
  obtain ⟨k1, e1, p1, r1⟩ := hfree_perm hl
  obtain ⟨k2, e2, p2, r2⟩ := hfree_perm p1
  obtain ⟨k3, e3, p3, r3⟩ := hfree_perm p2
  obtain ⟨k4, e4, p4, r4⟩ := hfree_perm p3
  obtain ⟨k5, e5, p5, r5⟩ := hfree_perm p4
  obtain ⟨k6, e6, p6, r6⟩ := hfree_perm p5
  obtain ⟨k7, e7, p7, r7⟩ := hfree_perm p6
  have hd : destroySetup ⟨s, some d⟩ h = .ok ((), k2) := by
    unfold destroySetup
    rw [hbind (hderef_mem (hl.mem_iff.2 (by simp)))]
    dsimp only [alignedFree]
    rw [hbind e1]
    exact e2
  refine ⟨k7, ?_, p7, by rw [r7, r6, r5, r4, r3, r2, r1]⟩
  unfold planFree
  dsimp only [Option.isSome_some]
  rw [hbind (hderef_mem (hl.mem_iff.2 (by simp))), hbind hd, hbind (hderef_mem (p2.mem_iff.2 (by simp)))]
  simp only [if_true, alignedFree]
  rw [hbind e3, hbind (hderef_mem (p3.mem_iff.2 (by simp))), hbind e4, hbind (hderef_mem (p4.mem_iff.2 (by simp))), hbind e5,
    hbind (hderef_mem (p5.mem_iff.2 (by simp))), hbind e6]
  exact e7

/-- Allocation followed by release leaves the heap as it was. -/
example : planFree (some ⟨0, some ⟨1, some 2⟩, some 3, some 4, some 5, some 6⟩) ⟨7, [6, 5, 4, 3, 2, 1, 0]⟩ =
    .ok ((), ⟨7, []⟩) := by decide

/-- One frame that finds a complete plan with live blocks uses it and requests nothing. -/
theorem useFrame {grant : Nat → Bool} {factors : Bool} {p : PlanPtr} (hc : Complete p) {h : Heap} {l : List Nat}
    (hl : h.live.Perm (owned p ++ l)) : (do
      let _ ← hderef (some p.addr)
      let _ ← hderef (p.setup.map (·.addr))
      let _ ← hderef (p.setup.bind (·.data))
      let _ ← hderef p.uw
      let _ ← hderef p.uwFft
      let _ ← hderef p.uwOut
      let _ ← hderef p.work
      pure (some p) : HExec (Option PlanPtr)) h = .ok (some p, h) := by
  obtain ⟨a, st, uw, uf, uo, w⟩ := p
  obtain ⟨⟨⟨s, d⟩, h1, h2⟩, h3, h4, h5, h6⟩ := hc
  dsimp only at h1 h2 h3 h4 h5 h6
  subst h1
  obtain ⟨d, rfl⟩ := Option.isSome_iff_exists.1 h2
  obtain ⟨uw, rfl⟩ := Option.isSome_iff_exists.1 h3
  obtain ⟨uf, rfl⟩ := Option.isSome_iff_exists.1 h4
  obtain ⟨uo, rfl⟩ := Option.isSome_iff_exists.1 h5
  obtain ⟨w, rfl⟩ := Option.isSome_iff_exists.1 h6
  have hm : ∀ x ∈ [a, s, d, uw, uf, uo, w], x ∈ h.live := fun x hx => hl.mem_iff.2 (List.mem_append_left _ hx)
  dsimp only [Option.map_some, Option.bind_some]
  rw [hbind (hderef_mem (hm a (by simp))), hbind (hderef_mem (hm s (by simp))), hbind (hderef_mem (hm d (by simp))),
    hbind (hderef_mem (hm uw (by simp))), hbind (hderef_mem (hm uf (by simp))), hbind (hderef_mem (hm uo (by simp))),
    hbind (hderef_mem (hm w (by simp)))]
  rfl

/-- Any number of frames on one thread, whatever requests the system refuses: no block is used after its release or
released twice; the thread owns no block or the seven blocks of one plan. Nothing releases them when the thread ends. -/
theorem C58_frames (grant : Nat → Bool) (factors : Bool) (n : Nat) (h : Heap) (hs : Spec.Heap.Sane h) :
    (∀ e, planFrames grant factors n none h = .error e → e = .nullDeref) ∧
    ∀ res h', planFrames grant factors n none h = .ok (res, h') → Spec.Heap.Sane h' ∧
      (res = none → h'.live = h.live) ∧
      ∀ p, res = some p → Complete p ∧ (owned p).length = 7 ∧ h'.live.Perm (owned p ++ h.live) := by
  induction n with
  | zero =>
    constructor
    · intro e he; cases he
    · intro res h' he
      cases he
      exact ⟨hs, fun _ => rfl, fun p e => by cases e⟩
  | succ n ih =>
    unfold planFrames
    cases hp : planFrames grant factors n none h with
    | error e =>
      have := ih.1 e hp
      subst this
      have e0 : ∀ (f : Option PlanPtr → HExec (Option PlanPtr)), (planFrames grant factors n none >>= f) h = .error .nullDeref :=
        fun f => by simp [bind, StateT.bind, hp, Except.bind]
      rw [e0]
      exact ⟨fun e he => by cases he; rfl, fun _ _ he => by cases he⟩
    | ok r =>
      obtain ⟨inst, h1⟩ := r
      rw [hbind hp]
      obtain ⟨s1, n1, p1⟩ := ih.2 inst h1 hp
      cases inst with
      | some p =>
        obtain ⟨c1, c2, c3⟩ := p1 p rfl
        have e1 : getPlanPtr grant factors (some p) h1 = .ok (some p, h1) := rfl
        rw [hbind e1]
        dsimp only
        rw [useFrame (grant := grant) (factors := factors) c1 c3]
        refine ⟨fun e he => (by cases he), fun res h' he => ?_⟩
        cases he
        exact ⟨s1, fun e => (by cases e), fun q e => (by cases e; exact ⟨c1, c2, c3⟩)⟩
      | none =>
        have n1 := n1 rfl
        have e1 : getPlanPtr grant factors none h1 = planAlloc grant factors h1 := rfl
        cases ha : planAlloc grant factors h1 with
        | error e =>
          have e0 : ∀ (f : Option PlanPtr → HExec (Option PlanPtr)), (getPlanPtr grant factors none >>= f) h1 = .error e :=
            fun f => by simp [bind, StateT.bind, e1, ha, Except.bind]
          rw [e0]
          refine ⟨fun e he => ?_, fun _ _ he => by cases he⟩
          cases he
          rw [planAlloc_eq] at ha
          split at ha
          · cases ha
          split at ha
          · cases ha; rfl
          split at ha
          · cases ha
          split at ha <;> cases ha
        | ok r =>
          obtain ⟨inst, h2⟩ := r
          rw [hbind (e1.trans ha)]
          cases inst with
          | some p =>
            obtain ⟨c1, c2, _, _, c3, c4⟩ := C58_complete grant factors h1 h2 s1 p ha
            rw [n1] at c3
            dsimp only
            rw [useFrame (grant := grant) (factors := factors) c1 c3]
            refine ⟨fun e he => (by cases he), fun res h' he => ?_⟩
            cases he
            exact ⟨c4, fun e => (by cases e), fun q e => (by cases e; exact ⟨c1, c2, c3⟩)⟩
          | none =>
            refine ⟨fun e he => (by cases he), fun res h' he => ?_⟩
            cases he
            have hl : h2.live = h1.live ∧ h1.req ≤ h2.req := by
              rw [planAlloc_eq] at ha
              split at ha
              · cases ha; exact ⟨rfl, by simp⟩
              split at ha
              · cases ha
              split at ha
              · cases ha; exact ⟨rfl, by simp⟩
              split at ha <;> cases ha
              exact ⟨rfl, by simp⟩
            refine ⟨⟨fun q hq => ?_, ?_⟩, fun _ => hl.1.trans n1, fun q e => by cases e⟩
            · have := s1.1 q (hl.1 ▸ hq)
              omega
            · rw [hl.1]; exact s1.2

/-- Twenty frames request seven blocks when memory suffices. -/
example : ∃ p h', planFrames (fun _ => true) true 20 none ⟨0, []⟩ = .ok (some p, h') ∧ h'.req = 7 ∧ h'.live.length = 7 :=
  ⟨_, _, rfl, rfl, rfl⟩

end Verif.Props
