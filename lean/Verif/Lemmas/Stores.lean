import Verif.Model.Fft
import Mathlib.Data.List.Nodup
import Mathlib.Data.List.Basic

/-!
# Sequences of stores with addresses known in advance
-/

namespace Verif.Model
open Verif Arith

variable {n : Nat} {α : Type}

/-- An array all of whose elements are set, given by a function on subscripts. -/
def full (n : Nat) (c : Int → α) : Loc n α := fun j => some (c (j.val : Int))

/-- The array after some stores. -/
def stores (s : Loc n α) : List (Int × α) → Loc n α
  | [] => s
  | p :: r => stores (Arr.set s p.1.toNat (some p.2)) r

/-- The value stored at `a`. -/
def valAt (d : α) (W : List (Int × α)) (a : Int) : α :=
  match W.find? (fun p => p.1 == a) with
  | some p => p.2
  | none => d

theorem rd_full {c : Int → α} {i : Int} (h0 : 0 ≤ i) (h : i < n) : Loc.rd (full n c) i = .ok (c i) := by
  simp only [Loc.rd, Arr.rd, h0, h, and_self, dite_true, ok_bind, full, init?]
  rw [Int.toNat_of_nonneg h0]

theorem wr_stores {s : Loc n α} {i : Int} {v : α} (h0 : 0 ≤ i) (h : i < n) :
    Loc.wr s i v = .ok (stores s [(i, v)]) := by
  simp only [Loc.wr, Arr.wr, h0, h, and_self, if_true, stores]

theorem stores_append (s : Loc n α) (a b : List (Int × α)) : stores s (a ++ b) = stores (stores s a) b := by
  induction a generalizing s with
  | nil => rfl
  | cons p r ih => exact ih _

theorem stores_stores (s : Loc n α) (a b : List (Int × α)) : stores (stores s a) b = stores s (a ++ b) :=
  (stores_append s a b).symm

theorem loop_stores {f : Nat → Loc n α → Exec (Loc n α)} {N : Nat} (ws : Nat → List (Int × α))
    (h : ∀ t, t < N → ∀ s, f t s = .ok (stores s (ws t))) (s : Loc n α) :
    loop N f s = .ok (stores s ((List.range N).flatMap ws)) := by
  induction N with
  | zero => rfl
  | succ N ih =>
    rw [loop_succ, ih fun t ht => h t (by omega), ok_bind, h N (by omega), stores_stores, List.range_succ,
      List.flatMap_append, List.flatMap_singleton]

theorem stores_other (s : Loc n α) (W : List (Int × α)) (j : Fin n) (h : ∀ p ∈ W, p.1.toNat ≠ j.val) :
    stores s W j = s j := by
  induction W generalizing s with
  | nil => rfl
  | cons p r ih =>
    rw [stores, ih _ fun q hq => h q (List.mem_cons_of_mem _ hq), Arr.set_ne]
    exact fun e => h p (List.mem_cons_self) e.symm

theorem stores_mem (s : Loc n α) {W : List (Int × α)} (hn : (W.map Prod.fst).Nodup)
    (hb : ∀ a ∈ W.map Prod.fst, 0 ≤ a) {a : Int} {v : α} (hm : (a, v) ∈ W) (j : Fin n) (hj : (j.val : Int) = a) :
    stores s W j = some v := by
  induction W generalizing s with
  | nil => cases hm
  | cons p r ih =>
    rw [List.map_cons, List.nodup_cons] at hn
    rw [stores]
    rcases List.mem_cons.1 hm with e | hm
    · rw [stores_other, ← e]
      · exact Arr.set_same (by dsimp only; omega)
      · intro q hq he
        have h1 : q.1 ∈ r.map Prod.fst := List.mem_map_of_mem hq
        have h2 := hb q.1 (List.mem_cons_of_mem _ h1)
        apply hn.1
        have : p.1 = q.1 := by rw [← e]; dsimp only; omega
        rw [this]; exact h1
    · exact ih _ hn.2 (fun a ha => hb a (List.mem_cons_of_mem _ ha)) hm

theorem valAt_mem (d : α) {W : List (Int × α)} (hn : (W.map Prod.fst).Nodup) {a : Int} {v : α} (hm : (a, v) ∈ W) :
    valAt d W a = v := by
  induction W with
  | nil => cases hm
  | cons p r ih =>
    rw [List.map_cons, List.nodup_cons] at hn
    rcases List.mem_cons.1 hm with e | hm
    · rw [← e]; simp [valAt]
    · have : p.1 ≠ a := by
        intro e
        apply hn.1
        rw [e]
        exact List.mem_map_of_mem (f := Prod.fst) hm
      have hf : valAt d (p :: r) a = valAt d r a := by
        simp only [valAt]
        rw [List.find?_cons_of_neg (by simpa using this)]
      rw [hf]
      exact ih hn.2 hm

/-- Stores to every subscript, each once, leave nothing of the old contents. -/
theorem stores_full (d : α) (s : Loc n α) {W : List (Int × α)} (hn : (W.map Prod.fst).Nodup)
    (hb : ∀ a ∈ W.map Prod.fst, 0 ≤ a) (hc : ∀ j < n, (j : Int) ∈ W.map Prod.fst) :
    stores s W = full n (valAt d W) := by
  funext j
  obtain ⟨p, hp, he⟩ := List.mem_map.1 (hc j.val j.isLt)
  rw [stores_mem s hn hb (a := p.1) (v := p.2) hp j he.symm, full, ← he, valAt_mem d hn hp]

end Verif.Model
