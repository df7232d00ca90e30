import Verif.Basic
import Verif.Arr

/-!
# Partial-correctness rules: reasoning from "the computation returned a value"
-/

namespace Verif

theorem bind_ok {α β} {x : Exec α} {f : α → Exec β} {b : β} (h : x >>= f = .ok b) : ∃ a, x = .ok a ∧ f a = .ok b := by
  cases x with
  | ok a => exact ⟨a, rfl, h⟩
  | error e => cases h

theorem bind_ok_iff {α β} {x : Exec α} {f : α → Exec β} {b : β} :
    x >>= f = .ok b ↔ ∃ a, x = .ok a ∧ f a = .ok b :=
  ⟨bind_ok, by rintro ⟨a, rfl, h⟩; exact h⟩

theorem ok_inj {α} {a b : α} (h : (Except.ok a : Exec α) = .ok b) : a = b := by cases h; rfl

theorem Ok.of_eq {α} {x : Exec α} {a : α} {P : α → Prop} (h : Ok x P) (e : x = .ok a) : P a := by
  obtain ⟨b, hb, hp⟩ := h
  rw [e] at hb
  cases hb
  exact hp

theorem Ok.elim {α} {x : Exec α} {P : α → Prop} (h : Ok x P) : ∃ a, x = .ok a := by
  obtain ⟨a, ha, _⟩ := h; exact ⟨a, ha⟩

/-- Every result that is returned satisfies `P`. -/
def Post {α : Type} (x : Exec α) (P : α → Prop) : Prop := ∀ a, x = .ok a → P a

theorem Post.bind {α β} {x : Exec α} {f : α → Exec β} {P : α → Prop} {Q : β → Prop} (hx : Post x P)
    (hf : ∀ a, P a → Post (f a) Q) : Post (x >>= f) Q := by
  intro b h
  obtain ⟨a, ha, hb⟩ := bind_ok h
  exact hf a (hx a ha) b hb

theorem Post.pure {α} {a : α} {P : α → Prop} (h : P a) : Post (Except.ok a : Exec α) P := by
  intro b e; cases e; exact h

theorem Post.mono {α} {x : Exec α} {P Q : α → Prop} (h : Post x P) (hpq : ∀ a, P a → Q a) : Post x Q :=
  fun a e => hpq a (h a e)

theorem Post.true {α} {x : Exec α} : Post x fun _ => True := fun _ _ => trivial

theorem Post.ite {α} {c : Prop} [Decidable c] {x y : Exec α} {P : α → Prop}
    (h1 : c → Post x P) (h2 : ¬c → Post y P) : Post (if c then x else y) P := by
  by_cases h : c
  · rw [if_pos h]; exact h1 h
  · rw [if_neg h]; exact h2 h

theorem Ok.post {α} {x : Exec α} {P : α → Prop} (h : Ok x P) : Post x P := fun _ e => h.of_eq e

/-- Invariant rule for `loop`, partial correctness. -/
theorem loop_post {σ} {n : Nat} {f : Nat → σ → Exec σ} {s : σ} (Inv : Nat → σ → Prop) (h0 : Inv 0 s)
    (hs : ∀ i, i < n → ∀ s, Inv i s → Post (f i s) (Inv (i + 1))) : Post (loop n f s) (Inv n) := by
  induction n with
  | zero => exact Post.pure h0
  | succ n ih =>
    rw [loop_succ]
    exact Post.bind (ih fun i hi => hs i (Nat.lt_succ_of_lt hi)) fun a ha => hs n (Nat.lt_succ_self n) a ha

theorem loopFT_post {σ} {lo hi : Nat} {f : Nat → σ → Exec σ} {s : σ} (Inv : Nat → σ → Prop) (hle : lo ≤ hi + 1)
    (h0 : Inv lo s) (hs : ∀ i, lo ≤ i → i ≤ hi → ∀ s, Inv i s → Post (f i s) (Inv (i + 1))) :
    Post (loopFT lo hi f s) (Inv (hi + 1)) := by
  have := loop_post (n := hi + 1 - lo) (f := fun k s => f (lo + k) s) (s := s) (fun k s => Inv (lo + k) s)
    (by simpa using h0) (fun i hi' s hI => hs (lo + i) (by omega) (by omega) s hI)
  have e : lo + (hi + 1 - lo) = hi + 1 := by omega
  rw [e] at this
  exact this

/-- Partial-correctness rule with an invariant that does not mention the counter. -/
theorem loop_post' {σ} {n : Nat} {f : Nat → σ → Exec σ} {s : σ} (Inv : σ → Prop) (h0 : Inv s)
    (hs : ∀ i, ∀ s, Inv s → Post (f i s) Inv) : Post (loop n f s) Inv :=
  loop_post (fun _ s => Inv s) h0 fun i _ s h => hs i s h

theorem loopFT_post' {σ} {lo hi : Nat} {f : Nat → σ → Exec σ} {s : σ} (Inv : σ → Prop) (h0 : Inv s)
    (hs : ∀ i, ∀ s, Inv s → Post (f i s) Inv) : Post (loopFT lo hi f s) Inv :=
  loop_post' Inv h0 fun i s h => hs (lo + i) s h

namespace Arr
variable {n : Nat} {α : Type}

theorem rd_post {a : Arr n α} {i : Int} : Post (a.rd i) fun v => ∃ h : i.toNat < n, v = a ⟨i.toNat, h⟩ := by
  intro v h
  unfold rd at h
  split at h
  · cases h; exact ⟨by omega, rfl⟩
  · cases h

theorem wr_post {a : Arr n α} {i : Int} {v : α} : Post (a.wr i v) fun b => 0 ≤ i ∧ i < n ∧ b = a.set i.toNat v := by
  intro b h
  unfold wr at h
  split at h
  · rename_i hh; cases h; exact ⟨hh.1, hh.2, rfl⟩
  · cases h

end Arr
end Verif
