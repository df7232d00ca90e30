import Verif.Lemmas.FftRun

/-!
# The passes of the vector build run without undefined behaviour

The counterpart of the second half of `Verif.Lemmas.FftRun` for blocks of 64 elements and three passes.
-/

set_option linter.unusedSectionVars false

namespace Verif.Model.Vec
open Verif Verif.Model Arith

variable {F : Type} [Arith F]

/-- The three shapes of a pass: `ido` and `l1`. -/
def passes : List (Nat × Nat) := [(1, 16), (4, 4), (16, 1)]

theorem mem_passes {ido l1 : Nat} (h : (ido, l1) ∈ passes) :
    (ido = 1 ∧ l1 = 16) ∨ (ido = 4 ∧ l1 = 4) ∨ (ido = 16 ∧ l1 = 1) := by
  simpa [passes] using h

/-- All stores of a forward pass, in order. -/
def passF (ido l1 : Nat) (c w : Int → F) (w1 w2 w3 : Int) : List (Int × F) :=
  (List.range l1).flatMap (fun t => endsF ido 16 c ((t * ido : Nat) : Int) (4 * ((t * ido : Nat) : Int))) ++
  if ido = 1 then [] else
    (List.range l1).flatMap (fun t => (List.range ((ido - 1) / 2)).flatMap fun u =>
      midF ido 16 c w w1 w2 w3 ((t * ido : Nat) : Int) ((2 * u + 2 : Nat) : Int) (((t * ido : Nat) : Int) + ((2 * u + 2 : Nat) : Int) - 1)) ++
    (List.range l1).flatMap (fun t => halfF ido 16 c ((t * ido : Nat) : Int))

/-- All stores of a backward pass, in order. -/
def passB (ido l1 : Nat) (c w : Int → F) (w1 w2 w3 : Int) : List (Int × F) :=
  (List.range l1).flatMap (fun t => endsB ido 16 c (4 * ((t * ido : Nat) : Int)) ((t * ido : Nat) : Int)) ++
  if ido = 1 then [] else
    (List.range l1).flatMap (fun t => (List.range ((ido - 1) / 2)).flatMap fun u =>
      midB ido 16 c w w1 w2 w3 ((2 * u + 2 : Nat) : Int) (-1 + 4 * ((t * ido : Nat) : Int)) (((t * ido : Nat) : Int) + ((2 * u + 2 : Nat) : Int) - 1)) ++
    (List.range l1).flatMap (fun t => halfB ido 16 c ((t * ido : Nat) : Int))

/-- The addresses of the stores of a forward pass. -/
def addrF (ido l1 : Nat) : List Int :=
  (List.range l1).flatMap (fun t =>
    let h : Int := 4 * ((t * ido : Nat) : Int)
    [h + (2 * ido - 1), h + 2 * ido, h, h + (4 * ido - 1)]) ++
  if ido = 1 then [] else
    (List.range l1).flatMap (fun t => (List.range ((ido - 1) / 2)).flatMap fun u =>
      let k : Int := ((t * ido : Nat) : Int)
      let i : Int := ((2 * u + 2 : Nat) : Int)
      [i - 1 + 4 * k, ido - i - 1 + 4 * k + 3 * ido, i - 1 + 4 * k + 2 * ido, ido - i - 1 + 4 * k + 1 * ido,
        i + 4 * k, ido - i + 4 * k + 3 * ido, i + 4 * k + 2 * ido, ido - i + 4 * k + 1 * ido]) ++
    (List.range l1).flatMap (fun t =>
      let k : Int := ((t * ido : Nat) : Int)
      [ido - 1 + 4 * k, ido - 1 + 4 * k + 2 * ido, 4 * k + 1 * ido, 4 * k + 3 * ido])

/-- The addresses of the stores of a backward pass. -/
def addrB (ido l1 : Nat) : List Int :=
  (List.range l1).flatMap (fun t =>
    let h : Int := ((t * ido : Nat) : Int)
    [h + 0 * 16, h + 2 * 16, h + 1 * 16, h + 3 * 16]) ++
  if ido = 1 then [] else
    (List.range l1).flatMap (fun t => (List.range ((ido - 1) / 2)).flatMap fun u =>
      let h : Int := ((t * ido : Nat) : Int) + ((2 * u + 2 : Nat) : Int) - 1
      [h, h + 1, h + 16, h + 16 + 1, h + 2 * 16, h + 2 * 16 + 1, h + 3 * 16, h + 3 * 16 + 1]) ++
    (List.range l1).flatMap (fun t =>
      let b : Int := ido - 1 + ((t * ido : Nat) : Int)
      [b + 0 * 16, b + 1 * 16, b + 2 * 16, b + 3 * 16])

theorem passF_addr (ido l1 : Nat) (c w : Int → F) (w1 w2 w3 : Int) :
    (passF ido l1 c w w1 w2 w3).map Prod.fst = addrF ido l1 := by
  unfold passF addrF
  by_cases h : ido = 1
  · simp only [h, if_true, List.append_nil, List.map_flatMap, endsF, List.map_cons, List.map_nil]
  · simp only [h, if_false, List.map_append, List.map_flatMap, endsF, midF, halfF, List.map_cons, List.map_nil]

theorem passB_addr (ido l1 : Nat) (c w : Int → F) (w1 w2 w3 : Int) :
    (passB ido l1 c w w1 w2 w3).map Prod.fst = addrB ido l1 := by
  unfold passB addrB
  by_cases h : ido = 1
  · simp only [h, if_true, List.append_nil, List.map_flatMap, endsB, List.map_cons, List.map_nil]
  · simp only [h, if_false, List.map_append, List.map_flatMap, endsB, midB, halfB, List.map_cons, List.map_nil]

/-- Each address of the list is below 64 and seen for the first time; returns the set of addresses as bits. -/
def bitSet : List Int → Nat → Option Nat
  | [], m => some m
  | a :: r, m => if 0 ≤ a ∧ a < 64 ∧ m.testBit a.toNat = false then bitSet r (m ||| 2 ^ a.toNat) else none

theorem bitSet_spec {l : List Int} {m m' : Nat} (h : bitSet l m = some m') :
    l.Nodup ∧ (∀ a ∈ l, 0 ≤ a ∧ a < 64 ∧ m.testBit a.toNat = false) ∧
      ∀ j : Nat, m'.testBit j = true → m.testBit j = true ∨ (j : Int) ∈ l := by
  induction l generalizing m with
  | nil =>
    cases h
    exact ⟨List.nodup_nil, by simp, fun j hj => Or.inl hj⟩
  | cons a r ih =>
    rw [bitSet] at h
    split at h
    · rename_i ha
      obtain ⟨h1, h2, h3⟩ := ih h
      refine ⟨List.nodup_cons.2 ⟨fun hm => ?_, h1⟩, ?_, ?_⟩
      · have := (h2 a hm).2.2
        rw [Nat.testBit_or, Nat.testBit_two_pow_self, Bool.or_true] at this
        cases this
      · intro b hb
        rcases List.mem_cons.1 hb with rfl | hb
        · exact ha
        · obtain ⟨b1, b2, b3⟩ := h2 b hb
          rw [Nat.testBit_or, Bool.or_eq_false_iff] at b3
          exact ⟨b1, b2, b3.1⟩
      · intro j hj
        rcases h3 j hj with h | h
        · rw [Nat.testBit_or, Bool.or_eq_true] at h
          rcases h with h | h
          · exact Or.inl h
          · rw [Nat.testBit_two_pow] at h
            have : a.toNat = j := of_decide_eq_true h
            exact Or.inr (List.mem_cons.2 (Or.inl (by omega)))
        · exact Or.inr (List.mem_cons_of_mem _ h)
    · cases h

/-- Each pass writes every element of its target exactly once: the whole address lists, for all four shapes. -/
theorem addrs_bits : ∀ p ∈ passes, bitSet (addrF p.1 p.2) 0 = some (2 ^ 64 - 1) ∧ bitSet (addrB p.1 p.2) 0 = some (2 ^ 64 - 1) := by
  decide +kernel

theorem bits_ok {l : List Int} (h : bitSet l 0 = some (2 ^ 64 - 1)) :
    l.Nodup ∧ (∀ a ∈ l, 0 ≤ a ∧ a < 64) ∧ ∀ j : Nat, j < 64 → (j : Int) ∈ l := by
  obtain ⟨h1, h2, h3⟩ := bitSet_spec h
  refine ⟨h1, fun a ha => ⟨(h2 a ha).1, (h2 a ha).2.1⟩, fun j hj => ?_⟩
  rcases h3 j (by rw [Nat.testBit_two_pow_sub_one]; exact decide_eq_true hj) with h | h
  · rw [Nat.zero_testBit] at h; cases h
  · exact h

theorem addrs_ok : ∀ p ∈ passes,
    ((addrF p.1 p.2).Nodup ∧ (∀ a ∈ addrF p.1 p.2, 0 ≤ a ∧ a < 64) ∧ ∀ j : Nat, j < 64 → (j : Int) ∈ addrF p.1 p.2) ∧
    ((addrB p.1 p.2).Nodup ∧ (∀ a ∈ addrB p.1 p.2, 0 ≤ a ∧ a < 64) ∧ ∀ j : Nat, j < 64 → (j : Int) ∈ addrB p.1 p.2) :=
  fun p hp => ⟨bits_ok (addrs_bits p hp).1, bits_ok (addrs_bits p hp).2⟩

/-- The result of a forward pass as a function. -/
def stepF (ido l1 : Nat) (w : Int → F) (w1 w2 w3 : Int) (c : Int → F) : Int → F :=
  valAt (fi 0) (passF ido l1 c w w1 w2 w3)

/-- The result of a backward pass as a function. -/
def stepB (ido l1 : Nat) (w : Int → F) (w1 w2 w3 : Int) (c : Int → F) : Int → F :=
  valAt (fi 0) (passB ido l1 c w w1 w2 w3)

theorem radf4_stores {ido l1 : Nat} (hp : (ido, l1) ∈ passes) (c w : Int → F) (wa : Loc 64 F) (ch : Loc 64 F) {w1 w2 w3 : Int}
    (hw : TwRows wa w ido w1 w2 w3) :
    radf4 ido l1 (full 64 c) wa w1 w2 w3 ch = .ok (stores ch (passF ido l1 c w w1 w2 w3)) := by
  have hp := mem_passes hp
  have hq : (l1 : Int) * (ido : Int) = 16 := by
    rcases hp with ⟨rfl, rfl⟩ | ⟨rfl, rfl⟩ | ⟨rfl, rfl⟩ <;> rfl
  have hk : ∀ t, t < l1 → ((t * ido : Nat) : Int) + ido ≤ 16 := by
    intro t ht
    rcases hp with ⟨rfl, rfl⟩ | ⟨rfl, rfl⟩ | ⟨rfl, rfl⟩ <;> omega
  have hc : ∀ t : Nat, (t : Int) * (ido : Int) = ((t * ido : Nat) : Int) := fun t => by push_cast; rfl
  have hc4 : ∀ t : Nat, (t : Int) * (4 * (ido : Int)) = 4 * ((t * ido : Nat) : Int) := fun t => by
    rw [← hc, Int.mul_left_comm]
  have hi1 : (1 : Int) ≤ ido := by
    rcases hp with ⟨rfl, rfl⟩ | ⟨rfl, rfl⟩ | ⟨rfl, rfl⟩ <;> omega
  unfold radf4
  dsimp only
  rw [hq, Int.toNat_natCast]
  rw [loop_stores (fun t => endsF ido 16 c ((t * ido : Nat) : Int) (4 * ((t * ido : Nat) : Int))) (by
    intro t ht s
    rw [hc, hc4]
    exact radf4Ends_eq c s hi1 (by omega) (hk t ht) (by omega)), ok_bind]
  by_cases h1 : ido = 1
  · rw [if_pos (by omega), passF, if_pos h1, List.append_nil]
  · have h2 : ¬ (ido : Int) = 2 ∧ (ido : Int) % 2 = 0 ∧ ¬ (ido : Int) < 2 := by
      rcases hp with ⟨rfl, rfl⟩ | ⟨rfl, rfl⟩ | ⟨rfl, rfl⟩ <;> omega
    rw [if_neg h2.2.2, if_pos h2.1]
    have hn : (((ido : Int) - 1) / 2).toNat = (ido - 1) / 2 := by omega
    rw [hn]
    rw [loop_stores (fun t => (List.range ((ido - 1) / 2)).flatMap fun u =>
      midF ido 16 c w w1 w2 w3 ((t * ido : Nat) : Int) ((2 * u + 2 : Nat) : Int) (((t * ido : Nat) : Int) + ((2 * u + 2 : Nat) : Int) - 1)) (by
      intro t ht s
      refine loop_stores _ ?_ s
      intro u hu s
      have e1 : (2 * (u : Int) + 2) = ((2 * u + 2 : Nat) : Int) := by push_cast; rfl
      have e2 : 1 + ((t * ido : Nat) : Int) + 2 * (u : Int) = ((t * ido : Nat) : Int) + ((2 * u + 2 : Nat) : Int) - 1 := by omega
      rw [hc, e2, e1]
      exact radf4Mid_eq c w wa s hw (by omega) (hk t ht) (by omega) (by omega) (by omega)), ok_bind, if_neg (by omega)]
    rw [loop_stores (fun t => halfF ido 16 c ((t * ido : Nat) : Int)) (by
      intro t ht s
      rw [hc]
      exact radf4Half_eq c s hi1 (by omega) (hk t ht) (by omega))]
    rw [stores_stores, stores_stores, passF, if_neg h1]

theorem radb4_stores {ido l1 : Nat} (hp : (ido, l1) ∈ passes) (c w : Int → F) (wa : Loc 64 F) (ch : Loc 64 F) {w1 w2 w3 : Int}
    (hw : TwRows wa w ido w1 w2 w3) :
    radb4 ido l1 (full 64 c) wa w1 w2 w3 ch = .ok (stores ch (passB ido l1 c w w1 w2 w3)) := by
  have hp := mem_passes hp
  have hq : (l1 : Int) * (ido : Int) = 16 := by
    rcases hp with ⟨rfl, rfl⟩ | ⟨rfl, rfl⟩ | ⟨rfl, rfl⟩ <;> rfl
  have hk : ∀ t, t < l1 → ((t * ido : Nat) : Int) + ido ≤ 16 := by
    intro t ht
    rcases hp with ⟨rfl, rfl⟩ | ⟨rfl, rfl⟩ | ⟨rfl, rfl⟩ <;> omega
  have hc : ∀ t : Nat, (t : Int) * (ido : Int) = ((t * ido : Nat) : Int) := fun t => by push_cast; rfl
  have hc4 : ∀ t : Nat, (t : Int) * (4 * (ido : Int)) = 4 * ((t * ido : Nat) : Int) := fun t => by
    rw [← hc, Int.mul_left_comm]
  have hi1 : (1 : Int) ≤ ido := by
    rcases hp with ⟨rfl, rfl⟩ | ⟨rfl, rfl⟩ | ⟨rfl, rfl⟩ <;> omega
  unfold radb4
  dsimp only
  rw [hq, Int.toNat_natCast]
  rw [loop_stores (fun t => endsB ido 16 c (4 * ((t * ido : Nat) : Int)) ((t * ido : Nat) : Int)) (by
    intro t ht s
    rw [hc, hc4]
    exact radb4Ends_eq c s hi1 (by omega) (hk t ht) (by omega)), ok_bind]
  by_cases h1 : ido = 1
  · rw [if_pos (by omega), passB, if_pos h1, List.append_nil]
  · have h2 : ¬ (ido : Int) = 2 ∧ (ido : Int) % 2 = 0 ∧ ¬ (ido : Int) < 2 := by
      rcases hp with ⟨rfl, rfl⟩ | ⟨rfl, rfl⟩ | ⟨rfl, rfl⟩ <;> omega
    rw [if_neg h2.2.2, if_pos h2.1]
    have hn : (((ido : Int) - 1) / 2).toNat = (ido - 1) / 2 := by omega
    rw [hn]
    rw [loop_stores (fun t => (List.range ((ido - 1) / 2)).flatMap fun u =>
      midB ido 16 c w w1 w2 w3 ((2 * u + 2 : Nat) : Int) (-1 + 4 * ((t * ido : Nat) : Int)) (((t * ido : Nat) : Int) + ((2 * u + 2 : Nat) : Int) - 1)) (by
      intro t ht s
      refine loop_stores _ ?_ s
      intro u hu s
      have e1 : (2 * (u : Int) + 2) = ((2 * u + 2 : Nat) : Int) := by push_cast; rfl
      have e2 : ((t * ido : Nat) : Int) + 1 + 2 * (u : Int) = ((t * ido : Nat) : Int) + ((2 * u + 2 : Nat) : Int) - 1 := by omega
      rw [hc, e2, e1]
      exact radb4Mid_eq c w wa s hw (by omega) (hk t ht) (by omega) (by omega) (by omega)), ok_bind, if_neg (by omega)]
    rw [loop_stores (fun t => halfB ido 16 c ((t * ido : Nat) : Int)) (by
      intro t ht s
      rw [hc]
      exact radb4Half_eq c s hi1 (by omega) (hk t ht) (by omega))]
    rw [stores_stores, stores_stores, passB, if_neg h1]

theorem radf4_eq {ido l1 : Nat} (hp : (ido, l1) ∈ passes) (c w : Int → F) (wa : Loc 64 F) (ch : Loc 64 F) {w1 w2 w3 : Int}
    (hw : TwRows wa w ido w1 w2 w3) :
    radf4 ido l1 (full 64 c) wa w1 w2 w3 ch = .ok (full 64 (stepF ido l1 w w1 w2 w3 c)) := by
  obtain ⟨h1, h2, h3⟩ := (addrs_ok _ hp).1
  rw [radf4_stores hp c w wa ch hw, stores_full (fi 0) ch (by rw [passF_addr]; exact h1)
    (by rw [passF_addr]; exact fun a ha => (h2 a ha).1) (by rw [passF_addr]; exact h3)]
  rfl

theorem radb4_eq {ido l1 : Nat} (hp : (ido, l1) ∈ passes) (c w : Int → F) (wa : Loc 64 F) (ch : Loc 64 F) {w1 w2 w3 : Int}
    (hw : TwRows wa w ido w1 w2 w3) :
    radb4 ido l1 (full 64 c) wa w1 w2 w3 ch = .ok (full 64 (stepB ido l1 w w1 w2 w3 c)) := by
  obtain ⟨h1, h2, h3⟩ := (addrs_ok _ hp).2
  rw [radb4_stores hp c w wa ch hw, stores_full (fi 0) ch (by rw [passB_addr]; exact h1)
    (by rw [passB_addr]; exact fun a ha => (h2 a ha).1) (by rw [passB_addr]; exact h3)]
  rfl

theorem stepF_mem {ido l1 : Nat} (hp : (ido, l1) ∈ passes) {c w : Int → F} {w1 w2 w3 : Int} {a : Int} {v : F}
    (h : (a, v) ∈ passF ido l1 c w w1 w2 w3) : stepF ido l1 w w1 w2 w3 c a = v :=
  valAt_mem _ (by rw [passF_addr]; exact (addrs_ok _ hp).1.1) h

theorem stepB_mem {ido l1 : Nat} (hp : (ido, l1) ∈ passes) {c w : Int → F} {w1 w2 w3 : Int} {a : Int} {v : F}
    (h : (a, v) ∈ passB ido l1 c w w1 w2 w3) : stepB ido l1 w w1 w2 w3 c a = v :=
  valAt_mem _ (by rw [passB_addr]; exact (addrs_ok _ hp).2.1) h

end Verif.Model.Vec
