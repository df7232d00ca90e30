import Verif.Basic
import Verif.Spec.Codes

/-! Bit-level helper lemmas about words, weights and GF(2)-linear maps. -/

namespace Verif
open Verif.Spec

theorem weight_zero_left (e : Nat) : weight 0 e = 0 := rfl

theorem weight_succ (n e : Nat) : weight (n + 1) e = weight n e + (e.testBit n).toNat := by
  unfold weight
  rw [List.range_succ, List.countP_append, List.countP_singleton]
  cases e.testBit n <;> simp

theorem weight_le (n e : Nat) : weight n e ≤ n := by
  induction n with
  | zero => simp [weight_zero_left]
  | succ n ih => rw [weight_succ]; cases e.testBit n <;> simp <;> omega

theorem weight_congr {n a b : Nat} (h : ∀ i, i < n → a.testBit i = b.testBit i) : weight n a = weight n b := by
  induction n with
  | zero => rfl
  | succ n ih => rw [weight_succ, weight_succ, ih fun i hi => h i (by omega), h n (by omega)]

@[simp] theorem weight_zero (n : Nat) : weight n 0 = 0 := by
  induction n with
  | zero => rfl
  | succ n ih => rw [weight_succ, ih]; simp

theorem weight_xor_le (n a b : Nat) : weight n (a ^^^ b) ≤ weight n a + weight n b := by
  induction n with
  | zero => simp [weight_zero_left]
  | succ n ih =>
    rw [weight_succ, weight_succ, weight_succ, Nat.testBit_xor]
    cases a.testBit n <;> cases b.testBit n <;> simp <;> omega

theorem weight_xor_mod (n a b : Nat) : weight n (a ^^^ b) % 2 = (weight n a + weight n b) % 2 := by
  induction n with
  | zero => simp [weight_zero_left]
  | succ n ih =>
    rw [weight_succ, weight_succ, weight_succ, Nat.testBit_xor]
    cases a.testBit n <;> cases b.testBit n <;> simp <;> omega

/-- All `n`-bit words of weight at most `k`. -/
def patterns : Nat → Nat → List Nat
  | 0, _ => [0]
  | n + 1, 0 => patterns n 0
  | n + 1, k + 1 => patterns n (k + 1) ++ (patterns n k).map (· + 2^n)

theorem mem_patterns {n k e : Nat} (he : e < 2^n) (hw : weight n e ≤ k) : e ∈ patterns n k := by
  induction n generalizing k e with
  | zero => have : e = 0 := by simpa using he
            simp [patterns, this]
  | succ n ih =>
    rw [weight_succ] at hw
    by_cases hb : e.testBit n = true
    · rw [hb] at hw
      simp at hw
      obtain ⟨k, rfl⟩ : ∃ k', k = k' + 1 := ⟨k - 1, by omega⟩
      have hge : 2^n ≤ e := Nat.ge_two_pow_of_testBit hb
      have hlt : e - 2^n < 2^n := by rw [Nat.pow_succ] at he; omega
      have hbits : ∀ i, i < n → (e - 2^n).testBit i = e.testBit i := by
        intro i hi
        have h1 : e = 2^n + (e - 2^n) := by omega
        conv => rhs; rw [h1]
        rw [Nat.testBit_two_pow_add_gt hi]
      have hm := ih hlt (k := k) (by rw [weight_congr hbits]; omega)
      simp only [patterns, List.mem_append, List.mem_map]
      exact Or.inr ⟨e - 2^n, hm, by omega⟩
    · have hb : e.testBit n = false := by simpa using hb
      rw [hb] at hw
      simp at hw
      have hlt : e < 2^n := by
        have := Nat.lt_pow_two_of_testBit e (n := n) (fun i hi => by
          rcases Nat.lt_or_ge i (n+1) with h | h
          · have : i = n := by omega
            subst this; exact hb
          · exact Nat.testBit_lt_two_pow (Nat.lt_of_lt_of_le he (Nat.pow_le_pow_right (by omega) h)))
        exact this
      have hm := ih hlt hw
      cases k with
      | zero => simpa [patterns] using hm
      | succ k => simp only [patterns, List.mem_append]; exact Or.inl hm

/-- GF(2)-linear maps on words. -/
def Linear (f : Nat → Nat) : Prop := ∀ a b, f (a ^^^ b) = f a ^^^ f b

theorem Linear.zero {f : Nat → Nat} (h : Linear f) : f 0 = 0 := by
  have := h 0 0
  simp at this
  exact this

theorem Linear.xor {f g : Nat → Nat} (hf : Linear f) (hg : Linear g) : Linear (fun a => f a ^^^ g a) := by
  intro a b
  show f (a ^^^ b) ^^^ g (a ^^^ b) = _
  rw [hf, hg]
  apply Nat.eq_of_testBit_eq; intro i
  simp only [Nat.testBit_xor]
  cases (f a).testBit i <;> cases (f b).testBit i <;> cases (g a).testBit i <;> cases (g b).testBit i <;> rfl

theorem and_xor_distrib_right (a b m : Nat) : (a ^^^ b) &&& m = (a &&& m) ^^^ (b &&& m) := by
  apply Nat.eq_of_testBit_eq; intro i
  simp only [Nat.testBit_xor, Nat.testBit_and]
  cases a.testBit i <;> cases b.testBit i <;> cases m.testBit i <;> rfl

theorem linear_and (m : Nat) : Linear (fun a => a &&& m) := fun a b => and_xor_distrib_right a b m

theorem linear_shiftRight (k : Nat) : Linear (fun a => a >>> k) := by
  intro a b
  apply Nat.eq_of_testBit_eq; intro i
  simp [Nat.testBit_xor, Nat.testBit_shiftRight]

theorem linear_shiftLeft (k : Nat) : Linear (fun a => a <<< k) := by
  intro a b
  apply Nat.eq_of_testBit_eq; intro i
  simp only [Nat.testBit_xor, Nat.testBit_shiftLeft]
  cases decide (i ≥ k) <;> simp

theorem and_two_pow_eq (b k : Nat) : b &&& 2^k = (b.testBit k).toNat * 2^k := by
  apply Nat.eq_of_testBit_eq; intro i
  rw [Nat.testBit_and, Nat.testBit_two_pow]
  by_cases h : k = i
  · subst h; cases b.testBit k <;> simp [Nat.testBit_two_pow_self]
  · cases b.testBit k <;> simp [h, Nat.testBit_two_pow_of_ne h]

theorem and_two_pow_ne_zero (b k : Nat) : (b &&& 2^k ≠ 0) ↔ b.testBit k = true := by
  rw [and_two_pow_eq]
  cases b.testBit k <;> simp [Nat.pow_eq_zero]

theorem and_shiftRight_two_pow (b k : Nat) : ((b &&& 2^k) >>> k) = (b.testBit k).toNat := by
  rw [and_two_pow_eq, Nat.shiftRight_eq_div_pow]
  cases b.testBit k <;> simp [Nat.div_self (Nat.two_pow_pos k)]

theorem xor_xor_cancel_right (a b : Nat) : a ^^^ b ^^^ b = a := by
  rw [Nat.xor_assoc, Nat.xor_self, Nat.xor_zero]

theorem xor_eq_zero {a b : Nat} (h : a ^^^ b = 0) : a = b := by
  have : a ^^^ b ^^^ b = b := by rw [h]; simp
  rwa [xor_xor_cancel_right] at this

/-! ### carry-less multiplication -/

theorem clmul_succ (n a b : Nat) :
    clmul (n + 1) a b = if a.testBit n then clmul n a b ^^^ (b <<< n) else clmul n a b := by
  unfold clmul
  rw [List.range_succ, List.foldl_append]
  rfl

theorem clmul_xor (n a a' b : Nat) : clmul n (a ^^^ a') b = clmul n a b ^^^ clmul n a' b := by
  induction n with
  | zero => simp [clmul]
  | succ n ih =>
    simp only [clmul_succ, Nat.testBit_xor, ih]
    have h1 : ∀ x y z : Nat, x ^^^ y ^^^ z = x ^^^ z ^^^ y := fun x y z => by
      rw [Nat.xor_assoc, Nat.xor_comm y z, ← Nat.xor_assoc]
    cases a.testBit n <;> cases a'.testBit n <;> simp
    · rw [Nat.xor_assoc]
    · rw [h1]
    · rw [h1 _ (b <<< n), ← Nat.xor_assoc, xor_xor_cancel_right]

theorem clmul_lt {n k a b : Nat} (hb : b < 2^k) : clmul (n + 1) a b < 2^(n + k) := by
  induction n with
  | zero =>
    rw [clmul_succ]
    simp only [clmul, List.range_zero, List.foldl_nil, Nat.zero_xor, Nat.shiftLeft_zero, Nat.zero_add]
    split
    · exact hb
    · exact Nat.two_pow_pos k
  | succ n ih =>
    rw [clmul_succ]
    have h1 : clmul (n + 1) a b < 2^(n + 1 + k) := Nat.lt_of_lt_of_le ih (Nat.pow_le_pow_right (by omega) (by omega))
    split
    · refine Nat.xor_lt_two_pow h1 ?_
      rw [Nat.shiftLeft_eq]
      calc b * 2^(n+1) < 2^k * 2^(n+1) := Nat.mul_lt_mul_of_pos_right hb (Nat.two_pow_pos _)
        _ = 2^(n + 1 + k) := by rw [← Nat.pow_add, Nat.add_comm]
    · exact h1

theorem testBit_lt_of_lt {m n i : Nat} (h : m < 2^n) (hi : n ≤ i) : m.testBit i = false :=
  Nat.testBit_lt_two_pow (Nat.lt_of_lt_of_le h (Nat.pow_le_pow_right (by omega) hi))

/-- Linear maps that agree on the unit words agree everywhere. -/
theorem Linear.ext {f g : Nat → Nat} (hf : Linear f) (hg : Linear g) {n : Nat}
    (h : ∀ j, j < n → f (2^j) = g (2^j)) {m : Nat} (hm : m < 2^n) : f m = g m := by
  induction n generalizing m with
  | zero => have : m = 0 := by simpa using hm
            subst this; rw [hf.zero, hg.zero]
  | succ n ih =>
    have ih := fun {m} => ih (m := m) fun j hj => h j (by omega)
    by_cases hb : m.testBit n = true
    · have hlt : m ^^^ 2^n < 2^n := by
        apply Nat.lt_pow_two_of_testBit
        intro i hi
        rw [Nat.testBit_xor, Nat.testBit_two_pow]
        by_cases e : n = i
        · subst e; simp [hb]
        · have := testBit_lt_of_lt hm (show n + 1 ≤ i by omega)
          simp [this, e]
      have e : m = (m ^^^ 2^n) ^^^ 2^n := (xor_xor_cancel_right m (2^n)).symm
      rw [e, hf, hg, ih hlt, h n (by omega)]
    · apply ih
      apply Nat.lt_pow_two_of_testBit
      intro i hi
      by_cases e : n = i
      · subst e; simpa using hb
      · exact testBit_lt_of_lt hm (show n + 1 ≤ i by omega)

/-- A linear map that kills every shift of `b` kills every multiple of `b`. -/
theorem Linear.clmul_zero {f : Nat → Nat} (hf : Linear f) {n b : Nat} (h : ∀ i, i < n → f (b <<< i) = 0) (a : Nat) :
    f (clmul n a b) = 0 := by
  induction n with
  | zero => simpa [clmul] using hf.zero
  | succ n ih =>
    have ih := ih fun i hi => h i (by omega)
    rw [clmul_succ]
    split
    · rw [hf, ih, h n (by omega)]; rfl
    · exact ih

end Verif
