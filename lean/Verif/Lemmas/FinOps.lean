import Verif.Lemmas.SynthIeee

/-!
# Finite results of floating-point operations
-/

namespace Verif.Num
open Verif Arith
variable {m : Libm}

/-! ## Rounding -/

theorem rnd32_err (q : ℚ) : |rnd F32 q - q| ≤ pow2 (-24) * |q| + pow2 (-150) := by
  by_cases h : pow2 (F32.emin + F32.p - 1) ≤ |q|
  · have := rnd_rel h
    have e : pow2 (-(F32.p : Int)) = pow2 (-24) := rfl
    rw [e] at this
    linarith [pow2_pos (-150)]
  · have h := not_le.1 h
    by_cases h0 : q = 0
    · subst h0
      rw [rnd_zero, sub_self, abs_zero, mul_zero]
      linarith [pow2_pos (-150)]
    · have hp : 0 < |q| := abs_pos.2 h0
      have e : ulpExp F32 q = -149 := by
        unfold ulpExp
        have := ilog2_lt hp h
        have e1 : F32.emin = -149 := rfl
        have e2 : F32.p = 24 := rfl
        rw [e1, e2] at this ⊢
        push_cast at this ⊢
        exact max_eq_right (by omega)
      have := rnd_err F32 q
      rw [e] at this
      have e2 : pow2 (-149) / 2 = pow2 (-150) := by rw [pow2_eq, pow2_eq]; norm_num
      rw [e2] at this
      have : 0 ≤ pow2 (-24) * |q| := mul_nonneg (pow2_pos _).le hp.le
      linarith

/-! ## Bounds -/

theorem Bnd.add {x y : IEEE m} {a b c : ℚ} (hx : Bnd x a) (hy : Bnd y b) (h : a + b ≤ c) (hc : Repr F32 c) (hb : c ≤ Val.big) :
    Bnd (x +ᶠ y : IEEE m) c := by
  obtain ⟨p, hp, hp'⟩ := hx
  obtain ⟨q, hq, hq'⟩ := hy
  have : |p + q| ≤ c := (abs_add_le p q).trans (by linarith)
  exact ⟨_, hp.add hq (this.trans hb), abs_rnd_le F32_p hc this⟩

theorem Bnd.sub {x y : IEEE m} {a b c : ℚ} (hx : Bnd x a) (hy : Bnd y b) (h : a + b ≤ c) (hc : Repr F32 c) (hb : c ≤ Val.big) :
    Bnd (x -ᶠ y : IEEE m) c := by
  obtain ⟨p, hp, hp'⟩ := hx
  obtain ⟨q, hq, hq'⟩ := hy
  have : |p - q| ≤ c := (abs_sub p q).trans (by linarith)
  exact ⟨_, hp.sub hq (this.trans hb), abs_rnd_le F32_p hc this⟩

theorem Bnd.mulc {x y : IEEE m} {a b c : ℚ} (hx : Bnd x a) (hy : Bnd y b) (h : a * b ≤ c) (hc : Repr F32 c) (hb : c ≤ Val.big) :
    Bnd (x *ᶠ y : IEEE m) c := by
  obtain ⟨p, hp, hp'⟩ := hx
  obtain ⟨q, hq, hq'⟩ := hy
  have : |p * q| ≤ c := by
    rw [abs_mul]
    exact (mul_le_mul hp' hq' (abs_nonneg _) ((abs_nonneg _).trans hp')).trans h
  exact ⟨_, hp.mul hq (this.trans hb), abs_rnd_le F32_p hc this⟩

/-- Division by something that is not small. -/
theorem Bnd.div {x y : IEEE m} {a c q d : ℚ} (hx : Bnd x a) (hy : Val y q) (hd : 0 < d) (hq : d ≤ |q|) (h : a ≤ c * d) (hc : Repr F32 c)
    (hb : c ≤ Val.big) : Bnd (x /ᶠ y : IEEE m) c := by
  obtain ⟨p, hp, hp'⟩ := hx
  have h0 : q ≠ 0 := by
    intro e
    rw [e, abs_zero] at hq
    linarith
  have hc0 : 0 ≤ c := by
    by_contra hc0
    have : c * d < 0 := mul_neg_of_neg_of_pos (not_le.1 hc0) hd
    linarith [abs_nonneg p]
  have : |p / q| ≤ c := by
    rw [abs_div, div_le_iff₀ (lt_of_lt_of_le hd hq)]
    exact (hp'.trans h).trans (mul_le_mul_of_nonneg_left hq hc0)
  exact ⟨_, hp.div hy h0 (this.trans hb), abs_rnd_le F32_p hc this⟩

theorem Bnd.neg {x : IEEE m} {a : ℚ} (hx : Bnd x a) : Bnd (Arith.neg x : IEEE m) a := by
  obtain ⟨p, hp, hp'⟩ := hx
  exact ⟨_, hp.neg, by rwa [abs_neg]⟩

theorem Val.bnd {x : FP} {q b : ℚ} (h : Val x q) (hb : |q| ≤ b) : Bnd x b := ⟨q, h, hb⟩

theorem pow2_big {k : Int} (h : k ≤ 127) : pow2 k ≤ Val.big := pow2_le h

theorem repr32_pow2 {k : Int} (h : -149 ≤ k) : Repr F32 (pow2 k) := repr_pow2 h

/-! ## Square root -/

theorem sqrtQ_bounds {q : ℚ} (hq : 0 < q) (hn : pow2 (-252) ≤ q) :
    pow2 (ilog2 q / 2) ≤ FP.sqrtQ F32 q ∧ FP.sqrtQ F32 q ≤ pow2 (ilog2 q / 2 + 1) := by
  unfold FP.sqrtQ
  simp only []
  have h1 := ilog2_spec hq
  have hlo : -252 ≤ ilog2 q := le_ilog2 hn
  generalize hh : ilog2 q / 2 = h at *
  have e1 : 2 * h ≤ ilog2 q := by omega
  have e2 : ilog2 q ≤ 2 * h + 1 := by omega
  have ee : max (h - ((F32.p : Int) - 1)) F32.emin = h - 23 := by
    show max (h - ((24 : Int) - 1)) (-149) = h - 23
    exact max_eq_left (by omega)
  rw [ee]
  generalize hs : q * pow2 (-(2 * (h - 23))) = s
  have s1 : (2 : ℚ) ^ 46 ≤ s := by
    rw [← hs]
    have : pow2 (2 * h) * pow2 (-(2 * (h - 23))) ≤ q * pow2 (-(2 * (h - 23))) :=
      mul_le_mul_of_nonneg_right ((pow2_le e1).trans h1.1) (pow2_pos _).le
    rw [← pow2_add, show 2 * h + -(2 * (h - 23)) = 46 by ring] at this
    refine le_trans (le_of_eq ?_) this
    rw [pow2_eq]; norm_num
  have s2 : s < (2 : ℚ) ^ 48 := by
    rw [← hs]
    have : q * pow2 (-(2 * (h - 23))) < pow2 (2 * h + 2) * pow2 (-(2 * (h - 23))) :=
      mul_lt_mul_of_pos_right (h1.2.trans_le (pow2_le (by omega))) (pow2_pos _)
    rw [← pow2_add, show 2 * h + 2 + -(2 * (h - 23)) = 48 by ring] at this
    refine lt_of_lt_of_le this (le_of_eq ?_)
    rw [pow2_eq]; norm_num
  have f1 : (2 : Int) ^ 46 ≤ ⌊s⌋ := Int.le_floor.2 (by exact_mod_cast s1)
  have f2 : ⌊s⌋ < (2 : Int) ^ 48 := Int.floor_lt.2 (by exact_mod_cast s2)
  generalize hN : Nat.sqrt (Rat.floor s).toNat = n
  have hf : Rat.floor s = ⌊s⌋ := rfl
  rw [hf] at hN
  have n1 : 2 ^ 23 ≤ n := by
    rw [← hN, Nat.le_sqrt]
    have : (2 : Int) ^ 46 ≤ (⌊s⌋.toNat : Int) := by omega
    have : 2 ^ 46 ≤ ⌊s⌋.toNat := by exact_mod_cast this
    calc 2 ^ 23 * 2 ^ 23 = 2 ^ 46 := by norm_num
      _ ≤ _ := this
  have n2 : n < 2 ^ 24 := by
    rw [← hN, Nat.sqrt_lt]
    have : (⌊s⌋.toNat : Int) < (2 : Int) ^ 48 := by omega
    have : ⌊s⌋.toNat < 2 ^ 48 := by exact_mod_cast this
    calc _ < 2 ^ 48 := this
      _ = 2 ^ 24 * 2 ^ 24 := by norm_num
  have n1' : (2 : ℚ) ^ 23 ≤ n := by exact_mod_cast n1
  have n2' : (n : ℚ) + 1 ≤ 2 ^ 24 := by exact_mod_cast n2
  have key : ∀ v : ℚ, (n : ℚ) ≤ v → v ≤ n + 1 → pow2 h ≤ v * pow2 (h - 23) ∧ v * pow2 (h - 23) ≤ pow2 (h + 1) := by
    intro v hv1 hv2
    have p1 : pow2 h = 2 ^ 23 * pow2 (h - 23) := by
      rw [show h = 23 + (h - 23) by ring, pow2_add, pow2_eq 23, show 23 + (h - 23) - 23 = h - 23 by ring]; norm_num
    have p2 : pow2 (h + 1) = 2 ^ 24 * pow2 (h - 23) := by
      rw [show h + 1 = 24 + (h - 23) by ring, pow2_add, pow2_eq 24]; norm_num
    rw [p1, p2]
    exact ⟨mul_le_mul_of_nonneg_right (by linarith) (pow2_pos _).le, mul_le_mul_of_nonneg_right (by linarith) (pow2_pos _).le⟩
  split
  · exact key _ (by linarith) (by linarith)
  · split
    · exact key _ le_rfl (by linarith)
    · split
      · exact key _ le_rfl (by linarith)
      · exact key _ (by linarith) (by linarith)

theorem sqrtQ_nonneg (q : ℚ) : 0 ≤ FP.sqrtQ F32 q := by
  unfold FP.sqrtQ
  simp only []
  refine mul_nonneg ?_ (pow2_pos _).le
  split_ifs <;> positivity

theorem Val.sqrt {x : IEEE m} {q : ℚ} (h : Val x q) (h0 : 0 ≤ q) :
    ∃ r : ℚ, Val (Arith.sqrt x : IEEE m) r ∧ 0 ≤ r := by
  obtain ⟨s, rfl⟩ := h
  show ∃ r : ℚ, Val (FP.sqrtR F32 (FP.fin s q)) r ∧ 0 ≤ r
  unfold FP.sqrtR
  by_cases c : q = 0
  · subst c
    exact ⟨0, ⟨s, by simp⟩, le_rfl⟩
  · simp only [if_neg c, if_neg (not_lt.2 h0)]
    exact ⟨_, ⟨false, rfl⟩, sqrtQ_nonneg q⟩

/-- Square root between powers of two. -/
theorem Val.sqrt_between {x : IEEE m} {q : ℚ} (h : Val x q) {j k : Int} (hj : -126 ≤ j) (h1 : pow2 (2 * j) ≤ q) (h2 : q < pow2 (2 * k)) :
    ∃ r : ℚ, Val (Arith.sqrt x : IEEE m) r ∧ pow2 j ≤ r ∧ r ≤ pow2 k := by
  have h0 : 0 < q := lt_of_lt_of_le (pow2_pos _) h1
  obtain ⟨s, rfl⟩ := h
  show ∃ r : ℚ, Val (FP.sqrtR F32 (FP.fin s q)) r ∧ _
  unfold FP.sqrtR
  simp only [if_neg h0.ne', if_neg (not_lt.2 h0.le)]
  obtain ⟨b1, b2⟩ := sqrtQ_bounds h0 ((pow2_le (by omega)).trans h1)
  have g1 := le_ilog2 h1
  have g2 := ilog2_lt h0 h2
  exact ⟨_, ⟨false, rfl⟩, (pow2_le (by omega)).trans b1, b2.trans (pow2_le (by omega))⟩

theorem sqrtQ_small {q : ℚ} (hq : 0 < q) (hn : q < pow2 (-252)) : FP.sqrtQ F32 q ≤ pow2 (-126) := by
  unfold FP.sqrtQ
  simp only []
  have hlo : ilog2 q < -252 := ilog2_lt hq hn
  generalize hh : ilog2 q / 2 = h at *
  have ee : max (h - ((F32.p : Int) - 1)) F32.emin = -149 := by
    show max (h - ((24 : Int) - 1)) (-149) = -149
    exact max_eq_right (by omega)
  rw [ee]
  generalize hs : q * pow2 (-(2 * (-149))) = s
  have s2 : s < (2 : ℚ) ^ 46 := by
    rw [← hs]
    have : q * pow2 (-(2 * (-149))) < pow2 (-252) * pow2 (-(2 * (-149))) := mul_lt_mul_of_pos_right hn (pow2_pos _)
    rw [← pow2_add, show (-252 : Int) + -(2 * (-149)) = 46 by ring] at this
    refine lt_of_lt_of_le this (le_of_eq ?_)
    rw [pow2_eq]; norm_num
  have f2 : ⌊s⌋ < (2 : Int) ^ 46 := Int.floor_lt.2 (by exact_mod_cast s2)
  generalize hN : Nat.sqrt (Rat.floor s).toNat = n
  have hf : Rat.floor s = ⌊s⌋ := rfl
  rw [hf] at hN
  have n2 : n < 2 ^ 23 := by
    rw [← hN, Nat.sqrt_lt]
    have : (⌊s⌋.toNat : Int) < (2 : Int) ^ 46 := by omega
    have : ⌊s⌋.toNat < 2 ^ 46 := by exact_mod_cast this
    calc _ < 2 ^ 46 := this
      _ = 2 ^ 23 * 2 ^ 23 := by norm_num
  have n2' : (n : ℚ) + 1 ≤ 2 ^ 23 := by exact_mod_cast n2
  have key : ∀ v : ℚ, v ≤ n + 1 → v * pow2 (-149) ≤ pow2 (-126) := by
    intro v hv2
    have p2 : pow2 (-126) = 2 ^ 23 * pow2 (-149) := by
      rw [show (-126 : Int) = 23 + (-149) by ring, pow2_add, pow2_eq 23]; norm_num
    rw [p2]
    exact mul_le_mul_of_nonneg_right (by linarith) (pow2_pos _).le
  split
  · exact key _ le_rfl
  · split
    · exact key _ (by linarith)
    · split
      · exact key _ (by linarith)
      · exact key _ le_rfl

/-- Upper bound only. -/
theorem Val.sqrt_le {x : IEEE m} {q : ℚ} (h : Val x q) {k : Int} (hk : -126 ≤ k) (h0 : 0 ≤ q) (h2 : q < pow2 (2 * k)) :
    ∃ r : ℚ, Val (Arith.sqrt x : IEEE m) r ∧ 0 ≤ r ∧ r ≤ pow2 k := by
  by_cases c : pow2 (-252) ≤ q
  · obtain ⟨r, h3, h4, h5⟩ := h.sqrt_between (j := -126) le_rfl c h2
    exact ⟨r, h3, (pow2_pos _).le.trans h4, h5⟩
  · obtain ⟨s, rfl⟩ := h
    show ∃ r : ℚ, Val (FP.sqrtR F32 (FP.fin s q)) r ∧ _
    unfold FP.sqrtR
    by_cases c0 : q = 0
    · subst c0
      exact ⟨0, ⟨s, by simp⟩, le_rfl, (pow2_pos _).le⟩
    · simp only [if_neg c0, if_neg (not_lt.2 h0)]
      have hp := lt_of_le_of_ne h0 (Ne.symm c0)
      exact ⟨_, ⟨false, rfl⟩, sqrtQ_nonneg q, (sqrtQ_small hp (not_le.1 c)).trans (pow2_le hk)⟩

/-- A product is its rounded value or an infinity. -/
theorem Val.mul_or {x y : IEEE m} {a b : ℚ} (hx : Val x a) (hy : Val y b) :
    Val (x *ᶠ y : IEEE m) (rnd F32 (a * b)) ∨ ∃ s, (x *ᶠ y : IEEE m) = FP.inf s := by
  obtain ⟨s, rfl⟩ := hx
  obtain ⟨t, rfl⟩ := hy
  show Val (FP.mulR F32 (.fin s a) (.fin t b)) _ ∨ ∃ u, FP.mulR F32 (.fin s a) (.fin t b) = FP.inf u
  rw [FP.mulR]
  unfold FP.round
  by_cases h0 : a * b = 0
  · rw [if_pos h0, h0, rnd_zero]; exact .inl ⟨_, rfl⟩
  · rw [if_neg h0]
    simp only
    split
    · exact .inr ⟨_, rfl⟩
    · exact .inl ⟨_, rfl⟩

theorem Val.div_inf {x : IEEE m} {a : ℚ} (hx : Val x a) (s : Bool) : Val (x /ᶠ (FP.inf s : IEEE m) : IEEE m) 0 := by
  obtain ⟨t, rfl⟩ := hx
  exact ⟨_, rfl⟩

end Verif.Num
