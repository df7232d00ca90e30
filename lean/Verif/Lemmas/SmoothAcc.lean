import Verif.Lemmas.Prec
import Verif.Lemmas.EnhLoud
import Verif.Lemmas.Smooth
import Verif.Spec.SmoothAcc

/-!
# Adaptive smoothing in binary32
-/

namespace Verif.Model
open Verif Verif.Gen Verif.Spec Verif.Num Arith
variable {m : Libm}

theorem ampsTo_values {A : ℚ} {p : Parms (IEEE m)} (h : AmpsTo A p) : ∃ a : Nat → ℚ,
    (∀ l : Fin 57, 1 ≤ l.val → (l.val : Int) ≤ p.L → Val (p.Ml l) (a l.val) ∧ 0 ≤ a l.val ∧ a l.val ≤ A) ∧
    ∀ l, 1 ≤ l → l ≤ p.L.toNat → amps (valuesOf p).Ml l = (a l : ℝ) := by
  have : ∀ l : Nat, ∃ a : ℚ, ∀ hl : l < 57, 1 ≤ l → (l : Int) ≤ p.L → Val (p.Ml ⟨l, hl⟩) a ∧ 0 ≤ a ∧ a ≤ A := fun l => by
    by_cases c : l < 57 ∧ 1 ≤ l ∧ (l : Int) ≤ p.L
    · obtain ⟨a, ha⟩ := h.2 ⟨l, c.1⟩ c.2.1 c.2.2
      exact ⟨a, fun _ _ _ => ha⟩
    · exact ⟨0, fun h1 h2 h3 => absurd ⟨h1, h2, h3⟩ c⟩
  obtain ⟨a, ha⟩ := Classical.skolem.1 this
  exact ⟨a, fun l h1 h2 => ha l.val l.isLt h1 h2, amps_values h.1 fun l h1 h2 => (ha l.val l.isLt h1 h2).1⟩

/-- The sum of the amplitudes. -/
theorem ampSum_near {p : Parms (IEEE m)} (h : AmpsTo (2 ^ 40) p) : ∃ q : ℚ, Val (ampSum (F := IEEE m) p.Ml p.L) q ∧
    |(q : ℝ) - ampTotal (amps (valuesOf p).Ml) p.L.toNat| ≤ ampTotal (amps (valuesOf p).Ml) p.L.toNat / 270000 + 1 / 2 ^ 130 := by
  obtain ⟨a, ha, hA⟩ := ampsTo_values h
  have hL := h.1
  have h0c : Val (lit 0 1 : IEEE m) 0 := ⟨false, rfl⟩
  have key : ∀ n : Nat, n ≤ p.L.toNat → ∃ q : ℚ, Val ((List.range n).foldl (fun s i => s +ᶠ p.Ml.getD (i + 1) (lit 0 1)) (lit 0 1) : IEEE m) q ∧
      |q - sumBelow a (n + 1)| ≤ (n + 2) * (sumBelow a (n + 1) / 16000000) + n * (1 / 2 ^ 140) ∧ 0 ≤ sumBelow a (n + 1) ∧ sumBelow a (n + 1) ≤ n * 2 ^ 40 := by
    intro n
    induction n with
    | zero =>
      intro _
      have e : sumBelow a (0 + 1) = 0 := by unfold sumBelow; simp
      refine ⟨0, h0c, ?_, ?_, ?_⟩ <;> rw [e] <;> simp
    | succ n ih =>
      intro hn
      obtain ⟨q, h1, h2, h3, h4⟩ := ih (by omega)
      have hl : n + 1 < 57 := by omega
      obtain ⟨g1, g2, g3⟩ := ha ⟨n + 1, hl⟩ (by show 1 ≤ n + 1; omega) (by show ((n + 1 : Nat) : Int) ≤ _; omega)
      dsimp only at g1 g2 g3
      have n56 : (n : ℚ) ≤ 55 := by
        have : n ≤ 55 := by omega
        exact_mod_cast this
      have gd : (p.Ml.getD (n + 1) (lit 0 1) : IEEE m) = p.Ml ⟨n + 1, hl⟩ := by
        unfold Arr.getD
        rw [dif_pos hl]
      rw [sumBelow_succ a (k := n + 1) (by omega), List.range_succ, List.foldl_append]
      dsimp only [List.foldl]
      rw [gd]
      obtain ⟨q', k1, k2⟩ := sumAcc_step (k := n) (by omega) h1 h2 h3 (by rw [abs_of_nonneg h3]) g1 (u := a (n + 1)) (by
        rw [sub_self, abs_zero]
        have := pow2_pos (-150)
        positivity) (by rw [abs_of_nonneg g2]) (by
        have : (n : ℚ) * 2 ^ 40 ≤ 55 * 2 ^ 40 := mul_le_mul_of_nonneg_right n56 (by norm_num)
        have e : (55 : ℚ) * 2 ^ 40 + 2 ^ 40 ≤ 2 ^ 100 := by norm_num
        linarith)
      refine ⟨q', k1, k2, by linarith, ?_⟩
      push_cast
      linarith
  obtain ⟨q, h1, h2, h3, _⟩ := key p.L.toNat le_rfl
  refine ⟨q, h1, ?_⟩
  have e : ampTotal (amps (valuesOf p).Ml) p.L.toNat = ((sumBelow a (p.L.toNat + 1) : ℚ) : ℝ) := by
    unfold ampTotal sumBelow
    rw [Rat.cast_sum]
    refine Finset.sum_congr (by ext x; rw [Finset.mem_Icc, Finset.mem_Ico]; omega) fun l hl => ?_
    rw [Finset.mem_Ico] at hl
    exact hA l hl.1 (by omega)
  rw [e]
  generalize sumBelow a (p.L.toNat + 1) = y at *
  have n56 : (p.L.toNat : ℚ) ≤ 56 := by
    have : p.L.toNat ≤ 56 := by omega
    exact_mod_cast this
  have k : |q - y| ≤ y / 270000 + 1 / 2 ^ 130 := by
    refine h2.trans ?_
    have t1 : ((p.L.toNat : ℚ) + 2) * (y / 16000000) ≤ 58 * (y / 16000000) := mul_le_mul_of_nonneg_right (by linarith) (by positivity)
    have t2 : (p.L.toNat : ℚ) * (1 / 2 ^ 140) ≤ 56 * (1 / 2 ^ 140) := mul_le_mul_of_nonneg_right n56 (by positivity)
    norm_num at t1 t2 ⊢
    linarith
  have : ((|q - y| : ℚ) : ℝ) ≤ ((y / 270000 + 1 / 2 ^ 130 : ℚ) : ℝ) := by exact_mod_cast k
  push_cast at this
  exact this

theorem ofInt_prec {n : Int} (h0 : 1 ≤ n) (h1 : n ≤ 2147483647) : Prec (ofInt n : IEEE m) n (1 / 10 ^ 7) := by
  have e0 : (1 : ℝ) ≤ n := by exact_mod_cast h0
  have e1 : (n : ℝ) ≤ 2147483647 := by exact_mod_cast h1
  obtain ⟨z1, z2⟩ := prec_rnd (z := (n : ℚ)) (X := (n : ℝ)) (ε := 0) (le_trans (by norm_num) e0) (e1.trans (by norm_num)) (by norm_num) (by push_cast; simp)
  refine ⟨_, Val.round32 (s := false) z1, z2.trans (mul_le_mul_of_nonneg_right (by norm_num) (by linarith))⟩

/-- The amplitudes after the limitation of their sum. -/
theorem limited_near {x s : IEEE m} {a q : ℚ} {S : ℝ} {T : Int} (hx : Val x a) (a0 : 0 ≤ a) (a1 : a ≤ 2 ^ 40) (aS : (a : ℝ) ≤ S) (S1 : S ≤ 2 ^ 60)
    (hs : Val s q) (h : |(q : ℝ) - S| ≤ S / 270000 + 1 / 2 ^ 130) (T0 : 1 ≤ T) (T1 : T ≤ 2147483647) :
    ∃ r : ℚ, Val (if lt (ofInt T) s = true ∧ lt (lit 0 1) s = true then x *ᶠ (ofInt T /ᶠ s) else x : IEEE m) r ∧ 0 ≤ r ∧
      |(r : ℝ) - a * (T / max (T : ℝ) S)| ≤ a * (T / max (T : ℝ) S) / 50000 + 1 / 2 ^ 140 := by
  have a0' : (0 : ℝ) ≤ a := by exact_mod_cast a0
  have S0 : 0 ≤ S := a0'.trans aS
  have t0 : (1 : ℝ) ≤ T := by exact_mod_cast T0
  have t1 : (T : ℝ) ≤ 2147483647 := by exact_mod_cast T1
  have mx : (0 : ℝ) < max (T : ℝ) S := lt_of_lt_of_le (by linarith) (le_max_left _ _)
  have h0c : Val (lit 0 1 : IEEE m) 0 := ⟨false, rfl⟩
  obtain ⟨τ, hτ, τ1⟩ := ofInt_prec (m := m) T0 T1
  have τ2 := abs_le.1 τ1
  have h2 := abs_le.1 h
  rw [hτ.lt hs, h0c.lt hs]
  have tiny : (1 : ℝ) / 2 ^ 130 ≤ 1 / 10 ^ 20 := by norm_num
  by_cases c : τ < q ∧ 0 < q
  · rw [if_pos ⟨decide_eq_true c.1, decide_eq_true c.2⟩]
    have c1 : (τ : ℝ) < q := by exact_mod_cast c.1
    have T2 : (T : ℝ) ≤ (1 + 1 / 200000) * S := by
      norm_num at τ2 h2 tiny ⊢
      linarith
    have S2 : 9 / 10 ≤ S := by linarith
    have m1 : S ≤ max (T : ℝ) S := le_max_right _ _
    have m2 : max (T : ℝ) S ≤ (1 + 1 / 200000) * S := max_le T2 (by linarith)
    have pm : Prec s (max (T : ℝ) S) (1 / 100000) := by
      refine ⟨q, hs, ?_⟩
      generalize max (T : ℝ) S = M at *
      rw [abs_le]
      norm_num at τ2 h2 tiny ⊢
      constructor <;> linarith
    have dl : 1 / 2 ^ 100 ≤ (T : ℝ) / max (T : ℝ) S := by
      rw [le_div_iff₀ mx]
      have : (1 : ℝ) / 2 ^ 100 * max (T : ℝ) S ≤ 1 / 2 ^ 100 * ((1 + 1 / 200000) * 2 ^ 60) := by
        refine mul_le_mul_of_nonneg_left (m2.trans ?_) (by positivity)
        exact mul_le_mul_of_nonneg_left S1 (by norm_num)
      refine this.trans (le_trans (by norm_num) t0)
    have du : (T : ℝ) / max (T : ℝ) S ≤ 1 := by
      rw [div_le_one mx]
      exact le_max_left _ _
    obtain ⟨z, hz, z1⟩ := Prec.div ⟨τ, hτ, τ1⟩ pm (by linarith) mx dl (du.trans (by norm_num)) (by norm_num) (by norm_num) (by norm_num) (by norm_num)
    generalize (T : ℝ) / max (T : ℝ) S = d at *
    have d0 : 0 < d := lt_of_lt_of_le (by norm_num) dl
    have z2 := abs_le.1 z1
    have zp : (0 : ℝ) ≤ z := by
      norm_num at z2
      linarith
    have zu : (z : ℝ) ≤ 2 := by
      norm_num at z2
      linarith
    have zp' : 0 ≤ z := by exact_mod_cast zp
    have zu' : z ≤ 2 := by exact_mod_cast zu
    have az : 0 ≤ a * z := mul_nonneg a0 zp'
    have azu : a * z ≤ 2 ^ 40 * 2 := mul_le_mul a1 zu' zp' (by norm_num)
    refine ⟨_, hx.mul hz (by rw [abs_of_nonneg az]; exact azu.trans (le_trans (by norm_num) big_ge)), rnd_nonneg az, ?_⟩
    have r := rnd32_err (a * z)
    rw [abs_of_nonneg az] at r
    have r' : ((|rnd F32 (a * z) - a * z| : ℚ) : ℝ) ≤ ((pow2 (-24) * (a * z) + pow2 (-150) : ℚ) : ℝ) := by exact_mod_cast r
    rw [p24, show pow2 (-150) = 1 / 2 ^ 150 from by rw [pow2_eq]; norm_num] at r'
    push_cast at r'
    have r2 := abs_le.1 r'
    have p1 : (a : ℝ) * z ≤ a * ((1 + 1 / 95000) * d) := mul_le_mul_of_nonneg_left (by norm_num at z2 ⊢; linarith) a0'
    have p2 : (a : ℝ) * ((1 - 1 / 95000) * d) ≤ a * z := mul_le_mul_of_nonneg_left (by norm_num at z2 ⊢; linarith) a0'
    have p0 : 0 ≤ (a : ℝ) * d := mul_nonneg a0' d0.le
    have e1 : (a : ℝ) * ((1 + 1 / 95000) * d) = (1 + 1 / 95000) * (a * d) := by ring
    have e2 : (a : ℝ) * ((1 - 1 / 95000) * d) = (1 - 1 / 95000) * (a * d) := by ring
    rw [e1] at p1
    rw [e2] at p2
    generalize (a : ℝ) * d = y at *
    generalize (a : ℝ) * z = w at *
    rw [abs_le]
    norm_num at r2 p1 p2 ⊢
    constructor <;> linarith
  · rw [if_neg (fun k => c ⟨of_decide_eq_true k.1, of_decide_eq_true k.2⟩)]
    refine ⟨a, hx, a0, ?_⟩
    have d1 : (T : ℝ) / max (T : ℝ) S ≤ 1 := by
      rw [div_le_one mx]
      exact le_max_left _ _
    have d2 : 1 - 1 / 100000 ≤ (T : ℝ) / max (T : ℝ) S := by
      rw [le_div_iff₀ mx]
      by_cases k : S ≤ T
      · rw [max_eq_left k]
        linarith
      · rw [max_eq_right (not_le.1 k).le]
        have k := not_le.1 k
        have q0 : (0 : ℝ) < q := by
          norm_num at τ2 h2 tiny
          linarith
        have q1 : ¬ τ < q := fun h => c ⟨h, by exact_mod_cast q0⟩
        have q2 : (q : ℝ) ≤ τ := by exact_mod_cast not_lt.1 q1
        norm_num at τ2 h2 tiny ⊢
        linarith
    generalize (T : ℝ) / max (T : ℝ) S = d at *
    have p1 : (a : ℝ) * d ≤ a * 1 := mul_le_mul_of_nonneg_left d1 a0'
    have p2 : (a : ℝ) * (1 - 1 / 100000) ≤ a * d := mul_le_mul_of_nonneg_left d2 a0'
    rw [abs_le]
    generalize (a : ℝ) * d = y at *
    norm_num at p1 p2 ⊢
    constructor <;> linarith

end Verif.Model
