import Verif.Lemmas.EnhRoot

/-!
# The spectral enhancement in binary32: energy
-/

namespace Verif.Model
open Verif Verif.Gen Verif.Spec Verif.Num Arith
variable {m : Libm}

theorem energy_cast {M : Nat → ℝ} {a : Nat → ℚ} {L : Nat} (h : ∀ l, 1 ≤ l → l ≤ L → M l = (a l : ℝ)) :
    energy M L = ((sumBelow (fun j => a j * a j) (L + 1) : ℚ) : ℝ) := by
  unfold energy sumBelow
  rw [Rat.cast_sum]
  refine Finset.sum_congr (by ext x; simp only [Finset.mem_Icc, Finset.mem_Ico]; omega) fun l hl => ?_
  rw [Finset.mem_Ico] at hl
  rw [h l hl.1 (by omega)]
  push_cast
  ring

theorem amps_values {p : Parms (IEEE m)} {a : Nat → ℚ} {L : Int} (hL : L ≤ 56)
    (h : ∀ l : Fin 57, 1 ≤ l.val → (l.val : Int) ≤ L → Val (p.Ml l) (a l.val)) :
    ∀ l, 1 ≤ l → l ≤ L.toNat → amps (valuesOf p).Ml l = (a l : ℝ) := by
  intro l h1 h2
  have hl : l < 57 := by omega
  rw [show amps (valuesOf p).Ml l = _ from amps_fin _ ⟨l, hl⟩]
  exact Val.number (h ⟨l, hl⟩ h1 (by show (l : Int) ≤ L; omega))

/-- The common gain. -/
theorem enhGamma_near {x y : IEEE m} {q0 q : ℚ} {R S : ℝ} (h0 : Val x q0) (hq : Val y q) (R0 : 1 / 2 ^ 22 ≤ R) (hS1 : R / 100 ≤ S) (hS2 : S ≤ 4 * R)
    (e0 : |(q0 : ℝ) - R| ≤ R / 270000) (e1 : |(q : ℝ) - S| ≤ S / 270000) :
    ∃ g : ℚ, Val (enhGamma x y : IEEE m) g ∧ 0 ≤ g ∧ (1 - 1 / 250000) * Real.sqrt (R / S) ≤ g ∧ (g : ℝ) ≤ (1 + 1 / 250000) * Real.sqrt (R / S) ∧ g ≤ 16 := by
  have hR : 0 < R := lt_of_lt_of_le (by norm_num) R0
  have hS : 0 < S := lt_of_lt_of_le (by positivity) hS1
  have a0 := abs_le.1 e0
  have a1 := abs_le.1 e1
  have qp : (0 : ℝ) < q := by linarith
  have q0p : (0 : ℝ) < q0 := by linarith
  have qp' : 0 < q := by exact_mod_cast qp
  have q0p' : 0 < q0 := by exact_mod_cast q0p
  have h0c : Val (lit 0 1 : IEEE m) 0 := ⟨false, rfl⟩
  obtain ⟨T, hT⟩ : ∃ T, T = R / S := ⟨_, rfl⟩
  have T1 : 1 / 4 ≤ T := by rw [hT, le_div_iff₀ hS]; linarith
  have T2 : T ≤ 100 := by rw [hT, div_le_iff₀ hS]; linarith
  have RT : R = T * S := by rw [hT]; field_simp
  have TS : 0 < T * S := by rw [← RT]; exact hR
  have r1 : (q0 : ℝ) / q ≤ (1 + 745 / 100000000) * T := by
    rw [div_le_iff₀ qp]
    have : T * S * (1 - 1 / 270000) ≤ T * q := by
      have := mul_le_mul_of_nonneg_left (show S * (1 - 1 / 270000) ≤ (q : ℝ) by linarith) (show 0 ≤ T by linarith)
      linarith
    rw [RT] at a0
    norm_num at *
    linarith
  have r2 : (1 - 745 / 100000000) * T ≤ (q0 : ℝ) / q := by
    rw [le_div_iff₀ qp]
    have : T * q ≤ T * S * (1 + 1 / 270000) := by
      have := mul_le_mul_of_nonneg_left (show (q : ℝ) ≤ S * (1 + 1 / 270000) by linarith) (show 0 ≤ T by linarith)
      linarith
    rw [RT] at a0
    norm_num at *
    linarith
  have d0 : 0 ≤ q0 / q := (div_pos q0p' qp').le
  have dle : q0 / q ≤ 101 := by
    have : ((q0 / q : ℚ) : ℝ) ≤ ((101 : ℚ) : ℝ) := by
      push_cast
      refine r1.trans ?_
      have := mul_le_mul_of_nonneg_left T2 (show (0 : ℝ) ≤ 1 + 745 / 100000000 by norm_num)
      refine this.trans (by norm_num)
    exact_mod_cast this
  unfold enhGamma
  rw [hq.eq h0c, if_neg (by simpa using qp'.ne')]
  have vd := h0.div hq qp'.ne' (by rw [abs_of_nonneg d0]; exact dle.trans (le_trans (by norm_num) big_ge))
  have e := rnd32_err (q0 / q)
  rw [p24, abs_of_nonneg d0] at e
  have t := p150
  have dge : 1 / 5 ≤ q0 / q := by
    have : ((1 / 5 : ℚ) : ℝ) ≤ ((q0 / q : ℚ) : ℝ) := by
      push_cast
      refine le_trans ?_ r2
      have := mul_le_mul_of_nonneg_left T1 (show (0 : ℝ) ≤ 1 - 745 / 100000000 by norm_num)
      refine le_trans (by norm_num) this
    exact_mod_cast this
  have e' : |rnd F32 (q0 / q) - q0 / q| ≤ 1 / 16000000 * (q0 / q) := by
    norm_num at *
    linarith
  have er : |((rnd F32 (q0 / q) : ℚ) : ℝ) - (q0 : ℝ) / q| ≤ 1 / 16000000 * ((q0 : ℝ) / q) := by
    have : ((|rnd F32 (q0 / q) - q0 / q| : ℚ) : ℝ) ≤ ((1 / 16000000 * (q0 / q) : ℚ) : ℝ) := by exact_mod_cast e'
    push_cast at this
    exact this
  generalize rnd F32 (q0 / q) = ρ at *
  have ae := abs_le.1 er
  have ae' := abs_le.1 e'
  have ρ1 : (ρ : ℝ) ≤ (1 + 755 / 100000000) * T := by norm_num at *; linarith
  have ρ2 : (1 - 755 / 100000000) * T ≤ (ρ : ℝ) := by norm_num at *; linarith
  obtain ⟨g, vg, g0, eg⟩ := val_sqrtE vd (by
    refine le_trans ?_ (show 1 / 6 ≤ ρ by linarith)
    rw [pow2_eq]; norm_num)
  have s1 := sqrt_up (x := ρ) (y := T) (c := 1 + 38 / 10000000) (by norm_num) (ρ1.trans (mul_le_mul_of_nonneg_right (by norm_num) (by linarith)))
  have s2 := sqrt_dn (x := ρ) (y := T) (c := 1 - 38 / 10000000) (by norm_num) (le_trans (mul_le_mul_of_nonneg_right (by norm_num) (by linarith)) ρ2)
  rw [hT] at s1 s2
  have sT : Real.sqrt (R / S) ≤ 10 := by
    rw [← hT]
    exact Real.sqrt_le_iff.2 ⟨by norm_num, T2.trans (by norm_num)⟩
  have sT0 := Real.sqrt_nonneg (R / S)
  have ag := abs_le.1 eg
  have G : (g : ℝ) ≤ (1 + 1 / 250000) * Real.sqrt (R / S) := by norm_num at *; linarith
  refine ⟨g, vg, g0, by norm_num at *; linarith, G, ?_⟩
  have : (g : ℝ) ≤ ((16 : ℚ) : ℝ) := by
    push_cast
    linarith
  exact_mod_cast this

theorem sq_slack {o z : ℝ} (z0 : 0 ≤ z) (z1 : z ≤ 16 * 2 ^ 40) (h : |o - z| ≤ 1 / 16777216 * z + 1 / 2 ^ 149) :
    |o ^ 2 - z ^ 2| ≤ 3 / 16777216 * z ^ 2 + 1 / 2 ^ 80 := by
  have s : |o + z| ≤ (2 + 1 / 16777216) * z + 1 / 2 ^ 149 := by
    have e : o + z = (o - z) + 2 * z := by ring
    rw [e]
    refine (abs_add_le _ _).trans ?_
    rw [abs_of_nonneg (show 0 ≤ 2 * z by linarith)]
    linarith
  rw [show o ^ 2 - z ^ 2 = (o - z) * (o + z) by ring, abs_mul]
  refine (mul_le_mul h s (abs_nonneg _) (by positivity)).trans ?_
  have zt : z * (1 / 2 ^ 149) ≤ 16 * 2 ^ 40 * (1 / 2 ^ 149) := mul_le_mul_of_nonneg_right z1 (by positivity)
  have zz := mul_nonneg z0 z0
  norm_num at *
  nlinarith [zt, zz]

/-- The scaled amplitudes have the energy `R`. -/
theorem scaled_energy {b : Nat → ℚ} {L : Nat} (hL : L ≤ 56) {g : ℚ} {R S : ℝ} (hb : ∀ l, 1 ≤ l → l ≤ L → 0 ≤ b l ∧ b l ≤ 2 ^ 40) (R0 : 1 / 2 ^ 22 ≤ R)
    (hS : S = ((sumBelow (fun j => b j * b j) (L + 1) : ℚ) : ℝ)) (Sp : 0 < S) (g0 : 0 ≤ g) (g16 : g ≤ 16)
    (g1 : (1 - 1 / 250000) * Real.sqrt (R / S) ≤ g) (g2 : (g : ℝ) ≤ (1 + 1 / 250000) * Real.sqrt (R / S)) :
    |energy (fun l => ((rnd F32 (g * b l) : ℚ) : ℝ)) L - R| ≤ R / 100000 := by
  have g0' : (0 : ℝ) ≤ g := by exact_mod_cast g0
  have sT0 := Real.sqrt_nonneg (R / S)
  have hR : 0 < R := lt_of_lt_of_le (by norm_num) R0
  have gg1 : (1 - 801 / 100000000) * (R / S) ≤ (g : ℝ) ^ 2 := by
    have h := pow_le_pow_left₀ (by positivity) g1 2
    rw [mul_pow, Real.sq_sqrt (by positivity)] at h
    exact le_trans (mul_le_mul_of_nonneg_right (by norm_num) (by positivity)) h
  have gg2 : (g : ℝ) ^ 2 ≤ (1 + 801 / 100000000) * (R / S) := by
    have h := pow_le_pow_left₀ g0' g2 2
    rw [mul_pow, Real.sq_sqrt (by positivity)] at h
    exact h.trans (mul_le_mul_of_nonneg_right (by norm_num) (by positivity))
  have term : ∀ l, 1 ≤ l → l ≤ L → |((rnd F32 (g * b l) : ℚ) : ℝ) ^ 2 - (g : ℝ) ^ 2 * (b l : ℝ) ^ 2| ≤ 3 / 16777216 * ((g : ℝ) ^ 2 * (b l : ℝ) ^ 2) + 1 / 2 ^ 80 := by
    intro l l1 l2
    obtain ⟨b0, b1⟩ := hb l l1 l2
    have b0' : (0 : ℝ) ≤ b l := by exact_mod_cast b0
    have gb0 : 0 ≤ g * b l := mul_nonneg g0 b0
    have gb1 : g * b l ≤ 16 * 2 ^ 40 := mul_le_mul g16 b1 b0 (by norm_num)
    have e := rnd32_err (g * b l)
    rw [p24, abs_of_nonneg gb0] at e
    have t : pow2 (-150) ≤ 1 / 2 ^ 149 := by rw [pow2_eq]; norm_num
    have e2 : |rnd F32 (g * b l) - g * b l| ≤ 1 / 16777216 * (g * b l) + 1 / 2 ^ 149 := by linarith
    have er : |((rnd F32 (g * b l) : ℚ) : ℝ) - (g : ℝ) * b l| ≤ 1 / 16777216 * ((g : ℝ) * b l) + 1 / 2 ^ 149 := by
      have : ((|rnd F32 (g * b l) - g * b l| : ℚ) : ℝ) ≤ ((1 / 16777216 * (g * b l) + 1 / 2 ^ 149 : ℚ) : ℝ) := by exact_mod_cast e2
      push_cast at this
      exact this
    have gbr : (0 : ℝ) ≤ g * b l := mul_nonneg g0' b0'
    have gbr1 : (g : ℝ) * b l ≤ 16 * 2 ^ 40 := by
      have : ((g * b l : ℚ) : ℝ) ≤ ((16 * 2 ^ 40 : ℚ) : ℝ) := by exact_mod_cast gb1
      push_cast at this
      exact this
    generalize ((rnd F32 (g * b l) : ℚ) : ℝ) = o at *
    rw [← mul_pow]
    generalize (g : ℝ) * b l = z at *
    exact sq_slack gbr gbr1 er
  have hsum : ((sumBelow (fun j => b j * b j) (L + 1) : ℚ) : ℝ) = ∑ l ∈ Finset.Icc 1 L, (b l : ℝ) ^ 2 := by
    rw [← energy_cast (M := fun l => (b l : ℝ)) (a := b) (L := L) fun _ _ _ => rfl]
    rfl
  rw [hsum] at hS
  have tot : |energy (fun l => ((rnd F32 (g * b l) : ℚ) : ℝ)) L - (g : ℝ) ^ 2 * S| ≤ 3 / 16777216 * ((g : ℝ) ^ 2 * S) + 56 * (1 / 2 ^ 80) := by
    rw [hS]
    unfold energy
    rw [Finset.mul_sum, ← Finset.sum_sub_distrib]
    refine (Finset.abs_sum_le_sum_abs _ _).trans ?_
    refine (Finset.sum_le_sum fun l hl => term l (Finset.mem_Icc.1 hl).1 (Finset.mem_Icc.1 hl).2).trans ?_
    rw [Finset.sum_add_distrib, ← Finset.mul_sum, Finset.sum_const, Nat.card_Icc, nsmul_eq_mul]
    have : ((L + 1 - 1 : Nat) : ℝ) ≤ 56 := by
      have : L + 1 - 1 ≤ 56 := by omega
      exact_mod_cast this
    have := mul_le_mul_of_nonneg_right this (show (0 : ℝ) ≤ 1 / 2 ^ 80 by positivity)
    linarith
  have k1 : (1 - 801 / 100000000) * R ≤ (g : ℝ) ^ 2 * S := by
    have := mul_le_mul_of_nonneg_right gg1 Sp.le
    rwa [mul_assoc, div_mul_cancel₀ _ Sp.ne'] at this
  have k2 : (g : ℝ) ^ 2 * S ≤ (1 + 801 / 100000000) * R := by
    have := mul_le_mul_of_nonneg_right gg2 Sp.le
    rwa [mul_assoc, div_mul_cancel₀ _ Sp.ne'] at this
  have tiny : 56 * (1 / 2 ^ 80 : ℝ) ≤ R / 100000000 := by
    norm_num at *
    linarith
  have at' := abs_le.1 tot
  rw [abs_le]
  constructor <;> linarith

end Verif.Model
