import Verif.Lemmas.EnhOut

/-!
# The spectral enhancement in binary32: weights and factors
-/

namespace Verif.Model
open Verif Verif.Gen Verif.Spec Verif.Num Arith
variable {m : Libm}

theorem radicand_range {R0 n δ w : ℝ} (R0l : 1 / 2 ^ 20 ≤ R0) (R0u : R0 ≤ 56 * 2 ^ 36) (w1 : 1 / 32 ≤ w) (w2 : w ≤ 1)
    (n1 : R0 ^ 2 / 451 ≤ n) (n2 : n ≤ 4 * R0 ^ 2) (d1 : R0 ^ 2 / 451 ≤ δ) (d2 : δ ≤ R0 ^ 2) :
    1 / 2 ^ 60 ≤ 96 / 100 * Real.pi * n / (w * R0 * δ) ∧ 96 / 100 * Real.pi * n / (w * R0 * δ) ≤ 2 ^ 40 := by
  have pg := Real.pi_gt_three
  have pl := Real.pi_le_four
  have R0p : 0 < R0 := lt_of_lt_of_le (by norm_num) R0l
  have X0 : 0 < R0 ^ 2 := by positivity
  have d0 : 0 < δ := lt_of_lt_of_le (by positivity) d1
  have n0 : 0 < n := lt_of_lt_of_le (by positivity) n1
  have w0 : 0 < w := by linarith
  have wR : w * R0 ≤ 56 * 2 ^ 36 := by
    calc w * R0 ≤ 1 * R0 := mul_le_mul_of_nonneg_right w2 R0p.le
      _ ≤ _ := by linarith
  have wR' : 1 / 32 * (1 / 2 ^ 20) ≤ w * R0 := mul_le_mul w1 R0l (by norm_num) w0.le
  have wRp : 0 < w * R0 := mul_pos w0 R0p
  have den : 0 < w * R0 * δ := mul_pos wRp d0
  constructor
  · rw [le_div_iff₀ den]
    have u : w * R0 * δ ≤ 56 * 2 ^ 36 * R0 ^ 2 := mul_le_mul wR d2 d0.le (by norm_num)
    have v : 2 * n ≤ 96 / 100 * Real.pi * n := mul_le_mul_of_nonneg_right (by linarith) n0.le
    norm_num at *
    linarith
  · rw [div_le_iff₀ den]
    have u : 1 / 32 * (1 / 2 ^ 20) * (R0 ^ 2 / 451) ≤ w * R0 * δ := mul_le_mul wR' d1 (by positivity) wRp.le
    have v : 96 / 100 * Real.pi * n ≤ 4 * n := mul_le_mul_of_nonneg_right (by linarith) n0.le
    norm_num at *
    linarith

theorem enhWeight_near {w0 rm0 rm1 mm c : IEEE m} {w q0 q1 a r : ℚ} {R0 R1 C : ℝ} (hw : Val w0 w) (w1 : 1 / 32 ≤ w) (w2 : w ≤ 1)
    (h0 : Val rm0 q0) (h1 : Val rm1 q1) (hc : Val c r) (ha : Val mm a) (a0 : 0 ≤ a) (a1 : a ≤ 2 ^ 27) (R0l : 1 / 2 ^ 20 ≤ R0) (R0u : R0 ≤ 56 * 2 ^ 36)
    (e0 : |(q0 : ℝ) - R0| ≤ R0 / 270000) (e1 : |(q1 : ℝ) - R1| ≤ R0 / 25000) (er : |(r : ℝ) - C| ≤ 35 / 1000000) (hC : |C| ≤ 1 - 1 / 900)
    (hR1 : |R1| ≤ (1 - 1 / 900) * R0) : ∃ v : ℚ, Val (enhWeight w0 rm0 rm1 mm c : IEEE m) v ∧
      979 / 1000 * (Real.sqrt a * Real.sqrt (Real.sqrt (96 / 100 * Real.pi * (R0 ^ 2 + R1 ^ 2 - 2 * R0 * R1 * C) / (w * R0 * (R0 ^ 2 - R1 ^ 2))))) - 1 / 2 ^ 100 ≤ v ∧
      (v : ℝ) ≤ 1021 / 1000 * (Real.sqrt a * Real.sqrt (Real.sqrt (96 / 100 * Real.pi * (R0 ^ 2 + R1 ^ 2 - 2 * R0 * R1 * C) / (w * R0 * (R0 ^ 2 - R1 ^ 2))))) + 1 / 2 ^ 100 := by
  have R0p : 0 < R0 := lt_of_lt_of_le (by norm_num) R0l
  have w1' : (1 : ℝ) / 32 ≤ w := by
    have : ((1 / 32 : ℚ) : ℝ) ≤ w := by exact_mod_cast w1
    push_cast at this; exact this
  have w2' : (w : ℝ) ≤ 1 := by exact_mod_cast w2
  have b0 := abs_le.1 e0
  have b1 := abs_le.1 e1
  have b2 := abs_le.1 er
  have b3 := abs_le.1 hC
  have b4 := abs_le.1 hR1
  have q0l : 1 / 2 ^ 21 ≤ q0 := by
    have : ((1 / 2 ^ 21 : ℚ) : ℝ) ≤ q0 := by push_cast; norm_num at *; linarith
    exact_mod_cast this
  have q0u : q0 ≤ 2 ^ 42 := by
    have : (q0 : ℝ) ≤ ((2 ^ 42 : ℚ) : ℝ) := by push_cast; norm_num at *; linarith
    exact_mod_cast this
  have q1b : |q1| ≤ q0 := by
    have : |(q1 : ℝ)| ≤ q0 := by rw [abs_le]; constructor <;> linarith
    exact_mod_cast this
  have rb : |r| ≤ 1 := by
    have : |(r : ℝ)| ≤ 1 := by rw [abs_le]; constructor <;> linarith
    exact_mod_cast this
  have hY : 0 ≤ q0 * q0 + q1 * q1 - 2 * (q0 * q1) * r := by
    have rr : r * r ≤ 1 := by rw [← abs_mul_abs_self r]; exact (mul_le_mul rb rb (abs_nonneg _) (by norm_num)).trans (by norm_num)
    have := mul_le_mul_of_nonneg_left rr (mul_self_nonneg q0)
    nlinarith [mul_self_nonneg (q1 - q0 * r)]
  obtain ⟨K, N, vN, ⟨K1, K2⟩, eN⟩ := enhNum_near h0 q0l (q0u.trans (by norm_num)) h1 q1b hc rb hY
  obtain ⟨d, vd, ed⟩ := enhDen_near h0 q0l q0u h1 q1b hw w1 w2
  have K1' : (30159285 : ℝ) / 10000000 ≤ K := by
    have : ((30159285 / 10000000 : ℚ) : ℝ) ≤ K := by exact_mod_cast K1
    push_cast at this; exact this
  have K2' : (K : ℝ) ≤ 30159295 / 10000000 := by
    have : (K : ℝ) ≤ ((30159295 / 10000000 : ℚ) : ℝ) := by exact_mod_cast K2
    push_cast at this; exact this
  have eN' : |(N : ℝ) - K * (q0 * q0 + q1 * q1 - 2 * (q0 * q1) * r)| ≤ 65 / 2 ^ 24 * (q0 * q0) := by
    have : ((|N - K * (q0 * q0 + q1 * q1 - 2 * (q0 * q1) * r)| : ℚ) : ℝ) ≤ ((65 / 2 ^ 24 * (q0 * q0) : ℚ) : ℝ) := by exact_mod_cast eN
    push_cast at this; exact this
  have ed' : |(d : ℝ) - w * q0 * (q0 * q0 - q1 * q1)| ≤ 6 / 2 ^ 24 * (w * q0 * (q0 * q0)) := by
    have : ((|d - w * q0 * (q0 * q0 - q1 * q1)| : ℚ) : ℝ) ≤ ((6 / 2 ^ 24 * (w * q0 * (q0 * q0)) : ℚ) : ℝ) := by exact_mod_cast ed
    push_cast at this; exact this
  obtain ⟨dp, T1, T2, n1, n2⟩ := enh_ratio R0p (by linarith : (0 : ℝ) < w) e0 e1 er hC hR1 K1' K2' eN' ed'
  have R11 : R1 ^ 2 ≤ R0 ^ 2 := sq_le_sq' (by linarith) (by linarith)
  have hn : R0 ^ 2 + R1 ^ 2 - 2 * R0 * R1 * C ≤ 4 * R0 ^ 2 := by
    have : |R0 * R1 * C| ≤ R0 ^ 2 := by
      rw [abs_mul, abs_mul, abs_of_pos R0p]
      calc R0 * |R1| * |C| ≤ R0 * R0 * 1 := mul_le_mul (mul_le_mul_of_nonneg_left (by linarith) R0p.le) (by linarith) (abs_nonneg _) (by positivity)
        _ = R0 ^ 2 := by ring
    have := abs_le.1 this
    linarith
  obtain ⟨Tl, Tu⟩ := radicand_range R0l R0u w1' w2' n1 hn n2 (by linarith [sq_nonneg R1])
  generalize 96 / 100 * Real.pi * (R0 ^ 2 + R1 ^ 2 - 2 * R0 * R1 * C) / (w * R0 * (R0 ^ 2 - R1 ^ 2)) = T at *
  have Tp : 0 < T := lt_of_lt_of_le (by norm_num) Tl
  have dp' : 0 < d := by exact_mod_cast dp
  have nd0 : (0 : ℝ) ≤ (N : ℝ) / d := le_trans (by positivity) T1
  have nd0' : 0 ≤ N / d := by exact_mod_cast (show (0 : ℝ) ≤ ((N / d : ℚ) : ℝ) by push_cast; exact nd0)
  have ndu : N / d ≤ 2 ^ 41 := by
    have : ((N / d : ℚ) : ℝ) ≤ ((2 ^ 41 : ℚ) : ℝ) := by
      push_cast
      refine T2.trans ((mul_le_mul_of_nonneg_left Tu (by norm_num)).trans (by norm_num))
    exact_mod_cast this
  have vq := vN.div vd dp'.ne' (by rw [abs_of_nonneg nd0']; exact ndu.trans (le_trans (by norm_num) big_ge))
  have eq' : |((rnd F32 (N / d) : ℚ) : ℝ) - (N : ℝ) / d| ≤ 1 / 16777216 * ((N : ℝ) / d) + 1 / 2 ^ 100 := by
    have e := rnd32_err (N / d)
    rw [p24, abs_of_nonneg nd0'] at e
    have t := p150
    have e2 : |rnd F32 (N / d) - N / d| ≤ 1 / 16777216 * (N / d) + 1 / 2 ^ 100 := by linarith
    have : ((|rnd F32 (N / d) - N / d| : ℚ) : ℝ) ≤ ((1 / 16777216 * (N / d) + 1 / 2 ^ 100 : ℚ) : ℝ) := by exact_mod_cast e2
    push_cast at this
    exact this
  have eb := abs_le.1 eq'
  have small : (1 : ℝ) / 2 ^ 100 ≤ T / 100000000 := by
    have : (1 : ℝ) / 2 ^ 100 ≤ 1 / 2 ^ 60 / 100000000 := by norm_num
    linarith
  unfold enhWeight
  dsimp only
  generalize rnd F32 (N / d) = ρ at *
  exact weight_near ha a0 a1 vq Tl Tu (by linarith) (by linarith)

theorem lit12a_0 : rngB (lit 12 10 : IEEE libm0) (119999999 / 100000000) (12000001 / 10000000) = true := by decide +kernel
theorem lit12a : ∃ q, Val (lit 12 10 : IEEE m) q ∧ 119999999 / 100000000 ≤ q ∧ q ≤ 12000001 / 10000000 := rng_of lit12a_0

/-- The product with a factor that is near `f`. -/
theorem factor_near {y mm : IEEE m} {z a : ℚ} {f : ℝ} (hy : Val y z) (ha : Val mm a) (a0 : 0 ≤ a) (a1 : a ≤ 2 ^ 27) (z0 : 0 ≤ z) (f1 : 1 / 2 ≤ f) (f2 : f ≤ 6 / 5)
    (z1 : 97895 / 100000 * f ≤ z) (z2 : (z : ℝ) ≤ 102105 / 100000 * f) :
    ∃ r : ℚ, Val (y *ᶠ mm : IEEE m) r ∧ 0 ≤ r ∧ 9789 / 10000 * (f * a) - 1 / 2 ^ 140 ≤ r ∧ (r : ℝ) ≤ 10211 / 10000 * (f * a) + 1 / 2 ^ 140 := by
  have a0' : (0 : ℝ) ≤ a := by exact_mod_cast a0
  have za0 : 0 ≤ z * a := mul_nonneg z0 a0
  have zu : z ≤ 2 := by
    have : (z : ℝ) ≤ ((2 : ℚ) : ℝ) := by push_cast; linarith
    exact_mod_cast this
  have za1 : z * a ≤ 2 * 2 ^ 27 := mul_le_mul zu a1 a0 (by norm_num)
  have v := hy.mul ha (by rw [abs_of_nonneg za0]; exact za1.trans (le_trans (by norm_num) big_ge))
  refine ⟨_, v, rnd_nonneg za0, ?_⟩
  have e' : |((rnd F32 (z * a) : ℚ) : ℝ) - (z : ℝ) * a| ≤ 1 / 16777216 * ((z : ℝ) * a) + 1 / 2 ^ 149 := by
    have e := rnd32_err (z * a)
    rw [p24, abs_of_nonneg za0] at e
    have t : pow2 (-150) ≤ 1 / 2 ^ 149 := by rw [pow2_eq]; norm_num
    have e2 : |rnd F32 (z * a) - z * a| ≤ 1 / 16777216 * (z * a) + 1 / 2 ^ 149 := by linarith
    have : ((|rnd F32 (z * a) - z * a| : ℚ) : ℝ) ≤ ((1 / 16777216 * (z * a) + 1 / 2 ^ 149 : ℚ) : ℝ) := by exact_mod_cast e2
    push_cast at this
    exact this
  have eb := abs_le.1 e'
  have l1 := mul_le_mul_of_nonneg_right z1 a0'
  have l2 := mul_le_mul_of_nonneg_right z2 a0'
  have fa : 0 ≤ f * a := mul_nonneg (by linarith) a0'
  have t : (1 : ℝ) / 2 ^ 149 ≤ 1 / 2 ^ 140 := by norm_num
  constructor <;> linarith

/-- The amplitude after weighting. -/
theorem enhApply_near {w mm : IEEE m} {x a : ℚ} {W : ℝ} (hw : Val w x) (ha : Val mm a) (h0 : 0 ≤ a) (h1 : a ≤ 2 ^ 27) (hW : 0 ≤ W)
    (x1 : 979 / 1000 * W - 1 / 2 ^ 100 ≤ x) (x2 : (x : ℝ) ≤ 1021 / 1000 * W + 1 / 2 ^ 100) (l : Nat) (L : Int) :
    ∃ r : ℚ, Val (enhApply l L w mm : IEEE m) r ∧ 0 ≤ r ∧
      9789 / 10000 * ((if 8 * (l : Int) ≤ L then 1 else max (1 / 2) (min (6 / 5) W)) * a) - 1 / 2 ^ 140 ≤ r ∧
      (r : ℝ) ≤ 10211 / 10000 * ((if 8 * (l : Int) ≤ L then 1 else max (1 / 2) (min (6 / 5) W)) * a) + 1 / 2 ^ 140 := by
  have a0' : (0 : ℝ) ≤ a := by exact_mod_cast h0
  have t : (0 : ℝ) < 1 / 2 ^ 140 := by positivity
  have t2 : (1 : ℝ) / 2 ^ 100 ≤ 1 / 1000000000 := by norm_num
  obtain ⟨τ, hτ⟩ : ∃ τ : ℝ, τ = 1 / 2 ^ 100 := ⟨_, rfl⟩
  rw [← hτ] at x1 x2 t2
  unfold enhApply
  obtain ⟨c, vc, c1, c2⟩ := lit12a (m := m)
  obtain ⟨d, vd, d1, d2⟩ := lit5 (m := m)
  have c1' : (119999999 : ℝ) / 100000000 ≤ c := by
    have : ((119999999 / 100000000 : ℚ) : ℝ) ≤ c := by exact_mod_cast c1
    push_cast at this; exact this
  have c2' : (c : ℝ) ≤ 12000001 / 10000000 := by
    have : (c : ℝ) ≤ ((12000001 / 10000000 : ℚ) : ℝ) := by exact_mod_cast c2
    push_cast at this; exact this
  have dd : d = 1 / 2 := le_antisymm d2 d1
  have dd' : (d : ℝ) = 1 / 2 := by rw [dd]; push_cast; rfl
  split
  · refine ⟨a, ha, h0, ?_, ?_⟩ <;> linarith
  · have F1 : (1 : ℝ) / 2 ≤ max (1 / 2) (min (6 / 5) W) := le_max_left _ _
    have F2 : max (1 / 2) (min (6 / 5) W) ≤ 6 / 5 := max_le (by norm_num) (min_le_left _ _)
    have cases : (W ≤ 1 / 2 ∧ max (1 / 2) (min (6 / 5) W) = 1 / 2) ∨ (1 / 2 ≤ W ∧ W ≤ 6 / 5 ∧ max (1 / 2) (min (6 / 5) W) = W) ∨
        (6 / 5 ≤ W ∧ max (1 / 2) (min (6 / 5) W) = 6 / 5) := by
      rcases le_total W (1 / 2) with h | h
      · exact .inl ⟨h, by rw [min_eq_right (by linarith), max_eq_left h]⟩
      · rcases le_total W (6 / 5) with h' | h'
        · exact .inr (.inl ⟨h, h', by rw [min_eq_right h', max_eq_right h]⟩)
        · exact .inr (.inr ⟨h', by rw [min_eq_left h', max_eq_right (by norm_num)]⟩)
    generalize max (1 / 2) (min (6 / 5) W) = f at *
    rw [vc.lt hw, hw.lt vd]
    split
    · rename_i h2
      have h2 : c < x := by simpa using h2
      have h2' : (c : ℝ) < x := by exact_mod_cast h2
      refine factor_near vc ha h0 h1 (by linarith) F1 F2 ?_ ?_
      · linarith
      · rcases cases with ⟨h, e⟩ | ⟨h, h', e⟩ | ⟨h, e⟩ <;> rw [e] <;> linarith
    · split
      · rename_i h3
        have h3 : x < d := by simpa using h3
        have h3' : (x : ℝ) < d := by exact_mod_cast h3
        refine factor_near vd ha h0 h1 (by linarith) F1 F2 ?_ ?_
        · rcases cases with ⟨h, e⟩ | ⟨h, h', e⟩ | ⟨h, e⟩ <;> rw [e] <;> linarith
        · linarith
      · rename_i h2 h3
        have h2 : x ≤ c := not_lt.1 (by simpa using h2)
        have h3 : d ≤ x := not_lt.1 (by simpa using h3)
        have h2' : (x : ℝ) ≤ c := by exact_mod_cast h2
        have h3' : (d : ℝ) ≤ x := by exact_mod_cast h3
        refine factor_near hw ha h0 h1 (by linarith) F1 F2 ?_ ?_
        all_goals rcases cases with ⟨h, e⟩ | ⟨h, h', e⟩ | ⟨h, e⟩ <;> rw [e] <;> linarith

end Verif.Model
