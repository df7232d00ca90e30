import Verif.Lemmas.EnhWeight

/-!
# The roots of the spectral enhancement in binary32
-/

namespace Verif.Model
open Verif Verif.Gen Verif.Spec Verif.Num Arith
variable {m : Libm}

theorem val_sqrtE {x : IEEE m} {q : ℚ} (h : Val x q) (hn : pow2 (-252) ≤ q) :
    ∃ r : ℚ, Val (Arith.sqrt x : IEEE m) r ∧ 0 ≤ r ∧ |(r : ℝ) - Real.sqrt q| ≤ Real.sqrt q / 2 ^ 24 := by
  have h0 : 0 < q := lt_of_lt_of_le (pow2_pos _) hn
  obtain ⟨s, rfl⟩ := h
  show ∃ r : ℚ, Val (FP.sqrtR F32 (FP.fin s q)) r ∧ _
  unfold FP.sqrtR
  simp only [if_neg h0.ne', if_neg (not_lt.2 h0.le)]
  exact ⟨_, ⟨false, rfl⟩, sqrtQ_nonneg q, sqrtQ_err h0 hn⟩

theorem val_sqrtA {x : IEEE m} {q : ℚ} (h : Val x q) (h0 : 0 ≤ q) :
    ∃ r : ℚ, Val (Arith.sqrt x : IEEE m) r ∧ 0 ≤ r ∧ |(r : ℝ) - Real.sqrt q| ≤ Real.sqrt q / 2 ^ 24 + 1 / 2 ^ 120 := by
  by_cases c : pow2 (-252) ≤ q
  · obtain ⟨r, h1, h2, h3⟩ := val_sqrtE h c
    exact ⟨r, h1, h2, h3.trans (by linarith [show (0 : ℝ) < 1 / 2 ^ 120 by positivity])⟩
  · obtain ⟨r, h1, h2, h3⟩ := h.sqrt_le (k := -125) (by norm_num) h0 (lt_of_lt_of_le (not_le.1 c) (pow2_le (by norm_num)))
    refine ⟨r, h1, h2, ?_⟩
    have s0 := Real.sqrt_nonneg (q : ℝ)
    have s1 : Real.sqrt q ≤ 1 / 2 ^ 125 := by
      refine Real.sqrt_le_iff.2 ⟨by positivity, ?_⟩
      have : (q : ℝ) ≤ ((pow2 (-252) : ℚ) : ℝ) := by exact_mod_cast (not_le.1 c).le
      refine this.trans ?_
      rw [pow2_eq]
      push_cast
      norm_num
    have h2' : (0 : ℝ) ≤ r := by exact_mod_cast h2
    have h3' : (r : ℝ) ≤ 1 / 2 ^ 125 := by
      have : (r : ℝ) ≤ ((pow2 (-125) : ℚ) : ℝ) := by exact_mod_cast h3
      refine this.trans (le_of_eq ?_)
      rw [pow2_eq]
      push_cast
      norm_num
    rw [abs_le]
    have : (1 : ℝ) / 2 ^ 125 ≤ 1 / 2 ^ 120 := by norm_num
    constructor <;> linarith

theorem sqrt_up {x y c : ℝ} (hc : 0 ≤ c) (h : x ≤ c ^ 2 * y) : Real.sqrt x ≤ c * Real.sqrt y := by
  refine (Real.sqrt_le_sqrt h).trans (le_of_eq ?_)
  rw [Real.sqrt_mul (sq_nonneg c), Real.sqrt_sq hc]

theorem sqrt_dn {x y c : ℝ} (hc : 0 ≤ c) (h : c ^ 2 * y ≤ x) : c * Real.sqrt y ≤ Real.sqrt x := by
  refine le_trans (le_of_eq ?_) (Real.sqrt_le_sqrt h)
  rw [Real.sqrt_mul (sq_nonneg c), Real.sqrt_sq hc]

/-- The fourth root. -/
theorem root4_near {x : IEEE m} {ρ : ℚ} (h : Val x ρ) {T : ℝ} (T0 : 1 / 2 ^ 60 ≤ T) (h1 : 92109 / 100000 * T ≤ ρ) (h2 : (ρ : ℝ) ≤ 108552 / 100000 * T) :
    ∃ s : ℚ, Val (Arith.sqrt (Arith.sqrt x) : IEEE m) s ∧ 0 ≤ s ∧ 97958 / 100000 * Real.sqrt (Real.sqrt T) ≤ s ∧
      (s : ℝ) ≤ 102092 / 100000 * Real.sqrt (Real.sqrt T) := by
  have ρ0 : (1 : ℝ) / 2 ^ 61 ≤ ρ := by
    have : (1 : ℝ) / 2 ^ 61 ≤ 92109 / 100000 * (1 / 2 ^ 60) := by norm_num
    linarith
  have ρ1 : pow2 (-252) ≤ ρ := by
    have e : ((1 / 2 ^ 61 : ℚ) : ℝ) ≤ ρ := by push_cast; exact ρ0
    have e' : (1 / 2 ^ 61 : ℚ) ≤ ρ := by exact_mod_cast e
    refine le_trans ?_ e'
    rw [pow2_eq]; norm_num
  obtain ⟨s1, v1, _, e1⟩ := val_sqrtE h ρ1
  have u1 := sqrt_up (x := ρ) (y := T) (c := 10420 / 10000) (by norm_num) (by nlinarith)
  have l1 := sqrt_dn (x := ρ) (y := T) (c := 9597 / 10000) (by norm_num) (by nlinarith)
  have r0 : (1 : ℝ) / 2 ^ 30 ≤ Real.sqrt T := by
    apply Real.le_sqrt_of_sq_le
    refine le_trans (le_of_eq ?_) T0
    norm_num
  have b1 := abs_le.1 e1
  have s1u : (s1 : ℝ) ≤ 10421 / 10000 * Real.sqrt T := by norm_num at *; linarith
  have s1l : 95969 / 100000 * Real.sqrt T ≤ (s1 : ℝ) := by norm_num at *; linarith
  have s1p : pow2 (-252) ≤ s1 := by
    have e : ((1 / 2 ^ 31 : ℚ) : ℝ) ≤ s1 := by
      push_cast
      have : (1 : ℝ) / 2 ^ 31 ≤ 95969 / 100000 * (1 / 2 ^ 30) := by norm_num
      linarith
    have e' : (1 / 2 ^ 31 : ℚ) ≤ s1 := by exact_mod_cast e
    refine le_trans ?_ e'
    rw [pow2_eq]; norm_num
  obtain ⟨s2, v2, p2, e2⟩ := val_sqrtE v1 s1p
  have u2 := sqrt_up (x := s1) (y := Real.sqrt T) (c := 10209 / 10000) (by norm_num) (by nlinarith)
  have l2 := sqrt_dn (x := s1) (y := Real.sqrt T) (c := 9796 / 10000) (by norm_num) (by nlinarith)
  have b2 := abs_le.1 e2
  have n2 := Real.sqrt_nonneg (Real.sqrt T)
  have n3 := Real.sqrt_nonneg (s1 : ℝ)
  exact ⟨s2, v2, p2, by norm_num at *; linarith, by norm_num at *; linarith⟩

/-- The weight, from a radicand that is accurate to 8.5 percent. -/
theorem weight_near {x y : IEEE m} {a ρ : ℚ} (ha : Val x a) (a0 : 0 ≤ a) (a1 : a ≤ 2 ^ 27) (h : Val y ρ) {T : ℝ} (T0 : 1 / 2 ^ 60 ≤ T) (T1 : T ≤ 2 ^ 40)
    (h1 : 92109 / 100000 * T ≤ ρ) (h2 : (ρ : ℝ) ≤ 108552 / 100000 * T) :
    ∃ v : ℚ, Val (Arith.sqrt x *ᶠ Arith.sqrt (Arith.sqrt y) : IEEE m) v ∧
      979 / 1000 * (Real.sqrt a * Real.sqrt (Real.sqrt T)) - 1 / 2 ^ 100 ≤ v ∧
      (v : ℝ) ≤ 1021 / 1000 * (Real.sqrt a * Real.sqrt (Real.sqrt T)) + 1 / 2 ^ 100 := by
  obtain ⟨s2, v2, p2, l2, u2⟩ := root4_near h T0 h1 h2
  obtain ⟨s3, v3, p3, e3⟩ := val_sqrtA ha a0
  have p2' : (0 : ℝ) ≤ s2 := by exact_mod_cast p2
  have p3' : (0 : ℝ) ≤ s3 := by exact_mod_cast p3
  have nA := Real.sqrt_nonneg (a : ℝ)
  have nB := Real.sqrt_nonneg (Real.sqrt T)
  have uB : Real.sqrt (Real.sqrt T) ≤ 2 ^ 10 := by
    refine Real.sqrt_le_iff.2 ⟨by norm_num, Real.sqrt_le_iff.2 ⟨by norm_num, T1.trans (by norm_num)⟩⟩
  have uA : Real.sqrt (a : ℝ) ≤ 2 ^ 14 := by
    refine Real.sqrt_le_iff.2 ⟨by norm_num, ?_⟩
    have : (a : ℝ) ≤ ((2 ^ 27 : ℚ) : ℝ) := by exact_mod_cast a1
    push_cast at this
    exact this.trans (by norm_num)
  generalize Real.sqrt (a : ℝ) = A at *
  generalize Real.sqrt (Real.sqrt T) = B at *
  have b3 := abs_le.1 e3
  have s3u : (s3 : ℝ) ≤ 2 ^ 15 := by norm_num at *; linarith
  have s2u : (s2 : ℝ) ≤ 2 ^ 11 := by norm_num at *; linarith
  have pr : (s3 : ℝ) * s2 ≤ 2 ^ 26 := (mul_le_mul s3u s2u p2' (by norm_num)).trans (by norm_num)
  have pr0 : 0 ≤ s3 * s2 := mul_nonneg p3 p2
  obtain ⟨v, vv, ev⟩ := v3.mulE v2 (by
    rw [abs_of_nonneg pr0]
    have e : ((s3 * s2 : ℚ) : ℝ) ≤ ((2 ^ 26 : ℚ) : ℝ) := by push_cast; exact pr
    have e' : s3 * s2 ≤ 2 ^ 26 := by exact_mod_cast e
    exact e'.trans (le_trans (by norm_num) big_ge))
  refine ⟨v, vv, ?_⟩
  rw [p24, abs_of_nonneg pr0] at ev
  have t := p150
  have ev' : |v - s3 * s2| ≤ 1 / 16777216 * (s3 * s2) + 1 / 2 ^ 110 := by
    have : pow2 (-150) ≤ 1 / 2 ^ 110 := by rw [pow2_eq]; norm_num
    linarith
  have ev2 : |(v : ℝ) - s3 * s2| ≤ 1 / 16777216 * (s3 * s2) + 1 / 2 ^ 110 := by
    have : ((|v - s3 * s2| : ℚ) : ℝ) ≤ ((1 / 16777216 * (s3 * s2) + 1 / 2 ^ 110 : ℚ) : ℝ) := by exact_mod_cast ev'
    push_cast at this
    exact this
  have bv := abs_le.1 ev2
  have up : (s3 : ℝ) * s2 ≤ 10209201 / 10000000 * (A * B) + 1 / 2 ^ 109 := by
    have q1 : (s3 : ℝ) * s2 ≤ (A * (1 + 1 / 2 ^ 24) + 1 / 2 ^ 120) * (102092 / 100000 * B) :=
      mul_le_mul (by linarith) u2 p2' (by positivity)
    have q2 : (1 : ℝ) / 2 ^ 120 * (102092 / 100000 * B) ≤ 1 / 2 ^ 109 := by
      have : (1 : ℝ) / 2 ^ 120 * (102092 / 100000 * B) ≤ 1 / 2 ^ 120 * (102092 / 100000 * 2 ^ 10) := by gcongr
      exact this.trans (by norm_num)
    have q3 : 0 ≤ A * B := mul_nonneg nA nB
    have q4 : (A * (1 + 1 / 2 ^ 24) + 1 / 2 ^ 120) * (102092 / 100000 * B) =
      (1 + 1 / 2 ^ 24) * (102092 / 100000) * (A * B) + 1 / 2 ^ 120 * (102092 / 100000 * B) := by ring
    have q5 : ((1 : ℝ) + 1 / 2 ^ 24) * (102092 / 100000) ≤ 10209201 / 10000000 := by norm_num
    have q6 := mul_le_mul_of_nonneg_right q5 q3
    linarith
  have dn : 979579 / 1000000 * (A * B) - 1 / 2 ^ 109 ≤ (s3 : ℝ) * s2 := by
    have q1 : (A * (1 - 1 / 2 ^ 24) - 1 / 2 ^ 120) * (97958 / 100000 * B) ≤ (s3 : ℝ) * (97958 / 100000 * B) :=
      mul_le_mul_of_nonneg_right (by linarith) (by positivity)
    have q1' : (s3 : ℝ) * (97958 / 100000 * B) ≤ s3 * s2 := mul_le_mul_of_nonneg_left l2 p3'
    have q2 : (1 : ℝ) / 2 ^ 120 * (97958 / 100000 * B) ≤ 1 / 2 ^ 109 := by
      have : (1 : ℝ) / 2 ^ 120 * (97958 / 100000 * B) ≤ 1 / 2 ^ 120 * (97958 / 100000 * 2 ^ 10) := by gcongr
      exact this.trans (by norm_num)
    have q3 : 0 ≤ A * B := mul_nonneg nA nB
    have q4 : (A * (1 - 1 / 2 ^ 24) - 1 / 2 ^ 120) * (97958 / 100000 * B) =
      (1 - 1 / 2 ^ 24) * (97958 / 100000) * (A * B) - 1 / 2 ^ 120 * (97958 / 100000 * B) := by ring
    have q5 : (979579 / 1000000 : ℝ) ≤ (1 - 1 / 2 ^ 24) * (97958 / 100000) := by norm_num
    have q6 := mul_le_mul_of_nonneg_right q5 q3
    linarith
  have q3 : 0 ≤ A * B := mul_nonneg nA nB
  have z1 : (1 : ℝ) / 2 ^ 109 * 2 + 1 / 2 ^ 110 ≤ 1 / 2 ^ 100 := by norm_num
  have z2 : (0 : ℝ) < 1 / 2 ^ 109 := by positivity
  constructor <;> linarith

/-- The quotient of a numerator and a denominator that are known up to rounding. -/
theorem quot_arith {P Q n δ K Y V t0 t1 N d : ℝ} (P0 : 0 < P) (Q0 : 0 < Q) (n1 : 1 / 451 ≤ n) (n2 : 1 / 451 ≤ δ) (n3 : |Y - n| ≤ 41 / 1000 * n)
    (n4 : |V - δ| ≤ 396 / 10000 * δ) (K1 : 30159285 / 10000000 ≤ K) (K2 : K ≤ 30159295 / 10000000) (y0b : t0 ≤ 10001 / 10000)
    (y0c : t1 ≤ 10002 / 10000) (hN : |N - K * (P * Y)| ≤ P * (65 / 2 ^ 24 * t0)) (hd : |d - Q * V| ≤ Q * (6 / 2 ^ 24 * t1)) :
    0 < d ∧ 9211 / 10000 * (96 / 100 * Real.pi * (P * n) / (Q * δ)) ≤ N / d ∧
      N / d ≤ 10855 / 10000 * (96 / 100 * Real.pi * (P * n) / (Q * δ)) := by
  have pg := Real.pi_gt_d6
  have pl := Real.pi_lt_d6
  have an := abs_le.1 n3
  have ad := abs_le.1 n4
  have aN := abs_le.1 hN
  have aD := abs_le.1 hd
  have n0 : 0 < n := by linarith
  have δ0 : 0 < δ := by linarith
  have KY1 : K * Y ≤ 30159295 / 10000000 * (1041 / 1000 * n) := mul_le_mul K2 (by linarith) (by linarith) (by norm_num)
  have KY2 : 30159285 / 10000000 * (959 / 1000 * n) ≤ K * Y := mul_le_mul K1 (by linarith) (by linarith) (by linarith)
  have pin : 96 / 100 * 3.141592 * n ≤ 96 / 100 * Real.pi * n := by nlinarith
  have pin' : 96 / 100 * Real.pi * n ≤ 96 / 100 * 3.141593 * n := by nlinarith
  have N1 : N ≤ P * (1042 / 1000 * (96 / 100 * Real.pi * n)) := by
    have : K * Y + 65 / 2 ^ 24 * t0 ≤ 1042 / 1000 * (96 / 100 * Real.pi * n) := by linarith
    have := mul_le_mul_of_nonneg_left this P0.le
    linarith
  have N2 : P * (958 / 1000 * (96 / 100 * Real.pi * n)) ≤ N := by
    have : 958 / 1000 * (96 / 100 * Real.pi * n) ≤ K * Y - 65 / 2 ^ 24 * t0 := by linarith
    have := mul_le_mul_of_nonneg_left this P0.le
    linarith
  have D1 : d ≤ Q * (104 / 100 * δ) := by
    have : V + 6 / 2 ^ 24 * t1 ≤ 104 / 100 * δ := by linarith
    have := mul_le_mul_of_nonneg_left this Q0.le
    linarith
  have D2 : Q * (96 / 100 * δ) ≤ d := by
    have : 96 / 100 * δ ≤ V - 6 / 2 ^ 24 * t1 := by linarith
    have := mul_le_mul_of_nonneg_left this Q0.le
    linarith
  have Qδ : 0 < Q * δ := mul_pos Q0 δ0
  have d0 : 0 < d := lt_of_lt_of_le (by nlinarith) D2
  have E : 0 < 96 / 100 * Real.pi * (P * n) := by positivity
  obtain ⟨e, he⟩ : ∃ e, e = 96 / 100 * Real.pi * (P * n) := ⟨_, rfl⟩
  obtain ⟨q, hq⟩ : ∃ q, q = Q * δ := ⟨_, rfl⟩
  have N1' : N ≤ 1042 / 1000 * e := by rw [he]; linarith
  have N2' : 958 / 1000 * e ≤ N := by rw [he]; linarith
  have D1' : d ≤ 104 / 100 * q := by rw [hq]; linarith
  have D2' : 96 / 100 * q ≤ d := by rw [hq]; linarith
  rw [← he, ← hq]
  rw [← he] at E
  rw [← hq] at Qδ
  refine ⟨d0, ?_, ?_⟩
  · rw [le_div_iff₀ d0, ← mul_div_assoc, div_mul_eq_mul_div, div_le_iff₀ Qδ]
    have g1 := mul_le_mul_of_nonneg_left D1' E.le
    have g2 := mul_le_mul_of_nonneg_right N2' Qδ.le
    have g3 := (mul_pos E Qδ).le
    calc 9211 / 10000 * e * d = 9211 / 10000 * (e * d) := by ring
      _ ≤ 9211 / 10000 * (e * (104 / 100 * q)) := mul_le_mul_of_nonneg_left g1 (by norm_num)
      _ = 957944 / 1000000 * (e * q) := by ring
      _ ≤ 958 / 1000 * (e * q) := mul_le_mul_of_nonneg_right (by norm_num) g3
      _ = 958 / 1000 * e * q := by ring
      _ ≤ N * q := g2
  · rw [div_le_iff₀ d0, ← mul_div_assoc, div_mul_eq_mul_div, le_div_iff₀ Qδ]
    have g1 := mul_le_mul_of_nonneg_left D2' E.le
    have g2 := mul_le_mul_of_nonneg_right N1' Qδ.le
    have g3 := (mul_pos E Qδ).le
    calc N * q ≤ 1042 / 1000 * e * q := g2
      _ = 1042 / 1000 * (e * q) := by ring
      _ ≤ 10855 / 10000 * (96 / 100) * (e * q) := mul_le_mul_of_nonneg_right (by norm_num) g3
      _ = 10855 / 10000 * (e * (96 / 100 * q)) := by ring
      _ ≤ 10855 / 10000 * (e * d) := mul_le_mul_of_nonneg_left g1 (by norm_num)
      _ = 10855 / 10000 * e * d := by ring

/-- The radicand. -/
theorem enh_ratio {R0 R1 C w : ℝ} {N d K q0 q1 r : ℝ} (hR : 0 < R0) (hw : 0 < w) (h0 : |q0 - R0| ≤ R0 / 270000) (h1 : |q1 - R1| ≤ R0 / 25000)
    (hr : |r - C| ≤ 35 / 1000000) (hC : |C| ≤ 1 - 1 / 900) (hR1 : |R1| ≤ (1 - 1 / 900) * R0)
    (K1 : 30159285 / 10000000 ≤ K) (K2 : K ≤ 30159295 / 10000000)
    (hN : |N - K * (q0 * q0 + q1 * q1 - 2 * (q0 * q1) * r)| ≤ 65 / 2 ^ 24 * (q0 * q0))
    (hd : |d - w * q0 * (q0 * q0 - q1 * q1)| ≤ 6 / 2 ^ 24 * (w * q0 * (q0 * q0))) :
    0 < d ∧ 9211 / 10000 * ((96 / 100 * Real.pi * (R0 ^ 2 + R1 ^ 2 - 2 * R0 * R1 * C)) / (w * R0 * (R0 ^ 2 - R1 ^ 2))) ≤ N / d ∧
      N / d ≤ 10855 / 10000 * ((96 / 100 * Real.pi * (R0 ^ 2 + R1 ^ 2 - 2 * R0 * R1 * C)) / (w * R0 * (R0 ^ 2 - R1 ^ 2))) ∧
      R0 ^ 2 / 451 ≤ R0 ^ 2 + R1 ^ 2 - 2 * R0 * R1 * C ∧ R0 ^ 2 / 451 ≤ R0 ^ 2 - R1 ^ 2 := by
  obtain ⟨y0, rfl⟩ : ∃ y, q0 = R0 * y := ⟨q0 / R0, by field_simp⟩
  obtain ⟨y1, rfl⟩ : ∃ y, q1 = R0 * y := ⟨q1 / R0, by field_simp⟩
  obtain ⟨z, rfl⟩ : ∃ y, R1 = R0 * y := ⟨R1 / R0, by field_simp⟩
  have h0' : |y0 - 1| ≤ 1 / 270000 := by
    rw [show R0 * y0 - R0 = R0 * (y0 - 1) by ring, abs_mul, abs_of_pos hR, div_eq_mul_one_div] at h0
    exact le_of_mul_le_mul_left h0 hR
  have h1' : |y1 - z| ≤ 1 / 25000 := by
    rw [← mul_sub, abs_mul, abs_of_pos hR, div_eq_mul_one_div] at h1
    exact le_of_mul_le_mul_left h1 hR
  have hz : |z| ≤ 1 - 1 / 900 := by
    rw [abs_mul, abs_of_pos hR, mul_comm] at hR1
    exact le_of_mul_le_mul_right hR1 hR
  obtain ⟨n1, n2, n3, n4⟩ := enh_cond h0' h1' hr hC hz
  have a0 := abs_le.1 h0'
  have y0b : y0 * y0 ≤ 10001 / 10000 := by nlinarith
  have y0c : y0 * (y0 * y0) ≤ 10002 / 10000 := by nlinarith
  have P : 0 < R0 ^ 2 := by positivity
  have Q : 0 < w * R0 ^ 3 := by positivity
  have eN : (R0 * y0) * (R0 * y0) + (R0 * y1) * (R0 * y1) - 2 * ((R0 * y0) * (R0 * y1)) * r = R0 ^ 2 * (y0 ^ 2 + y1 ^ 2 - 2 * y0 * y1 * r) := by ring
  have eD : w * (R0 * y0) * ((R0 * y0) * (R0 * y0) - (R0 * y1) * (R0 * y1)) = w * R0 ^ 3 * (y0 * (y0 ^ 2 - y1 ^ 2)) := by ring
  have eT : R0 ^ 2 + (R0 * z) ^ 2 - 2 * R0 * (R0 * z) * C = R0 ^ 2 * (1 + z ^ 2 - 2 * z * C) := by ring
  have eS : R0 ^ 2 - (R0 * z) ^ 2 = R0 ^ 2 * (1 - z ^ 2) := by ring
  rw [eN, show 65 / 2 ^ 24 * (R0 * y0 * (R0 * y0)) = R0 ^ 2 * (65 / 2 ^ 24 * (y0 * y0)) by ring] at hN
  rw [eD, show 6 / 2 ^ 24 * (w * (R0 * y0) * (R0 * y0 * (R0 * y0))) = w * R0 ^ 3 * (6 / 2 ^ 24 * (y0 * (y0 * y0))) by ring] at hd
  rw [eT, eS, show w * R0 * (R0 ^ 2 * (1 - z ^ 2)) = w * R0 ^ 3 * (1 - z ^ 2) by ring]
  generalize y0 ^ 2 + y1 ^ 2 - 2 * y0 * y1 * r = Y at *
  generalize y0 * (y0 ^ 2 - y1 ^ 2) = V at *
  generalize 1 + z ^ 2 - 2 * z * C = n at *
  generalize 1 - z ^ 2 = δ at *
  obtain ⟨d0, k1, k2⟩ := quot_arith P Q n1 n2 n3 n4 K1 K2 y0b y0c hN hd
  refine ⟨d0, k1, k2, ?_, ?_⟩
  · have := mul_le_mul_of_nonneg_left n1 P.le
    linarith
  · have := mul_le_mul_of_nonneg_left n2 P.le
    linarith

end Verif.Model
