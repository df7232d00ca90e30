import Verif.Lemmas.EnhCos

/-!
# The weights of the spectral enhancement in binary32
-/

namespace Verif.Model
open Verif Verif.Gen Verif.Spec Verif.Num Arith
variable {m : Libm}

/-- The constant `0.96 π`. -/
theorem enhK1_0 : rngB ((toF (dlit 96 100) *ᶠ fpi) : IEEE libm0) (30159285 / 10000000) (30159295 / 10000000) = true := by decide +kernel
theorem enhK1 : ∃ q, Val ((toF (dlit 96 100) *ᶠ fpi) : IEEE m) q ∧ 30159285 / 10000000 ≤ q ∧ q ≤ 30159295 / 10000000 := rng_of enhK1_0

/-- The numerator up to rounding. -/
theorem enhNum_near {rm0 rm1 : IEEE m} {q0 q1 : ℚ}
    (h0 : Val rm0 q0) (h01 : 1 / 2 ^ 21 ≤ q0) (h02 : q0 ≤ 2 ^ 60) (h1 : Val rm1 q1) (h11 : |q1| ≤ q0)
    {c : IEEE m} {r : ℚ} (hc : Val c r) (hr2 : |r| ≤ 1) (hY : 0 ≤ q0 * q0 + q1 * q1 - 2 * (q0 * q1) * r) :
    ∃ K N, Val (((toF (dlit 96 100) *ᶠ fpi) *ᶠ (((rm0 *ᶠ rm0) +ᶠ (rm1 *ᶠ rm1)) -ᶠ (((ofInt 2 *ᶠ rm0) *ᶠ rm1) *ᶠ c))) : IEEE m) N ∧
      (30159285 / 10000000 ≤ K ∧ K ≤ 30159295 / 10000000) ∧
      |N - K * (q0 * q0 + q1 * q1 - 2 * (q0 * q1) * r)| ≤ 65 / 2 ^ 24 * (q0 * q0) := by
  have q0p : 0 < q0 := lt_of_lt_of_le (by norm_num) h01
  obtain ⟨X, hX⟩ : ∃ X, X = q0 * q0 := ⟨_, rfl⟩
  have hX1 : 1 / 2 ^ 60 ≤ X := by
    rw [hX]
    exact le_trans (by norm_num) (mul_le_mul h01 h01 (by norm_num) q0p.le)
  have hX2 : X ≤ 2 ^ 120 := by
    rw [hX]
    exact (mul_le_mul h02 h02 q0p.le (by norm_num)).trans (by norm_num)
  have hX0 : 0 < X := lt_of_lt_of_le (by norm_num) hX1
  have hz : |q0 * q1| ≤ X := by
    rw [abs_mul, abs_of_pos q0p, hX]
    exact mul_le_mul_of_nonneg_left h11 q0p.le
  have hy0 : 0 ≤ q1 * q1 := mul_self_nonneg _
  have hy : q1 * q1 ≤ X := by
    rw [← abs_mul_abs_self q1, hX]
    exact mul_le_mul h11 h11 (abs_nonneg _) q0p.le
  have hB := big_ge
  rw [← hX] at hY ⊢
  obtain ⟨r20, v20, e20⟩ := h0.mulE h0 (by rw [← hX, abs_of_pos hX0]; linarith [(by norm_num : (2 : ℚ) ^ 120 ≤ 2 ^ 127)])
  rw [← hX] at e20
  have e20' := rel_of hX1 (c := 1) (by norm_num) (by rw [abs_of_pos hX0, one_mul]) e20
  obtain ⟨r21, v21, e21⟩ := h1.mulE h1 (by
    rw [abs_of_nonneg hy0]; linarith [(by norm_num : (2 : ℚ) ^ 120 ≤ 2 ^ 127)])
  have e21' := rel_of hX1 (c := 1) (by norm_num) (by rw [abs_of_nonneg hy0]; linarith) e21
  have a20 := abs_le.1 e20'
  have a21 := abs_le.1 e21'
  have two : Val (ofInt 2 : IEEE m) 2 := by simpa using Val.ofInt (m := m) (n := 2) (by norm_num)
  have bA : |r20 + r21| ≤ 21 / 10 * X := by rw [abs_le]; constructor <;> linarith
  obtain ⟨A, vA, eA⟩ := v20.addE v21 (bA.trans (by linarith [(by norm_num : (21 : ℚ) / 10 * 2 ^ 120 ≤ 2 ^ 127)]))
  have aA := abs_le.1 (rel_of hX1 (by norm_num) bA eA)
  obtain ⟨b1, vb1, eb1⟩ := two.mulE h0 (by
    rw [abs_of_pos (by linarith)]; linarith [(by norm_num : (2 : ℚ) * 2 ^ 60 ≤ 2 ^ 127)])
  have eb1' := rel_of (X := q0) (le_trans (by norm_num) h01) (c := 2) (by norm_num) (by rw [abs_of_pos (by linarith)]) eb1
  have hb1z : |b1 * q1 - 2 * (q0 * q1)| ≤ (2 / 2 ^ 24 + 1 / 2 ^ 40) * X := by
    have : b1 * q1 - 2 * (q0 * q1) = (b1 - 2 * q0) * q1 := by ring
    rw [this, abs_mul]
    calc |b1 - 2 * q0| * |q1| ≤ ((2 / 2 ^ 24 + 1 / 2 ^ 40) * q0) * q0 := mul_le_mul eb1' h11 (abs_nonneg _) (by positivity)
      _ = (2 / 2 ^ 24 + 1 / 2 ^ 40) * X := by rw [hX]; ring
  have az := abs_le.1 hz
  have ab1 := abs_le.1 hb1z
  have bb2 : |b1 * q1| ≤ 201 / 100 * X := by rw [abs_le]; constructor <;> linarith
  obtain ⟨b2, vb2, eb2⟩ := vb1.mulE h1 (bb2.trans (by linarith [(by norm_num : (201 : ℚ) / 100 * 2 ^ 120 ≤ 2 ^ 127)]))
  have ab2 := abs_le.1 (rel_of hX1 (by norm_num) bb2 eb2)
  have bb2' : |b2| ≤ 202 / 100 * X := by
    have := abs_le.1 bb2
    rw [abs_le]; constructor <;> linarith
  have bb3 : |b2 * r| ≤ 202 / 100 * X := by
    rw [abs_mul]
    calc |b2| * |r| ≤ |b2| * 1 := mul_le_mul_of_nonneg_left hr2 (abs_nonneg _)
      _ ≤ 202 / 100 * X := by rw [mul_one]; exact bb2'
  obtain ⟨b3, vb3, eb3⟩ := vb2.mulE hc (bb3.trans (by linarith [(by norm_num : (202 : ℚ) / 100 * 2 ^ 120 ≤ 2 ^ 127)]))
  have ab3 := abs_le.1 (rel_of hX1 (by norm_num) bb3 eb3)
  have hb2r : |b2 * r - 2 * (q0 * q1) * r| ≤ 402 / 100 / 2 ^ 24 * X := by
    have : b2 * r - 2 * (q0 * q1) * r = (b2 - 2 * (q0 * q1)) * r := by ring
    rw [this, abs_mul]
    have h : |b2 - 2 * (q0 * q1)| ≤ 402 / 100 / 2 ^ 24 * X := by rw [abs_le]; constructor <;> linarith
    calc |b2 - 2 * (q0 * q1)| * |r| ≤ |b2 - 2 * (q0 * q1)| * 1 := mul_le_mul_of_nonneg_left hr2 (abs_nonneg _)
      _ ≤ 402 / 100 / 2 ^ 24 * X := by rw [mul_one]; exact h
  have ab2r := abs_le.1 hb2r
  have bb3v := abs_le.1 bb3
  have bD : |A - b3| ≤ 42 / 10 * X := by rw [abs_le]; constructor <;> linarith
  obtain ⟨D, vD, eD⟩ := vA.subE vb3 (bD.trans (by linarith [(by norm_num : (42 : ℚ) / 10 * 2 ^ 120 ≤ 2 ^ 127)]))
  have aD := abs_le.1 (rel_of hX1 (by norm_num) bD eD)
  have aDb := abs_le.1 bD
  have eDY : |D - (X + q1 * q1 - 2 * (q0 * q1) * r)| ≤ 15 / 2 ^ 24 * X := by rw [abs_le]; constructor <;> linarith
  have bD' : |D| ≤ 43 / 10 * X := by rw [abs_le]; constructor <;> linarith
  obtain ⟨K, vK, K1, K2⟩ := enhK1 (m := m)
  have KD : |K * D| ≤ 13 * X := by
    rw [abs_mul, abs_of_nonneg (by linarith)]
    calc K * |D| ≤ 30159295 / 10000000 * (43 / 10 * X) := mul_le_mul K2 bD' (abs_nonneg _) (by norm_num)
      _ ≤ 13 * X := by linarith
  obtain ⟨N, vN, eN⟩ := vK.mulE vD (KD.trans (by linarith [(by norm_num : (13 : ℚ) * 2 ^ 120 ≤ 2 ^ 127)]))
  have aN := rel_of hX1 (by norm_num) KD eN
  refine ⟨K, N, vN, ⟨K1, K2⟩, ?_⟩
  have e : N - K * (X + q1 * q1 - 2 * (q0 * q1) * r) = (N - K * D) + K * (D - (X + q1 * q1 - 2 * (q0 * q1) * r)) := by ring
  rw [e]
  refine (abs_add_le _ _).trans ?_
  rw [abs_mul K, abs_of_nonneg (show 0 ≤ K by linarith)]
  have : K * |D - (X + q1 * q1 - 2 * (q0 * q1) * r)| ≤ 30159295 / 10000000 * (15 / 2 ^ 24 * X) := mul_le_mul K2 eDY (abs_nonneg _) (by norm_num)
  linarith

/-- The denominator up to rounding. -/
theorem enhDen_near {rm0 rm1 : IEEE m} {q0 q1 : ℚ}
    (h0 : Val rm0 q0) (h01 : 1 / 2 ^ 21 ≤ q0) (h02 : q0 ≤ 2 ^ 42) (h1 : Val rm1 q1) (h11 : |q1| ≤ q0)
    {w0 : IEEE m} {w : ℚ} (hw : Val w0 w) (w1 : 1 / 32 ≤ w) (w2 : w ≤ 1) :
    ∃ d, Val ((w0 *ᶠ rm0) *ᶠ ((rm0 *ᶠ rm0) -ᶠ (rm1 *ᶠ rm1)) : IEEE m) d ∧
      |d - w * q0 * (q0 * q0 - q1 * q1)| ≤ 6 / 2 ^ 24 * (w * q0 * (q0 * q0)) := by
  have q0p : 0 < q0 := lt_of_lt_of_le (by norm_num) h01
  obtain ⟨X, hX⟩ : ∃ X, X = q0 * q0 := ⟨_, rfl⟩
  have hX1 : 1 / 2 ^ 60 ≤ X := by
    rw [hX]
    exact le_trans (by norm_num) (mul_le_mul h01 h01 (by norm_num) q0p.le)
  have hX2 : X ≤ 2 ^ 84 := by
    rw [hX]
    exact (mul_le_mul h02 h02 q0p.le (by norm_num)).trans (by norm_num)
  have hX0 : 0 < X := lt_of_lt_of_le (by norm_num) hX1
  have hy0 : 0 ≤ q1 * q1 := mul_self_nonneg _
  have hy : q1 * q1 ≤ X := by
    rw [← abs_mul_abs_self q1, hX]
    exact mul_le_mul h11 h11 (abs_nonneg _) q0p.le
  have hB := big_ge
  obtain ⟨r20, v20, e20⟩ := h0.mulE h0 (by rw [← hX, abs_of_pos hX0]; linarith [(by norm_num : (2 : ℚ) ^ 84 ≤ 2 ^ 127)])
  rw [← hX] at e20
  have e20' := rel_of hX1 (c := 1) (by norm_num) (by rw [abs_of_pos hX0, one_mul]) e20
  obtain ⟨r21, v21, e21⟩ := h1.mulE h1 (by
    rw [abs_of_nonneg hy0]; linarith [(by norm_num : (2 : ℚ) ^ 84 ≤ 2 ^ 127)])
  have e21' := rel_of hX1 (c := 1) (by norm_num) (by rw [abs_of_nonneg hy0]; linarith) e21
  have a20 := abs_le.1 e20'
  have a21 := abs_le.1 e21'
  rw [← hX]
  obtain ⟨Z, hZ⟩ : ∃ Z, Z = w * q0 := ⟨_, rfl⟩
  rw [← hZ]
  have Z1 : 1 / 2 ^ 26 ≤ Z := by
    rw [hZ]
    exact le_trans (by norm_num) (mul_le_mul w1 h01 (by norm_num) (by linarith))
  have Z2 : Z ≤ 2 ^ 42 := by
    rw [hZ]
    exact (mul_le_mul w2 h02 q0p.le (by norm_num)).trans (by norm_num)
  have Z0 : 0 < Z := lt_of_lt_of_le (by norm_num) Z1
  obtain ⟨d1, vd1, ed1⟩ := hw.mulE h0 (by rw [← hZ, abs_of_pos Z0]; linarith [(by norm_num : (2 : ℚ) ^ 42 ≤ 2 ^ 127)])
  rw [← hZ] at ed1
  have ed1' := rel_of (X := Z) (le_trans (by norm_num) Z1) (c := 1) (by norm_num) (by rw [abs_of_pos Z0, one_mul]) ed1
  have ad1 := abs_le.1 ed1'
  have bd2 : |r20 - r21| ≤ 101 / 100 * X := by rw [abs_le]; constructor <;> linarith
  obtain ⟨d2, vd2, ed2⟩ := v20.subE v21 (bd2.trans (by linarith [(by norm_num : (101 : ℚ) / 100 * 2 ^ 84 ≤ 2 ^ 127)]))
  have ad2 := abs_le.1 (rel_of hX1 (by norm_num) bd2 ed2)
  have abd2 := abs_le.1 bd2
  have ed2' : |d2 - (X - q1 * q1)| ≤ 31 / 10 / 2 ^ 24 * X := by rw [abs_le]; constructor <;> linarith
  have bd2' : |d2| ≤ 102 / 100 * X := by rw [abs_le]; constructor <;> linarith
  have ZX : 1 / 2 ^ 86 ≤ Z * X := le_trans (by norm_num) (mul_le_mul Z1 hX1 (by norm_num) Z0.le)
  have ZX2 : Z * X ≤ 2 ^ 126 := (mul_le_mul Z2 hX2 hX0.le (by norm_num)).trans (by norm_num)
  have p1 : |(d1 - Z) * d2| ≤ (1 / 2 ^ 24 + 1 / 2 ^ 40) * (102 / 100) * (Z * X) := by
    rw [abs_mul]
    calc |d1 - Z| * |d2| ≤ ((1 / 2 ^ 24 + 1 / 2 ^ 40) * Z) * (102 / 100 * X) := mul_le_mul ed1' bd2' (abs_nonneg _) (by positivity)
      _ = _ := by ring
  have p2 : |Z * (d2 - (X - q1 * q1))| ≤ 31 / 10 / 2 ^ 24 * (Z * X) := by
    rw [abs_mul, abs_of_pos Z0]
    calc Z * |d2 - (X - q1 * q1)| ≤ Z * (31 / 10 / 2 ^ 24 * X) := mul_le_mul_of_nonneg_left ed2' Z0.le
      _ = _ := by ring
  have p3 : |Z * (X - q1 * q1)| ≤ Z * X := by
    rw [abs_of_nonneg (mul_nonneg Z0.le (by linarith))]
    exact mul_le_mul_of_nonneg_left (by linarith) Z0.le
  have e : d1 * d2 = (d1 - Z) * d2 + Z * (d2 - (X - q1 * q1)) + Z * (X - q1 * q1) := by ring
  have a1 := abs_le.1 p1
  have a2 := abs_le.1 p2
  have a3 := abs_le.1 p3
  have bdd : |d1 * d2| ≤ 101 / 100 * (Z * X) := by
    rw [e, abs_le]
    constructor <;> linarith
  obtain ⟨d, vd, ed⟩ := vd1.mulE vd2 (bdd.trans (by
    have : (101 : ℚ) / 100 * 2 ^ 126 ≤ 2 ^ 127 := by norm_num
    linarith))
  refine ⟨d, vd, ?_⟩
  rw [p24] at ed
  have t := p150
  have t2 : pow2 (-150) ≤ 1 / 2 ^ 60 * (Z * X) := by
    rw [pow2_eq]
    refine le_trans (by norm_num) (mul_le_mul_of_nonneg_left ZX (by norm_num))
  have ed' : |d - d1 * d2| ≤ 103 / 100 / 2 ^ 24 * (Z * X) := by
    norm_num at *
    linarith
  have a4 := abs_le.1 ed'
  rw [e] at a4
  rw [abs_le]
  constructor <;> linarith

/-- The sensitivity of the radicand, with `Rm0` scaled to 1. -/
theorem enh_cond {y0 y1 r z C : ℝ} (h0 : |y0 - 1| ≤ 1 / 270000) (h1 : |y1 - z| ≤ 1 / 25000) (hr : |r - C| ≤ 35 / 1000000)
    (hC : |C| ≤ 1 - 1 / 900) (hz : |z| ≤ 1 - 1 / 900) :
    1 / 451 ≤ 1 + z ^ 2 - 2 * z * C ∧ 1 / 451 ≤ 1 - z ^ 2 ∧
    |(y0 ^ 2 + y1 ^ 2 - 2 * y0 * y1 * r) - (1 + z ^ 2 - 2 * z * C)| ≤ 41 / 1000 * (1 + z ^ 2 - 2 * z * C) ∧
    |y0 * (y0 ^ 2 - y1 ^ 2) - (1 - z ^ 2)| ≤ 396 / 10000 * (1 - z ^ 2) := by
  have cc : C ^ 2 ≤ (1 - 1 / 900) ^ 2 := sq_le_sq' (by linarith [(abs_le.1 hC).1]) (abs_le.1 hC).2
  have zz : z ^ 2 ≤ (1 - 1 / 900) ^ 2 := sq_le_sq' (by linarith [(abs_le.1 hz).1]) (abs_le.1 hz).2
  have g1 : 1 / (45026 / 100) ≤ 1 + z ^ 2 - 2 * z * C - (z - C) ^ 2 := by nlinarith
  have g2 : 1 / (45026 / 100) ≤ 1 - z ^ 2 := by nlinarith
  have s0 := sq_nonneg (z - C)
  have az := abs_le.1 hz
  have aC := abs_le.1 hC
  have a0 := abs_le.1 h0
  have a1 := abs_le.1 h1
  have ar := abs_le.1 hr
  have y1b : |y1| ≤ 9990 / 10000 := by rw [abs_le]; constructor <;> linarith
  have rb : |r| ≤ 9990 / 10000 := by rw [abs_le]; constructor <;> linarith
  have yr : |y1 * r| ≤ 1 := by
    rw [abs_mul]
    exact (mul_le_mul y1b rb (abs_nonneg _) (by norm_num)).trans (by norm_num)
  have t1 : |(y0 - 1) * (y0 + 1 - 2 * (y1 * r))| ≤ 1 / 270000 * (401 / 100) := by
    rw [abs_mul]
    have ayr := abs_le.1 yr
    refine mul_le_mul h0 ?_ (abs_nonneg _) (by norm_num)
    rw [abs_le]; constructor <;> linarith
  have t2 : |2 * (y1 * (r - C))| ≤ 2 * (9990 / 10000 * (35 / 1000000)) := by
    rw [abs_mul, abs_mul, abs_of_pos (by norm_num : (0 : ℝ) < 2)]
    exact mul_le_mul_of_nonneg_left (mul_le_mul y1b hr (abs_nonneg _) (by norm_num)) (by norm_num)
  have f2 : (y1 - z) ^ 2 ≤ (1 / 25000) ^ 2 := sq_le_sq' (by linarith) (by linarith)
  have t3 : |(y1 - z) * (y1 + z - 2 * C)| ≤ 501 * (1 / 25000) ^ 2 + (z - C) ^ 2 / 500 := by
    have e : (y1 - z) * (y1 + z - 2 * C) = (y1 - z) ^ 2 + 2 * (y1 - z) * (z - C) := by ring
    rw [e, abs_le]
    have p1 := sq_nonneg (500 * (y1 - z) - (z - C))
    have p2 := sq_nonneg (500 * (y1 - z) + (z - C))
    constructor <;> nlinarith
  have e : (y0 ^ 2 + y1 ^ 2 - 2 * y0 * y1 * r) - (1 + z ^ 2 - 2 * z * C) =
      (y0 - 1) * (y0 + 1 - 2 * (y1 * r)) - 2 * (y1 * (r - C)) + (y1 - z) * (y1 + z - 2 * C) := by ring
  have b1 := abs_le.1 t1
  have b2 := abs_le.1 t2
  have b3 := abs_le.1 t3
  refine ⟨?_, ?_, ?_, ?_⟩
  · have : (1 : ℝ) / 451 ≤ 1 / (45026 / 100) := by norm_num
    linarith
  · have : (1 : ℝ) / 451 ≤ 1 / (45026 / 100) := by norm_num
    linarith
  · rw [e, abs_le]
    norm_num at *
    constructor <;> linarith
  · have u1 : |(y0 - 1) * (y0 + 1)| ≤ 1 / 270000 * (20001 / 10000) := by
      rw [abs_mul]
      refine mul_le_mul h0 ?_ (abs_nonneg _) (by norm_num)
      rw [abs_le]; constructor <;> linarith
    have u2 : |(y1 - z) * (y1 + z)| ≤ 1 / 25000 * (19979 / 10000) := by
      rw [abs_mul]
      refine mul_le_mul h1 ?_ (abs_nonneg _) (by norm_num)
      rw [abs_le]; constructor <;> linarith
    have c1 := abs_le.1 u1
    have c2 := abs_le.1 u2
    have z0 : 0 ≤ z ^ 2 := sq_nonneg z
    have e2 : y0 ^ 2 - y1 ^ 2 = (y0 - 1) * (y0 + 1) - (y1 - z) * (y1 + z) + (1 - z ^ 2) := by ring
    have u3 : |y0 ^ 2 - y1 ^ 2| ≤ 101 / 100 := by
      rw [e2, abs_le]; constructor <;> linarith
    have u4 : |(y0 - 1) * (y0 ^ 2 - y1 ^ 2)| ≤ 1 / 270000 * (1 - z ^ 2) * (105 / 100) := by
      have : |y0 ^ 2 - y1 ^ 2| ≤ 105 / 100 * (1 - z ^ 2) := by
        rw [e2, abs_le]
        norm_num at *
        constructor <;> linarith
      rw [abs_mul]
      have := mul_le_mul h0 this (abs_nonneg _) (by norm_num)
      linarith
    have c4 := abs_le.1 u4
    have e3 : y0 * (y0 ^ 2 - y1 ^ 2) - (1 - z ^ 2) = (y0 - 1) * (y0 ^ 2 - y1 ^ 2) + ((y0 - 1) * (y0 + 1) - (y1 - z) * (y1 + z)) := by ring
    rw [e3, abs_le]
    norm_num at *
    constructor <;> linarith

end Verif.Model
