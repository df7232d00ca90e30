import Verif.Lemmas.SmoothAcc
import Mathlib.Analysis.Complex.ExponentialBounds

/-!
# Local energy and voicing limit in binary32
-/

namespace Verif.Model
open Verif Verif.Gen Verif.Spec Verif.Num Arith
variable {m : Libm}

/-- The exact step, in the form used here. -/
theorem energyNext_r (p r : ℝ) : energyNext p r = max 10000 (95 / 100 * (if p < 10000 then 75000 else p) + 5 / 100 * r) := by
  have l1 : (lit 10000 1 : ℝ) = 10000 := by rw [RealArith.lit_r _ _ (by decide)]; norm_num
  have l2 : (lit 75000 1 : ℝ) = 75000 := by rw [RealArith.lit_r _ _ (by decide)]; norm_num
  have l3 : (lit 95 100 : ℝ) = 95 / 100 := by rw [RealArith.lit_r _ _ (by decide)]; norm_num
  have l4 : (lit 5 100 : ℝ) = 5 / 100 := by rw [RealArith.lit_r _ _ (by decide)]; norm_num
  unfold energyNext
  simp only [RealArith.lt_r, l1, l2, l3, l4]
  show (if 95 / 100 * (if p < 10000 then 75000 else p) + 5 / 100 * r < 10000 then (10000 : ℝ) else
    95 / 100 * (if p < 10000 then 75000 else p) + 5 / 100 * r) = _
  generalize (95 / 100 * (if p < 10000 then 75000 else p) + 5 / 100 * r : ℝ) = x
  split
  · rename_i h
    rw [max_eq_left h.le]
  · rename_i h
    rw [max_eq_right (not_lt.1 h)]

theorem energyNext_near {e r : IEEE m} {p q : ℚ} (he : Val e p) (p1 : p ≤ 2 ^ 100) (hr : Val r q) (q0 : 0 ≤ q) (q1 : q ≤ 2 ^ 100) :
    ∃ v : ℚ, Val (energyNext e r : IEEE m) v ∧ 10000 ≤ v ∧ |(v : ℝ) - energyNext (p : ℝ) q| ≤ 3 / 10 ^ 7 * energyNext (p : ℝ) q := by
  have c10 : Val (lit 10000 1 : IEEE m) 10000 := val_of_rng (show rngB (lit 10000 1 : IEEE libm0) 10000 10000 = true by decide +kernel)
  have c75 : Val (lit 75000 1 : IEEE m) 75000 := val_of_rng (show rngB (lit 75000 1 : IEEE libm0) 75000 75000 = true by decide +kernel)
  have c95 : Prec (lit 95 100 : IEEE m) (95 / 100) (3 / 10 ^ 8) := prec_of_rng
    (show rngB (lit 95 100 : IEEE libm0) (95 / 100 - 2 / 10 ^ 8) (95 / 100 + 2 / 10 ^ 8) = true by decide +kernel) (by norm_num) (by norm_num)
  obtain ⟨c, c5, cl, cu⟩ := rng_of (show rngB (lit 5 100 : IEEE libm0) (5 / 100 - 1 / 10 ^ 9) (5 / 100 + 1 / 10 ^ 9) = true by decide +kernel)
  have c5 : Val (lit 5 100 : IEEE m) c := c5
  obtain ⟨f, hf, fe, f1, f2⟩ : ∃ f : ℚ, Val (if lt e (lit 10000 1) = true then lit 75000 1 else e : IEEE m) f ∧
      (f : ℝ) = (if (p : ℝ) < 10000 then 75000 else (p : ℝ)) ∧ 10000 ≤ f ∧ f ≤ 2 ^ 100 := by
    rw [he.lt c10]
    by_cases h : p < 10000
    · have h' : (p : ℝ) < 10000 := by exact_mod_cast h
      rw [if_pos (decide_eq_true h), if_pos h']
      exact ⟨75000, c75, by norm_num, by norm_num, by norm_num⟩
    · have h' : ¬ (p : ℝ) < 10000 := fun k => h (by exact_mod_cast k)
      rw [if_neg (by simpa using h), if_neg h']
      exact ⟨p, he, rfl, not_lt.1 h, p1⟩
  have f1' : (10000 : ℝ) ≤ f := by exact_mod_cast f1
  have f2' : (f : ℝ) ≤ 2 ^ 100 := by
    have : (f : ℝ) ≤ ((2 ^ 100 : ℚ) : ℝ) := by exact_mod_cast f2
    push_cast at this
    exact this
  have q0' : (0 : ℝ) ≤ q := by exact_mod_cast q0
  have q1' : (q : ℝ) ≤ 2 ^ 100 := by
    have : (q : ℝ) ≤ ((2 ^ 100 : ℚ) : ℝ) := by exact_mod_cast q1
    push_cast at this
    exact this
  rw [energyNext_r, ← fe]
  unfold energyNext
  dsimp only
  obtain ⟨x, hx, x1⟩ := c95.mul (⟨f, hf, by simp⟩ : Prec _ (f : ℝ) 0) (by norm_num) (by linarith)
    (le_trans (by norm_num) (mul_le_mul_of_nonneg_left f1' (by norm_num))) ((mul_le_mul_of_nonneg_left f2' (by norm_num)).trans (by norm_num))
    (by norm_num) le_rfl (by norm_num) (by norm_num)
  have x2 := abs_le.1 x1
  have cq : 0 ≤ c * q := mul_nonneg (le_trans (by norm_num) cl) q0
  have cqu : c * q ≤ (5 / 100 + 1 / 10 ^ 9) * q := mul_le_mul_of_nonneg_right cu q0
  have cql : (5 / 100 - 1 / 10 ^ 9) * q ≤ c * q := mul_le_mul_of_nonneg_right cl q0
  obtain ⟨y, hy, y1⟩ := c5.mulE hr (by
    rw [abs_of_nonneg cq]
    refine le_trans ?_ big_ge
    norm_num at cqu q1 ⊢
    linarith)
  rw [abs_of_nonneg cq, p24, show pow2 (-150) = 1 / 2 ^ 150 from by rw [pow2_eq]; norm_num] at y1
  have y2 : |y - 5 / 100 * q| ≤ 1 / 10 ^ 8 * q + 1 / 2 ^ 150 := by
    have k := abs_le.1 y1
    rw [abs_le]
    norm_num at k cqu cql ⊢
    constructor <;> linarith
  have y3 : ((|y - 5 / 100 * q| : ℚ) : ℝ) ≤ ((1 / 10 ^ 8 * q + 1 / 2 ^ 150 : ℚ) : ℝ) := by exact_mod_cast y2
  push_cast at y3
  have y4 := abs_le.1 y3
  obtain ⟨Z, hZ⟩ : ∃ Z : ℝ, Z = 95 / 100 * f + 5 / 100 * q := ⟨_, rfl⟩
  have Z1 : 9500 ≤ Z := by rw [hZ]; linarith
  have Z2 : Z ≤ 2 ^ 100 := by rw [hZ]; linarith
  have k : |((x + y : ℚ) : ℝ) - Z| ≤ 2 / 10 ^ 7 * Z := by
    push_cast
    rw [abs_le]
    norm_num at x2 y4 ⊢
    constructor <;> linarith
  obtain ⟨z1, z2⟩ := prec_rnd (le_trans (by norm_num) Z1) (Z2.trans (by norm_num)) (by norm_num) k
  have hv := hx.add hy z1
  rw [hv.lt c10, ← hZ]
  have z3 : |((rnd F32 (x + y) : ℚ) : ℝ) - Z| ≤ 3 / 10 ^ 7 * max 10000 Z :=
    z2.trans ((mul_le_mul_of_nonneg_right (by norm_num) (by linarith)).trans (mul_le_mul_of_nonneg_left (le_max_right _ _) (by norm_num)))
  have z4 := abs_le.1 z3
  by_cases h : rnd F32 (x + y) < 10000
  · rw [if_pos (decide_eq_true h)]
    have h' : ((rnd F32 (x + y) : ℚ) : ℝ) < 10000 := by exact_mod_cast h
    refine ⟨10000, c10, le_rfl, ?_⟩
    push_cast
    rw [abs_le]
    rcases max_cases (10000 : ℝ) Z with ⟨e, _⟩ | ⟨e, _⟩ <;> rw [e] at z4 ⊢ <;> constructor <;> linarith
  · rw [if_neg (by simpa using h)]
    have h' : (10000 : ℝ) ≤ ((rnd F32 (x + y) : ℚ) : ℝ) := by exact_mod_cast not_lt.1 h
    refine ⟨_, hv, not_lt.1 h, ?_⟩
    rw [abs_le]
    rcases max_cases (10000 : ℝ) Z with ⟨e, _⟩ | ⟨e, _⟩ <;> rw [e] at z4 ⊢ <;> constructor <;> linarith

/-- The third power of the eighth root. -/
theorem energyRoot_near {e : IEEE m} {v : ℚ} (he : Val e v) (v1 : 10000 ≤ v) (v2 : v ≤ 2 ^ 101) :
    Prec ((Arith.sqrt (Arith.sqrt (Arith.sqrt e)) *ᶠ Arith.sqrt (Arith.sqrt (Arith.sqrt e))) *ᶠ Arith.sqrt (Arith.sqrt (Arith.sqrt e)) : IEEE m)
      ((v : ℝ) ^ (3 / 8 : ℝ)) (8 / 10 ^ 7) ∧ 1 ≤ (v : ℝ) ^ (3 / 8 : ℝ) ∧ (v : ℝ) ^ (3 / 8 : ℝ) ≤ 2 ^ 38 := by
  have v1' : (10000 : ℝ) ≤ v := by exact_mod_cast v1
  have v0 : (0 : ℝ) ≤ v := by linarith
  have v2' : (v : ℝ) ≤ 2 ^ 101 := by
    have : (v : ℝ) ≤ ((2 ^ 101 : ℚ) : ℝ) := by exact_mod_cast v2
    push_cast at this
    exact this
  have s1 : 1 ≤ Real.sqrt v := Real.one_le_sqrt.2 (by linarith)
  have s2 : 1 ≤ Real.sqrt (Real.sqrt v) := Real.one_le_sqrt.2 s1
  have s3 : 1 ≤ Real.sqrt (Real.sqrt (Real.sqrt v)) := Real.one_le_sqrt.2 s2
  have p0 : Prec e (v : ℝ) 0 := ⟨v, he, by simp⟩
  have p1 := p0.sqrt (le_trans (by norm_num) v1') le_rfl (by norm_num)
  have p2 := p1.sqrt (le_trans (by norm_num) s1) (by norm_num) (by norm_num)
  have p3 := (p2.sqrt (le_trans (by norm_num) s2) (by norm_num) (by norm_num)).mono (by linarith) (show _ ≤ 2 / 10 ^ 7 by norm_num)
  have ev : (v : ℝ) ^ (3 / 8 : ℝ) = Real.sqrt (Real.sqrt (Real.sqrt v)) * Real.sqrt (Real.sqrt (Real.sqrt v)) * Real.sqrt (Real.sqrt (Real.sqrt v)) := by
    have e8 : Real.sqrt (Real.sqrt (Real.sqrt v)) = (v : ℝ) ^ (1 / 8 : ℝ) := by
      rw [Real.sqrt_eq_rpow, Real.sqrt_eq_rpow, Real.sqrt_eq_rpow, ← Real.rpow_mul v0, ← Real.rpow_mul v0]
      norm_num
    have vp : (0 : ℝ) < v := by linarith
    rw [e8, ← Real.rpow_add vp, ← Real.rpow_add vp]
    norm_num
  have up : (v : ℝ) ^ (3 / 8 : ℝ) ≤ 2 ^ 38 := by
    calc (v : ℝ) ^ (3 / 8 : ℝ) ≤ ((2 : ℝ) ^ (101 : ℕ)) ^ (3 / 8 : ℝ) := Real.rpow_le_rpow v0 v2' (by norm_num)
      _ = 2 ^ ((101 : ℝ) * (3 / 8)) := by
        rw [← Real.rpow_natCast, ← Real.rpow_mul (by norm_num)]
        norm_num
      _ ≤ 2 ^ (38 : ℝ) := Real.rpow_le_rpow_of_exponent_le (by norm_num) (by norm_num)
      _ = 2 ^ 38 := by
        rw [← Real.rpow_natCast]
        norm_num
  rw [ev] at up ⊢
  generalize Real.sqrt (Real.sqrt (Real.sqrt v)) = s at *
  have ss : 1 ≤ s * s := by nlinarith
  have sss : 1 ≤ s * s * s := by nlinarith
  have ssu : s * s ≤ 2 ^ 38 := by nlinarith
  have m1 := p3.mul p3 (by linarith) (by linarith) (le_trans (by norm_num) ss) (ssu.trans (by norm_num)) (by norm_num) (by norm_num) (by norm_num) (by norm_num)
  have m2 := m1.mul p3 (by linarith) (by linarith) (le_trans (by norm_num) sss) (up.trans (by norm_num)) (by norm_num) (by norm_num) (by norm_num) (by norm_num)
  exact ⟨m2.mono (by linarith) (by norm_num), sss, up⟩

/-- A rate close to `q` at which the exact comparisons turn out as those of binary32 do at `q`. -/
theorem rate_shift {q k1 k2 : ℚ} (h1 : |k1 - 5 / 1000| ≤ 5 / 10 ^ 10) (h2 : |k2 - 125 / 10000| ≤ 5 / 10 ^ 10) : ∃ ρ : ℚ, |ρ - q| ≤ 1 / 10 ^ 9 ∧
    (ρ ≤ 5 / 1000 ↔ q ≤ k1) ∧ (ρ ≤ 125 / 10000 ↔ q ≤ k2) := by
  rw [abs_le] at h1 h2
  norm_num at h1 h2
  by_cases c1 : q ≤ k1
  · by_cases d : q ≤ 5 / 1000
    · refine ⟨q, by norm_num, ⟨fun _ => c1, fun _ => d⟩, ⟨fun _ => by linarith, fun _ => by linarith⟩⟩
    · refine ⟨5 / 1000, ?_, ⟨fun _ => c1, fun _ => le_rfl⟩, ⟨fun _ => by linarith, fun _ => by norm_num⟩⟩
      rw [abs_le]
      norm_num at d ⊢
      constructor <;> linarith
  · by_cases c2 : q ≤ k2
    · by_cases d : q ≤ 5 / 1000
      · refine ⟨5 / 1000 + 4 / 10 ^ 10, ?_, ⟨fun h => by norm_num at h, fun h => absurd h c1⟩, ⟨fun _ => c2, fun _ => by norm_num⟩⟩
        rw [abs_le]
        norm_num at d ⊢
        constructor <;> linarith
      · by_cases f : q ≤ 125 / 10000
        · exact ⟨q, by norm_num, ⟨fun h => absurd h d, fun h => absurd h c1⟩, ⟨fun _ => c2, fun _ => f⟩⟩
        · refine ⟨125 / 10000, ?_, ⟨fun h => by norm_num at h, fun h => absurd h c1⟩, ⟨fun _ => c2, fun _ => le_rfl⟩⟩
          rw [abs_le]
          norm_num at f ⊢
          constructor <;> linarith
    · by_cases f : q ≤ 125 / 10000
      · refine ⟨125 / 10000 + 4 / 10 ^ 10, ?_, ⟨fun h => by norm_num at h, fun h => absurd h c1⟩, ⟨fun h => by norm_num at h, fun h => absurd h c2⟩⟩
        rw [abs_le]
        norm_num at f ⊢
        constructor <;> linarith
      · exact ⟨q, by norm_num, ⟨fun h => absurd (h.trans (by norm_num)) f, fun h => absurd h c1⟩, ⟨fun h => absurd h f, fun h => absurd h c2⟩⟩

theorem exp_near {x y : ℝ} (h : |x - y| ≤ 2 / 10 ^ 6) : |Real.exp x - Real.exp y| ≤ 3 / 10 ^ 6 * Real.exp y := by
  have e : Real.exp x = Real.exp (x - y) * Real.exp y := by rw [← Real.exp_add]; congr 1; ring
  have k := Real.abs_exp_sub_one_sub_id_le (x := x - y) (h.trans (by norm_num))
  have s : (x - y) ^ 2 ≤ 1 / 10 ^ 6 := by
    rw [← sq_abs]
    exact (pow_le_pow_left₀ (abs_nonneg _) h 2).trans (by norm_num)
  have k2 := abs_le.1 (k.trans s)
  have h2 := abs_le.1 h
  have : |Real.exp (x - y) - 1| ≤ 3 / 10 ^ 6 := by
    rw [abs_le]
    norm_num at k2 h2 ⊢
    constructor <;> linarith
  rw [e, show Real.exp (x - y) * Real.exp y - Real.exp y = (Real.exp (x - y) - 1) * Real.exp y from by ring, abs_mul, abs_of_pos (Real.exp_pos y)]
  exact mul_le_mul_of_nonneg_right this (Real.exp_pos y).le

/-- The voicing limit. -/
theorem smoothVM_near (hexp : ExpAcc m) {rate e : IEEE m} {q v : ℚ} (hq : Val rate q) (q0 : 0 ≤ q) (he : Val e v) (v1 : 10000 ≤ v) (v2 : v ≤ 2 ^ 101) (errs c4 : Int) :
    ∃ ρ : ℚ, |ρ - q| ≤ 1 / 10 ^ 9 ∧ Prec (smoothVM rate e errs c4 : IEEE m) (voicingLimit ρ v errs c4) (1 / 100000) ∧ 0 < voicingLimit ρ v errs c4 := by
  obtain ⟨k1, hk1, a1, a2⟩ := rng_of (show rngB (lit 5 1000 : IEEE libm0) (5 / 1000 - 5 / 10 ^ 10) (5 / 1000 + 5 / 10 ^ 10) = true by decide +kernel)
  have hk1 : Val (lit 5 1000 : IEEE m) k1 := hk1
  obtain ⟨k2, hk2, b1, b2⟩ := rng_of (show rngB (lit 125 10000 : IEEE libm0) (125 / 10000 - 5 / 10 ^ 10) (125 / 10000 + 5 / 10 ^ 10) = true by decide +kernel)
  have hk2 : Val (lit 125 10000 : IEEE m) k2 := hk2
  obtain ⟨ρ, r0, r1, r2⟩ := rate_shift (q := q) (k1 := k1) (k2 := k2) (by rw [abs_le]; constructor <;> linarith) (by rw [abs_le]; constructor <;> linarith)
  refine ⟨ρ, r0, ?_⟩
  have w1 : ((ρ : ℝ) ≤ 5 / 1000) ↔ q ≤ k1 := by
    rw [← r1, show (5 / 1000 : ℝ) = ((5 / 1000 : ℚ) : ℝ) from by norm_num]
    exact Rat.cast_le
  have w2 : ((ρ : ℝ) ≤ 125 / 10000) ↔ q ≤ k2 := by
    rw [← r2, show (125 / 10000 : ℝ) = ((125 / 10000 : ℚ) : ℝ) from by norm_num]
    exact Rat.cast_le
  obtain ⟨en, en1, en2⟩ := energyRoot_near he v1 v2
  unfold smoothVM voicingLimit
  rw [hq.le hk1]
  by_cases c1 : q ≤ k1 ∧ errs ≤ 4
  · rw [if_pos ⟨decide_eq_true c1.1, c1.2⟩, if_pos ⟨w1.2 c1.1, c1.2⟩]
    have e0 : rngB (fltMax : IEEE libm0) 340282346638528859811704183484516925440 340282346638528859811704183484516925440 = true := by decide +kernel
    exact ⟨⟨_, val_of_rng e0, by norm_num⟩, by norm_num⟩
  · rw [if_neg (fun h => c1 ⟨of_decide_eq_true h.1, h.2⟩), if_neg (show ¬((ρ : ℝ) ≤ 5 / 1000 ∧ errs ≤ 4) from fun h => c1 ⟨w1.1 h.1, h.2⟩)]
    generalize ((v : ℝ) ^ (3 / 8 : ℝ)) = V at *
    rw [hq.le hk2]
    by_cases c2 : q ≤ k2 ∧ c4 = 0
    · rw [if_pos ⟨decide_eq_true c2.1, c2.2⟩, if_pos ⟨w2.2 c2.1, c2.2⟩]
      have g : Prec (lit 45255 1000 : IEEE m) 45.255 (1 / 10 ^ 7) := prec_of_rng
        (show rngB (lit 45255 1000 : IEEE libm0) (45255 / 1000 - 2 / 10 ^ 6) (45255 / 1000 + 2 / 10 ^ 6) = true by decide +kernel) (by norm_num) (by norm_num)
      obtain ⟨c, hc, cl, cu⟩ := rng_of (show rngB (lit 27726 100 : IEEE libm0) (27726 / 100 - 2 / 10 ^ 5) (27726 / 100 + 2 / 10 ^ 5) = true by decide +kernel)
      have hc : Val (lit 27726 100 : IEEE m) c := hc
      have n := g.mul en (by norm_num) (by linarith) (by norm_num; linarith) (by norm_num at en2 ⊢; linarith) (by norm_num) (by norm_num) (by norm_num) (by norm_num)
      have q13 : q ≤ 13 / 1000 := by
        norm_num at b2
        linarith [c2.1]
      have cq0 : 0 ≤ c * q := mul_nonneg (le_trans (by norm_num) cl) q0
      have cq1 : c * q ≤ (27726 / 100 + 2 / 10 ^ 5) * q := mul_le_mul_of_nonneg_right cu q0
      have cq2 : (27726 / 100 - 2 / 10 ^ 5) * q ≤ c * q := mul_le_mul_of_nonneg_right cl q0
      obtain ⟨z, hz, z1⟩ := hc.mulE hq (by
        rw [abs_of_nonneg cq0]
        refine le_trans ?_ big_ge
        norm_num at cq1 ⊢
        linarith)
      have zn : 0 ≤ z := by
        have := (hc.mul hq (by
          rw [abs_of_nonneg cq0]
          refine le_trans ?_ big_ge
          norm_num at cq1 ⊢
          linarith)).unique hz
        rw [← this]
        exact rnd_nonneg cq0
      rw [abs_of_nonneg cq0, p24, show pow2 (-150) = 1 / 2 ^ 150 from by rw [pow2_eq]; norm_num] at z1
      have z2 := abs_le.1 z1
      have r0' := abs_le.1 r0
      have zu : z ≤ 4 := by
        norm_num at z2 cq1
        linarith
      obtain ⟨E, hE, E1⟩ := hexp _ z hz zn zu
      have dz : |z - 277.26 * ρ| ≤ 2 / 10 ^ 6 := by
        rw [abs_le]
        norm_num at z2 cq1 cq2 r0' ⊢
        constructor <;> linarith
      have dz' : |(z : ℝ) - 277.26 * ρ| ≤ 2 / 10 ^ 6 := by
        have : ((|z - 277.26 * ρ| : ℚ) : ℝ) ≤ ((2 / 10 ^ 6 : ℚ) : ℝ) := by exact_mod_cast dz
        push_cast at this
        norm_num at this ⊢
        exact this
      have en' := exp_near dz'
      have P : Prec (Arith.exp (lit 27726 100 *ᶠ rate) : IEEE m) (Real.exp (277.26 * ρ)) (5 / 10 ^ 6) := by
        refine ⟨E, hE, ?_⟩
        have i1 := abs_le.1 E1
        have i2 := abs_le.1 en'
        rw [abs_le]
        norm_num at i1 i2 ⊢
        constructor <;> linarith
      have x0 := Real.exp_pos (277.26 * (ρ : ℝ))
      have ρb : -(1 / 10 : ℝ) ≤ 277.26 * ρ ∧ 277.26 * (ρ : ℝ) ≤ 4 := by
        have zn' : (0 : ℝ) ≤ z := by exact_mod_cast zn
        have zu' : (z : ℝ) ≤ 38 / 10 := by
          have : z ≤ 38 / 10 := by
            norm_num at z2 cq1 ⊢
            linarith
          have : (z : ℝ) ≤ ((38 / 10 : ℚ) : ℝ) := by exact_mod_cast this
          push_cast at this
          exact this
        have k := abs_le.1 dz'
        norm_num at k ⊢
        constructor <;> linarith
      have xl : 1 / 2 ≤ Real.exp (277.26 * (ρ : ℝ)) := by
        have := Real.add_one_le_exp (277.26 * (ρ : ℝ))
        linarith [ρb.1]
      have xu : Real.exp (277.26 * (ρ : ℝ)) ≤ 81 := by
        refine (Real.exp_le_exp.2 ρb.2).trans ?_
        have e1 : Real.exp 4 = Real.exp 1 ^ 4 := by rw [← Real.exp_nat_mul]; norm_num
        rw [e1]
        have := Real.exp_one_lt_d9
        exact (pow_le_pow_left₀ (Real.exp_pos 1).le (show Real.exp 1 ≤ 3 by linarith) 4).trans (by norm_num)
      generalize Real.exp (277.26 * (ρ : ℝ)) = X at *
      have D := n.div P (by linarith) x0 (by
        rw [le_div_iff₀ x0]
        norm_num
        linarith) (by
        rw [div_le_iff₀ x0]
        norm_num at en2 ⊢
        linarith) (by norm_num) (by norm_num) (by norm_num) (by norm_num)
      have pos : 0 < 45.255 * V / X := div_pos (by linarith) x0
      exact ⟨D.mono pos.le (by norm_num), pos⟩
    · rw [if_neg (fun h => c2 ⟨of_decide_eq_true h.1, h.2⟩), if_neg (show ¬((ρ : ℝ) ≤ 125 / 10000 ∧ c4 = 0) from fun h => c2 ⟨w2.1 h.1, h.2⟩)]
      have g : Prec (lit 1414 1000 : IEEE m) 1.414 (1 / 10 ^ 7) := prec_of_rng
        (show rngB (lit 1414 1000 : IEEE libm0) (1414 / 1000 - 1 / 10 ^ 7) (1414 / 1000 + 1 / 10 ^ 7) = true by decide +kernel) (by norm_num) (by norm_num)
      have n := g.mul en (by norm_num) (by linarith) (by norm_num; linarith) (by norm_num at en2 ⊢; linarith) (by norm_num) (by norm_num) (by norm_num) (by norm_num)
      exact ⟨n.mono (by linarith) (by norm_num), by linarith⟩

end Verif.Model
