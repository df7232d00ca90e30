import Verif.Lemmas.FinPitch
import Verif.Lemmas.SpectrumAmbe
import Verif.Lemmas.AmbeSim
import Mathlib.Analysis.Convex.SpecificFunctions.Basic

/-!
# The AMBE fundamental and the factor of the unvoiced bands in binary32
-/

namespace Verif.Model
open Verif Verif.Gen Verif.Spec Verif.Num Arith
variable {m : Libm}

/-- The square root is accurate to half a unit in the last place. -/
theorem sqrtQ_err {q : ℚ} (hq : 0 < q) (hn : pow2 (-252) ≤ q) :
    |(FP.sqrtQ F32 q : ℝ) - Real.sqrt q| ≤ Real.sqrt q / 2 ^ 24 := by
  unfold FP.sqrtQ
  simp only []
  have h1 := ilog2_spec hq
  have hlo : -252 ≤ ilog2 q := le_ilog2 hn
  generalize hh : ilog2 q / 2 = h at *
  have e1 : 2 * h ≤ ilog2 q := by omega
  have ee : max (h - ((F32.p : Int) - 1)) F32.emin = h - 23 := by
    show max (h - ((24 : Int) - 1)) (-149) = h - 23
    exact max_eq_left (by omega)
  rw [ee]
  generalize hs : q * pow2 (-(2 * (h - 23))) = s
  have s1 : (2 : ℚ) ^ 46 ≤ s := by
    rw [← hs]
    have : pow2 (2 * h) * pow2 (-(2 * (h - 23))) ≤ q * pow2 (-(2 * (h - 23))) :=
      mul_le_mul_of_nonneg_right ((pow2_le e1).trans h1.1) (pow2_pos _).le
    rw [← pow2_add, show 2 * h + -(2 * (h - 23)) = 46 by ring] at this
    refine le_trans (le_of_eq ?_) this
    rw [pow2_eq]; norm_num
  have s0 : (0 : ℚ) ≤ s := le_trans (by norm_num) s1
  have qs : q = s * (pow2 (h - 23) * pow2 (h - 23)) := by
    rw [← hs, mul_assoc, ← pow2_add, ← pow2_add, show -(2 * (h - 23)) + (h - 23 + (h - 23)) = 0 by ring, pow2_zero', mul_one]
  have P0 : (0 : ℝ) < ((pow2 (h - 23) : ℚ) : ℝ) := by exact_mod_cast pow2_pos _
  generalize pow2 (h - 23) = P at qs P0
  have hsq : Real.sqrt q = Real.sqrt s * P := by
    rw [qs]
    push_cast
    rw [Real.sqrt_mul (by exact_mod_cast s0), Real.sqrt_mul_self P0.le]
  rw [hsq]
  generalize hN : Nat.sqrt (Rat.floor s).toNat = n
  have hf : Rat.floor s = ⌊s⌋ := rfl
  rw [hf] at hN
  have f0 : 0 ≤ ⌊s⌋ := Int.floor_nonneg.2 s0
  have n1 : (n : ℝ) ≤ Real.sqrt s := by
    apply Real.le_sqrt_of_sq_le
    have : n * n ≤ ⌊s⌋.toNat := by rw [← hN]; exact Nat.sqrt_le _
    have h2 : ((n * n : Nat) : Int) ≤ ⌊s⌋ := by omega
    have h3 : ((n * n : Nat) : ℚ) ≤ s := le_trans (by exact_mod_cast h2) (Int.floor_le s)
    have h4 : (((n * n : Nat) : ℚ) : ℝ) ≤ s := by exact_mod_cast h3
    push_cast at h4
    rw [sq]
    exact h4
  have n2 : Real.sqrt s ≤ n + 1 := by
    rw [Real.sqrt_le_left (by positivity)]
    have : ⌊s⌋.toNat < (n + 1) * (n + 1) := by rw [← hN]; exact Nat.lt_succ_sqrt _
    have h2 : ⌊s⌋ + 1 ≤ (((n + 1) * (n + 1) : Nat) : Int) := by omega
    have h3 : s ≤ (((n + 1) * (n + 1) : Nat) : ℚ) := by
      refine (Int.lt_floor_add_one s).le.trans ?_
      exact_mod_cast h2
    have h4 : (s : ℝ) ≤ ((((n + 1) * (n + 1) : Nat) : ℚ) : ℝ) := by exact_mod_cast h3
    push_cast at h4
    rw [sq]
    exact h4
  have big : (2 : ℝ) ^ 23 ≤ Real.sqrt s := by
    apply Real.le_sqrt_of_sq_le
    have : (((2 : ℚ) ^ 46 : ℚ) : ℝ) ≤ s := by exact_mod_cast s1
    push_cast at this
    refine le_trans (le_of_eq ?_) this
    norm_num
  have key : ∀ v : ℚ, |(v : ℝ) - Real.sqrt s| ≤ 1 / 2 → |((v * P : ℚ) : ℝ) - Real.sqrt s * P| ≤ Real.sqrt s * P / 2 ^ 24 := by
    intro v hv
    push_cast
    rw [← sub_mul, abs_mul, abs_of_pos P0, mul_comm (Real.sqrt s) (P : ℝ), mul_div_assoc, mul_comm _ (P : ℝ)]
    refine mul_le_mul_of_nonneg_left ?_ P0.le
    rw [le_div_iff₀ (by norm_num)]
    have : |(v : ℝ) - Real.sqrt s| * 2 ^ 24 ≤ 1 / 2 * 2 ^ 24 := mul_le_mul_of_nonneg_right hv (by norm_num)
    linarith [show (1 / 2 * 2 ^ 24 : ℝ) = 2 ^ 23 by norm_num]
  have mid : ((((n : ℚ) + 1 / 2) * ((n : ℚ) + 1 / 2) : ℚ) : ℝ) = ((n : ℝ) + 1 / 2) ^ 2 := by push_cast; ring
  have up : ((n : ℚ) + 1 / 2) * ((n : ℚ) + 1 / 2) ≤ s → (n : ℝ) + 1 / 2 ≤ Real.sqrt s := by
    intro c
    apply Real.le_sqrt_of_sq_le
    rw [← mid]
    exact_mod_cast c
  have dn : s ≤ ((n : ℚ) + 1 / 2) * ((n : ℚ) + 1 / 2) → Real.sqrt s ≤ (n : ℝ) + 1 / 2 := by
    intro c
    rw [Real.sqrt_le_left (by positivity), ← mid]
    exact_mod_cast c
  split
  · rename_i c
    refine key _ ?_
    have := up c.le
    push_cast
    rw [abs_le]
    constructor <;> linarith
  · rename_i c
    split
    · rename_i c'
      refine key _ ?_
      have := dn c'.le
      push_cast
      rw [abs_le]
      constructor <;> linarith
    · rename_i c'
      have a := up (not_lt.mp c')
      have b := dn (not_lt.mp c)
      split
      · refine key _ ?_
        push_cast
        rw [abs_le]
        constructor <;> linarith
      · refine key _ ?_
        push_cast
        rw [abs_le]
        constructor <;> linarith

theorem Val.sqrtE {x : IEEE m} {q : ℚ} (h : Val x q) (h1 : 1 / 1024 ≤ q) :
    ∃ r : ℚ, Val (Arith.sqrt x : IEEE m) r ∧ |(r : ℝ) - Real.sqrt q| ≤ Real.sqrt q / 2 ^ 24 := by
  have h0 : 0 < q := lt_of_lt_of_le (by norm_num) h1
  obtain ⟨s, rfl⟩ := h
  show ∃ r : ℚ, Val (FP.sqrtR F32 (FP.fin s q)) r ∧ _
  unfold FP.sqrtR
  simp only [if_neg h0.ne', if_neg (not_lt.2 h0.le)]
  refine ⟨_, ⟨false, rfl⟩, sqrtQ_err h0 (le_trans ?_ h1)⟩
  rw [pow2_eq]
  norm_num

theorem c2046_0 : rngB (toF (dlit 2046 10000) : IEEE libm0) (20459999 / 100000000) (20460001 / 100000000) = true := by decide +kernel

/-- A fundamental that is close to the exact one. -/
def FundNear (x : IEEE m) (w : ℝ) : Prop := ∃ q : ℚ, Val x q ∧ 3 / 64 ≤ q ∧ q ≤ 1 ∧ |(q : ℝ) - w| ≤ 1 / 25000

/-- The factor is accurate to 0.1 percent. -/
theorem ambeUnvc_near {x : IEEE m} {w : ℝ} (h : FundNear x w) :
    ∃ u : ℚ, Val (ambeUnvc x : IEEE m) u ∧ 1 / 8 ≤ u ∧ u ≤ 1 ∧ |(u : ℝ) - 0.2046 / Real.sqrt w| ≤ 1 / 1000 * (0.2046 / Real.sqrt w) := by
  obtain ⟨q, vq, q1, q2, qw⟩ := h
  obtain ⟨c, vc, c1, c2⟩ := rng_of (x := (toF (dlit 2046 10000) : IEEE m)) c2046_0
  obtain ⟨s, vs, es⟩ := Val.sqrtE vq (by linarith)
  have r1 : (3 / 64 : ℝ) ≤ q := by
    have : ((3 / 64 : ℚ) : ℝ) ≤ q := by exact_mod_cast q1
    push_cast at this
    exact this
  have r2 : (q : ℝ) ≤ 1 := by exact_mod_cast q2
  have k1 : (c : ℝ) ≤ 20460001 / 100000000 := by
    have : (c : ℝ) ≤ ((20460001 / 100000000 : ℚ) : ℝ) := by exact_mod_cast c2
    push_cast at this
    exact this
  have k0 : (20459999 / 100000000 : ℝ) ≤ c := by
    have : ((20459999 / 100000000 : ℚ) : ℝ) ≤ (c : ℝ) := by exact_mod_cast c1
    push_cast at this
    exact this
  rw [abs_le] at qw
  -- the square roots
  have t0 : (0.2165 : ℝ) ≤ Real.sqrt q := Real.le_sqrt_of_sq_le (by norm_num; linarith)
  have t1 : Real.sqrt q ≤ 1 := by rw [Real.sqrt_le_left (by norm_num)]; linarith
  have w0 : (0.0468 : ℝ) ≤ w := by norm_num; linarith [qw.2]
  have v0 : (0.2163 : ℝ) ≤ Real.sqrt w := Real.le_sqrt_of_sq_le (by norm_num; norm_num at w0; linarith)
  have sw : |Real.sqrt q - Real.sqrt w| ≤ 1 / 2000 * Real.sqrt w := by
    have hm : (Real.sqrt q - Real.sqrt w) * (Real.sqrt q + Real.sqrt w) = q - w := by
      have a := Real.mul_self_sqrt (show (0 : ℝ) ≤ q by linarith)
      have b := Real.mul_self_sqrt (show (0 : ℝ) ≤ w by linarith)
      linear_combination a - b
    have hs : |Real.sqrt q - Real.sqrt w| * (Real.sqrt q + Real.sqrt w) ≤ 1 / 25000 := by
      rw [← abs_of_pos (show 0 < Real.sqrt q + Real.sqrt w by linarith), ← abs_mul, hm, abs_le]
      exact qw
    have : |Real.sqrt q - Real.sqrt w| ≤ 1 / 10000 := by
      by_contra c
      rw [not_le] at c
      nlinarith
    linarith
  generalize Real.sqrt q = t at es t0 t1 sw
  generalize Real.sqrt w = v at v0 sw
  rw [abs_le] at es sw
  have vle : v ≤ 1.001 := by norm_num; linarith [sw.1]
  have s0 : (0.216 : ℝ) ≤ s := by norm_num; norm_num at es t0; linarith [es.1]
  have sv : |(s : ℝ) - v| ≤ 6 / 10000 * v := by
    rw [abs_le]
    norm_num at es
    constructor <;> linarith [es.1, es.2, sw.1, sw.2]
  have s0' : (0 : ℚ) < s := by
    have : (0 : ℝ) < s := by linarith
    exact_mod_cast this
  -- the quotient
  have e : (c / s : ℚ) = c / s := rfl
  have cs0 : (0 : ℚ) < c / s := div_pos (by linarith) s0'
  have cs1 : ((c / s : ℚ) : ℝ) ≤ 0.96 := by
    push_cast
    rw [div_le_iff₀ (by linarith)]
    have : (0.96 * 0.216 : ℝ) ≤ 0.96 * s := mul_le_mul_of_nonneg_left s0 (by norm_num)
    norm_num at this ⊢
    linarith
  have cs2 : (c / s : ℚ) ≤ 0.96 := by
    have : ((c / s : ℚ) : ℝ) ≤ ((0.96 : ℚ) : ℝ) := by push_cast; push_cast at cs1; exact cs1
    exact_mod_cast this
  have vu := vc.div vs s0'.ne' (by rw [abs_of_pos cs0]; exact le_trans cs2 (le_trans (by norm_num) big_ge))
  have eu := rnd32_err (c / s)
  rw [abs_of_pos cs0] at eu
  generalize rnd F32 (c / s) = u at vu eu
  have p24' : pow2 (-24) = 1 / 16777216 := by rw [pow2_eq]; norm_num
  have p150' : pow2 (-150) ≤ 1 / 16777216 / 16 := by rw [pow2_eq]; norm_num
  rw [p24'] at eu
  have eu' : |u - c / s| ≤ 1 / 1000000 := by
    refine eu.trans ?_
    norm_num at cs2 p150' ⊢
    linarith
  have eur : |(u : ℝ) - (c : ℝ) / s| ≤ 1 / 1000000 := by
    have : ((|u - c / s| : ℚ) : ℝ) ≤ ((1 / 1000000 : ℚ) : ℝ) := by exact_mod_cast eu'
    push_cast at this
    exact this
  have X0 : 0 < (0.2046 : ℝ) / v := div_pos (by norm_num) (by linarith)
  have Xlo : (0.2 : ℝ) ≤ 0.2046 / v := by rw [le_div_iff₀ (by linarith)]; norm_num; norm_num at vle; linarith
  have Xhi : 0.2046 / v ≤ (0.95 : ℝ) := by rw [div_le_iff₀ (by linarith)]; norm_num; norm_num at v0; linarith
  have main : |(c : ℝ) / s - 0.2046 / v| ≤ 8 / 10000 * (0.2046 / v) := by
    rw [abs_le] at sv
    have hX : 0.2046 / v * v = 0.2046 := div_mul_cancel₀ _ (by linarith)
    generalize (0.2046 : ℝ) / v = X at hX X0 Xlo Xhi
    have hY : (c : ℝ) / s * s = c := div_mul_cancel₀ _ (by linarith)
    have : (c : ℝ) / s - X = (c - X * s) / s := by field_simp
    rw [this, abs_div, abs_of_pos (show (0 : ℝ) < s by linarith), div_le_iff₀ (by linarith), abs_le]
    have m1 : X * (s - v) ≤ X * (6 / 10000 * v) := mul_le_mul_of_nonneg_left (by linarith [sv.2]) X0.le
    have m2 : X * (v - s) ≤ X * (6 / 10000 * v) := mul_le_mul_of_nonneg_left (by linarith [sv.1]) X0.le
    have m3 : X * (6 / 10000 * v) = 6 / 10000 * 0.2046 := by rw [← hX]; ring
    have m4 : 8 / 10000 * X * (v * (1 - 6 / 10000)) ≤ 8 / 10000 * X * s :=
      mul_le_mul_of_nonneg_left (by linarith [sv.1]) (by positivity)
    have m5 : 8 / 10000 * X * (v * (1 - 6 / 10000)) = 8 / 10000 * (1 - 6 / 10000) * 0.2046 := by rw [← hX]; ring
    have m6 : X * s = X * (s - v) + 0.2046 := by rw [← hX]; ring
    have m7 : X * s = 0.2046 - X * (v - s) := by rw [← hX]; ring
    norm_num at m1 m2 m3 m4 m5 m6 m7 ⊢
    constructor <;> linarith
  have tot : |(u : ℝ) - 0.2046 / v| ≤ 1 / 1000 * (0.2046 / v) := by
    have : |(u : ℝ) - 0.2046 / v| ≤ |(u : ℝ) - c / s| + |(c : ℝ) / s - 0.2046 / v| := abs_sub_le _ _ _
    linarith
  have tt := abs_le.mp tot
  refine ⟨u, vu, ?_, ?_, tot⟩
  · have : ((1 / 8 : ℚ) : ℝ) ≤ u := by push_cast; linarith [tt.1]
    exact_mod_cast this
  · have : (u : ℝ) ≤ ((1 : ℚ) : ℝ) := by push_cast; linarith [tt.2]
    exact_mod_cast this

/-! ## The fundamentals of the frames -/

theorem pi_sq_bounds : (0.616849 : ℝ) ≤ Real.pi ^ 2 / 16 ∧ Real.pi ^ 2 / 16 ≤ 0.616852 := by
  have a := Real.pi_gt_d6
  have b := Real.pi_lt_d6
  constructor <;> nlinarith

theorem fundNear_of {x : IEEE m} {w : ℝ} {a b : ℚ} (h : rngB x a b = true) (ha : 3 / 64 ≤ a) (hb : b ≤ 1)
    (h1 : w - 1 / 25000 ≤ a) (h2 : (b : ℝ) ≤ w + 1 / 25000) : FundNear x w := by
  obtain ⟨q, v, q1, q2⟩ := rng_of h
  have r1 : (a : ℝ) ≤ q := by exact_mod_cast q1
  have r2 : (q : ℝ) ≤ b := by exact_mod_cast q2
  refine ⟨q, v, ha.trans q1, q2.trans hb, ?_⟩
  rw [abs_le]
  constructor <;> linarith

theorem init_fund0 : rngB (toF ((mpi /ᵈ dlit 32 1) *ᵈ (dlit 2 1 *ᵈ mpi)) : IEEE libm0) (616849 / 1000000) (616852 / 1000000) = true := by
  decide +kernel
theorem init_fund : FundNear (toF ((mpi /ᵈ dlit 32 1) *ᵈ (dlit 2 1 *ᵈ mpi)) : IEEE m) (Real.pi ^ 2 / 16) := by
  have := pi_sq_bounds
  refine fundNear_of (x := (toF ((mpi /ᵈ dlit 32 1) *ᵈ (dlit 2 1 *ᵈ mpi)) : IEEE m)) init_fund0 (by norm_num) (by norm_num) ?_ ?_ <;>
    norm_num at this ⊢ <;> linarith [this.1, this.2]

theorem sil_fund0 : rngB ((fpi /ᶠ lit 32 1) *ᶠ toF (dlit 2 1 *ᵈ mpi) : IEEE libm0) (616849 / 1000000) (616852 / 1000000) = true := by
  decide +kernel
theorem sil_fund : FundNear ((fpi /ᶠ lit 32 1) *ᶠ toF (dlit 2 1 *ᵈ mpi) : IEEE m) (2 * Real.pi * (Real.pi / 32)) := by
  have := pi_sq_bounds
  have e : 2 * Real.pi * (Real.pi / 32) = Real.pi ^ 2 / 16 := by ring
  rw [e]
  refine fundNear_of (x := ((fpi /ᶠ lit 32 1) *ᶠ toF (dlit 2 1 *ᵈ mpi) : IEEE m)) sil_fund0 (by norm_num) (by norm_num) ?_ ?_ <;>
    norm_num at this ⊢ <;> linarith [this.1, this.2]

theorem tab_fund0 : ∀ b0 < 120, rngB (ambeW0 (ftab (AmbeW0table.getD b0 0) AmbeW0table_den) : IEEE libm0)
    (2 * mkRat (AmbeW0table.getD b0 0) AmbeW0table_den * (3141592 / 1000000) - 1 / 1000000)
    (2 * mkRat (AmbeW0table.getD b0 0) AmbeW0table_den * (3141593 / 1000000) + 1 / 1000000) = true ∧
    3 / 64 ≤ 2 * mkRat (AmbeW0table.getD b0 0) AmbeW0table_den * (3141592 / 1000000) - 1 / 1000000 ∧
    2 * mkRat (AmbeW0table.getD b0 0) AmbeW0table_den * (3141593 / 1000000) + 1 / 1000000 ≤ 1 := by decide +kernel

theorem tab_fund {b0 : Nat} (h : b0 < 120) : FundNear (ambeW0 (ftab (AmbeW0table.getD b0 0) AmbeW0table_den) : IEEE m)
    (2 * Real.pi * ((AmbeW0table.getD b0 0 : ℝ) / AmbeW0table_den)) := by
  have e : (ambeW0 (ftab (AmbeW0table.getD b0 0) AmbeW0table_den) : IEEE m) =
      (ambeW0 (ftab (AmbeW0table.getD b0 0) AmbeW0table_den) : IEEE libm0) := ambeW0_tab_ieee _ _
  obtain ⟨k1, k2, k3⟩ := tab_fund0 b0 h
  have a := Real.pi_gt_d6
  have b := Real.pi_lt_d6
  have hq : ((mkRat (AmbeW0table.getD b0 0) AmbeW0table_den : ℚ) : ℝ) = (AmbeW0table.getD b0 0 : ℝ) / AmbeW0table_den := by
    rw [Rat.mkRat_eq_div]
    push_cast
    rfl
  rw [← hq]
  generalize mkRat (AmbeW0table.getD b0 0) AmbeW0table_den = f at k1 k2 k3
  have f0 : (0 : ℚ) ≤ f := by linarith
  have f1 : f ≤ 1 := by linarith
  have f0' : (0 : ℝ) ≤ f := by exact_mod_cast f0
  have f1' : (f : ℝ) ≤ 1 := by exact_mod_cast f1
  rw [e]
  refine fundNear_of (m := m) k1 k2 k3 ?_ ?_
  · push_cast; norm_num; nlinarith
  · push_cast; norm_num; nlinarith

theorem arg_near0 : ∀ b0 < 126, rngB (f0Arg b0 : IEEE libm0) (-(4311767578125 / 1000000000000) - 21336 / 1000000 * ((b0 : ℚ) + 1 / 2) - 1 / 1000000)
    (-(4311767578125 / 1000000000000) - 21336 / 1000000 * ((b0 : ℚ) + 1 / 2) + 1 / 1000000) = true := by decide +kernel

theorem two_pow_le {e : ℝ} (h0 : 0 ≤ e) (h1 : e ≤ 1) : (2 : ℝ) ^ e ≤ 1 + e := by
  have := rpow_one_add_le_one_add_mul_self (s := (1 : ℝ)) (by norm_num) h0 h1
  norm_num at this
  linarith

/-- The fundamental of a 2400 frame. -/
theorem exp_fund (hm : LibmAcc m) {b0 : Nat} (h : b0 < 126) : FundNear (ambeW0 (f0Of2400 b0) : IEEE m) (2 * Real.pi * ambeF0_2400 b0) := by
  have he : Exp2Acc m := by
    intro x y v h1 h2
    obtain ⟨r, vr, er⟩ := hm.exp2 x y v (by linarith) (by linarith)
    have : 0 < (2 : ℝ) ^ (y : ℝ) := by positivity
    exact ⟨r, vr, by linarith⟩
  obtain ⟨f, vf, f1, f2⟩ := f0_2400' he h
  obtain ⟨y, vy, y1, y2⟩ := rng_of (x := (f0Arg b0 : IEEE m)) (arg_near0 b0 h)
  have b1 : ((b0 : ℚ)) ≤ 125 := by exact_mod_cast (show b0 ≤ 125 by omega)
  have b2 : (0 : ℚ) ≤ b0 := by positivity
  obtain ⟨r, vr, er⟩ := hm.exp2 (f0Arg b0 : IEEE m) y vy (by linarith) (by linarith)
  have hrf : r = f := (Val.fq_eq vr).symm.trans (Val.fq_eq vf)
  subst hrf
  have hL := ltabPlus_check _ h
  have f3 : r ≤ 1 / 16 := by
    have h9 : (9 : ℚ) ≤ ((AmbePlusLtable.getD b0 0).toNat : ℚ) := by
      have : 9 ≤ (AmbePlusLtable.getD b0 0).toNat := by omega
      exact_mod_cast this
    have : 16 * 9 * r ≤ 16 * ((AmbePlusLtable.getD b0 0).toNat : ℚ) * r := by
      have r0 : 0 ≤ r := le_trans (by norm_num) f1
      nlinarith
    linarith
  obtain ⟨w, vw, w1, w2⟩ := ambeW0_val vf (by linarith) f3
  -- the exact value
  have ey : |(y : ℝ) - (-4.311767578125 - 0.021336 * ((b0 : ℝ) + 0.5))| ≤ 1 / 1000000 := by
    have z1 : ((-(4311767578125 / 1000000000000) - 21336 / 1000000 * ((b0 : ℚ) + 1 / 2) - 1 / 1000000 : ℚ) : ℝ) ≤ y := by exact_mod_cast y1
    have z2 : (y : ℝ) ≤ ((-(4311767578125 / 1000000000000) - 21336 / 1000000 * ((b0 : ℚ) + 1 / 2) + 1 / 1000000 : ℚ) : ℝ) := by exact_mod_cast y2
    push_cast at z1 z2
    rw [abs_le]
    norm_num at z1 z2 ⊢
    constructor <;> linarith
  unfold ambeF0_2400
  generalize (-4.311767578125 - 0.021336 * ((b0 : ℝ) + 0.5) : ℝ) = a at ey
  rw [abs_le] at ey
  have r3 : (r : ℝ) ≤ 1 / 16 := by
    have : (r : ℝ) ≤ ((1 / 16 : ℚ) : ℝ) := by exact_mod_cast f3
    push_cast at this
    exact this
  have r1 : (999 / 128000 : ℝ) ≤ r := by
    have : ((999 / 128000 : ℚ) : ℝ) ≤ r := by exact_mod_cast f1
    push_cast at this
    exact this
  have pa : 0 < (2 : ℝ) ^ a := by positivity
  have py : 0 < (2 : ℝ) ^ (y : ℝ) := by positivity
  have q1 : (2 : ℝ) ^ (y : ℝ) ≤ (2 : ℝ) ^ a * (1 + 1 / 1000000) := by
    have : (2 : ℝ) ^ (y : ℝ) ≤ (2 : ℝ) ^ (a + 1 / 1000000) := Real.rpow_le_rpow_of_exponent_le (by norm_num) (by linarith [ey.2])
    rw [Real.rpow_add (by norm_num)] at this
    exact this.trans (mul_le_mul_of_nonneg_left (two_pow_le (by norm_num) (by norm_num)) pa.le)
  have q2 : (2 : ℝ) ^ a ≤ (2 : ℝ) ^ (y : ℝ) * (1 + 1 / 1000000) := by
    have : (2 : ℝ) ^ a ≤ (2 : ℝ) ^ ((y : ℝ) + 1 / 1000000) := Real.rpow_le_rpow_of_exponent_le (by norm_num) (by linarith [ey.1])
    rw [Real.rpow_add (by norm_num)] at this
    exact this.trans (mul_le_mul_of_nonneg_left (two_pow_le (by norm_num) (by norm_num)) py.le)
  rw [abs_le] at er
  have ef : |(r : ℝ) - (2 : ℝ) ^ a| ≤ 2 / 1000000 := by
    generalize (2 : ℝ) ^ a = A at *
    generalize (2 : ℝ) ^ (y : ℝ) = Y at *
    have Y1 : Y ≤ 1 / 15 := by linarith [er.1]
    rw [abs_le]
    constructor <;> linarith [er.1, er.2]
  have p1 := Real.pi_gt_d6
  have p2 := Real.pi_lt_d6
  have W1 : 2 * (r : ℝ) * (314159 / 100000) - 1 / 100000 ≤ w := by
    have : ((2 * r * (314159 / 100000) - 1 / 100000 : ℚ) : ℝ) ≤ w := by exact_mod_cast w1
    push_cast at this
    exact this
  have W2 : (w : ℝ) ≤ 2 * (r : ℝ) * (314160 / 100000) + 1 / 100000 := by
    have : (w : ℝ) ≤ ((2 * r * (314160 / 100000) + 1 / 100000 : ℚ) : ℝ) := by exact_mod_cast w2
    push_cast at this
    exact this
  refine ⟨w, vw, by linarith, by linarith, ?_⟩
  generalize (2 : ℝ) ^ a = A at ef
  rw [abs_le] at ef
  have A0 : 0 ≤ A := by linarith [ef.2]
  have m1 : A * Real.pi ≤ A * 3.141593 := mul_le_mul_of_nonneg_left p2.le A0
  have m2 : A * 3.141592 ≤ A * Real.pi := mul_le_mul_of_nonneg_left p1.le A0
  rw [abs_le]
  norm_num at m1 m2 ⊢
  constructor <;> nlinarith [ef.1, ef.2]

end Verif.Model
