import Verif.Lemmas.VecTop
import Verif.Lemmas.FftNear

/-!
# The transforms on vectors in binary32 against the exact transforms
-/

namespace Verif.Model.Vec
open Verif Verif.Model Verif.Gen Verif.Spec Verif.Num Arith
variable {m : Libm}

/-! ## Twiddle factors -/

theorem argh64_val : Val (argh64 : IEEE m) (13176795 / 134217728) :=
  ⟨false, show IEEE.get (argh64 : IEEE libm0) = FP.fin false (13176795 / 134217728) by decide +kernel⟩

theorem angle64_near {n k : Int} (hn : 1 ≤ n) (hn' : n ≤ 16) (hk : 1 ≤ k) (hk' : k ≤ 16) (hnk : n * k ≤ 24) :
    ∃ q : ℚ, Val (ofInt n *ᶠ (ofInt k *ᶠ argh64) : IEEE m) q ∧
      |(q : ℝ) - (ofInt n *ᶠ (ofInt k *ᶠ argh64) : ℝ)| ≤ 37 / 100 / 1048576 ∧ |q| ≤ 8 := by
  have hpi := Real.pi_gt_d20
  have hpi' := Real.pi_lt_d20
  have er : (ofInt n *ᶠ (ofInt k *ᶠ argh64) : ℝ) = (n : ℝ) * (k * (2 * Real.pi / 64)) := by
    rw [RealArith.mul_r, RealArith.mul_r, Vec.argh_r]; rfl
  have n1 : (1 : ℝ) ≤ n := by exact_mod_cast hn
  have n2 : (n : ℝ) ≤ 16 := by exact_mod_cast hn'
  have k1 : (1 : ℝ) ≤ k := by exact_mod_cast hk
  have k2 : (k : ℝ) ≤ 16 := by exact_mod_cast hk'
  have nk : (n : ℝ) * k ≤ 24 := by exact_mod_cast hnk
  have nk1 : (1 : ℝ) ≤ n * k := by nlinarith
  have vn : Val (ofInt n : IEEE m) n := Val.ofInt (by rw [abs_of_nonneg (by omega)]; omega)
  have vk : Val (ofInt k : IEEE m) k := Val.ofInt (by rw [abs_of_nonneg (by omega)]; omega)
  set θ : ℝ := 2 * Real.pi / 64 with hθ
  have t1 : |((13176795 / 134217728 : ℚ) : ℝ) - θ| ≤ 28 / 10000000000 := by
    rw [abs_le, hθ]; push_cast; constructor <;> linarith
  have t2 : 0 ≤ θ ∧ θ ≤ 9820 / 100000 := by rw [hθ]; constructor <;> linarith
  -- first product
  have a1 : |(((k : ℚ) * (13176795 / 134217728) : ℚ) : ℝ) - k * θ| ≤ k * (28 / 10000000000) := by
    rw [show (((k : ℚ) * (13176795 / 134217728) : ℚ) : ℝ) - k * θ = k * (((13176795 / 134217728 : ℚ) : ℝ) - θ) by push_cast; ring, abs_mul,
      abs_of_nonneg (by linarith)]
    exact mul_le_mul_of_nonneg_left t1 (by linarith)
  have ka : |(k : ℝ) * θ| ≤ k * (9820 / 100000) := by
    rw [abs_of_nonneg (by nlinarith)]; nlinarith
  have tin : (1 : ℝ) / 2 ^ 150 ≤ k * (1 / 10000000000000) := by
    have : (1 : ℝ) / 2 ^ 150 ≤ 1 / 10000000000000 := by norm_num
    linarith
  have a2 := near_op (e := k * (868 / 100000000000)) a1 ka (by linarith)
  have va : Val (ofInt k *ᶠ argh64 : IEEE m) (rnd F32 ((k : ℚ) * (13176795 / 134217728))) := by
    refine vk.mul argh64_val (big_real (b := 4) ?_ (by norm_num))
    have := abs_sub_abs_le_abs_sub (((k : ℚ) * (13176795 / 134217728) : ℚ) : ℝ) (k * θ)
    linarith
  set q1 : ℚ := rnd F32 ((k : ℚ) * (13176795 / 134217728)) with hq1
  -- second product
  have b1 : |(((n : ℚ) * q1 : ℚ) : ℝ) - n * (k * θ)| ≤ n * k * (868 / 100000000000) := by
    rw [show (((n : ℚ) * q1 : ℚ) : ℝ) - n * (k * θ) = n * ((q1 : ℝ) - k * θ) by push_cast; ring, abs_mul,
      abs_of_nonneg (show (0 : ℝ) ≤ n by linarith), mul_assoc]
    exact mul_le_mul_of_nonneg_left a2 (by linarith)
  have kb : |(n : ℝ) * (k * θ)| ≤ n * k * (9820 / 100000) := by
    rw [← mul_assoc, abs_of_nonneg (by nlinarith)]; nlinarith
  have tin2 : (1 : ℝ) / 2 ^ 150 ≤ n * k * (1 / 10000000000000) := by
    have : (1 : ℝ) / 2 ^ 150 ≤ 1 / 10000000000000 := by norm_num
    linarith
  have b2 := near_op (e := n * k * (14540 / 1000000000000)) b1 kb (by linarith)
  have b3 : |(((n : ℚ) * q1 : ℚ) : ℝ)| ≤ 4 := by
    have := abs_sub_abs_le_abs_sub (((n : ℚ) * q1 : ℚ) : ℝ) (n * (k * θ))
    linarith
  refine ⟨_, vn.mul va (big_real b3 (by norm_num)), ?_, ?_⟩
  · rw [er]
    linarith
  · have := abs_sub_abs_le_abs_sub ((rnd F32 ((n : ℚ) * q1) : ℚ) : ℝ) (n * (k * θ))
    have h8 : |((rnd F32 ((n : ℚ) * q1) : ℚ) : ℝ)| ≤ 8 := by linarith
    have : ((|rnd F32 ((n : ℚ) * q1)| : ℚ) : ℝ) ≤ ((8 : ℚ) : ℝ) := by push_cast; exact h8
    exact_mod_cast this

theorem rowW64_near (hcos : CosAcc m) (hsin : SinAcc m) {ido : Nat} (hi : ido ≤ 16) {is k : Int} (hk : 1 ≤ k) (hk' : k ≤ 16) (h : ido * k ≤ 48) :
    LNear (1 / 1048576) 1 (rowW ido is (ofInt k *ᶠ argh64 : IEEE m)) (rowW ido is (ofInt k *ᶠ argh64 : ℝ)) := by
  unfold rowW
  refine LNear.flatMap _ fun u hu => ?_
  rw [List.mem_range] at hu
  have hu' : 2 * ((u : Int) + 1) ≤ ido := by omega
  obtain ⟨q, vq, e1, e2⟩ := angle64_near (m := m) (n := (u : Int) + 1) (k := k) (by omega) (by omega) hk hk' (by nlinarith)
  obtain ⟨r1, v1, f1⟩ := hcos _ q vq e2
  obtain ⟨r2, v2, f2⟩ := hsin _ q vq e2
  have g1 := Real.abs_cos_sub_cos_le (q : ℝ) (ofInt ((u : Int) + 1) *ᶠ (ofInt k *ᶠ argh64) : ℝ)
  have g2 := Real.abs_sin_sub_sin_le (q : ℝ) (ofInt ((u : Int) + 1) *ᶠ (ofInt k *ᶠ argh64) : ℝ)
  have i1 := abs_sub_le (r1 : ℝ) (Real.cos q) (Real.cos (ofInt ((u : Int) + 1) *ᶠ (ofInt k *ᶠ argh64) : ℝ))
  have i2 := abs_sub_le (r2 : ℝ) (Real.sin q) (Real.sin (ofInt ((u : Int) + 1) *ᶠ (ofInt k *ᶠ argh64) : ℝ))
  refine .cons ⟨rfl, ?_⟩ (.cons ⟨rfl, ?_⟩ .nil)
  · exact toF_near v1 (y := Real.cos _) (by linarith) (Real.abs_cos_le_one _)
  · exact toF_near v2 (y := Real.sin _) (by linarith) (Real.abs_sin_le_one _)

theorem groupW64_near (hcos : CosAcc m) (hsin : SinAcc m) {l1 : Int} {ido : Nat} (h1 : 1 ≤ l1) (h2 : l1 ≤ 4) (hi : ido ≤ 16) (h : ido * l1 ≤ 16)
    (base : Int) : LNear (1 / 1048576) 1 (groupW l1 ido base : List (Int × IEEE m)) (groupW l1 ido base) := by
  unfold groupW
  refine ((rowW64_near hcos hsin hi h1 (by omega) (by omega)).append (rowW64_near hcos hsin hi (by omega) (by omega) ?_)).append
    (rowW64_near hcos hsin hi (by omega) (by omega) ?_)
  · rw [show (ido : Int) * (2 * l1) = 2 * (ido * l1) by ring]; omega
  · rw [show (ido : Int) * (3 * l1) = 3 * (ido * l1) by ring]; omega

theorem tw64_near (hcos : CosAcc m) (hsin : SinAcc m) (i : Int) : Near (1 / 1048576) 1 (tw64 i : IEEE m) (tw64 i : ℝ) := by
  refine LNear.valAt (by norm_num) (by norm_num) ?_ i
  unfold twW
  exact (groupW64_near hcos hsin (by decide) (by decide) (by decide) (by decide) _).append
    (groupW64_near hcos hsin (by decide) (by decide) (by decide) (by decide) _)

/-- The angle of an entry of `e`, checked against 21 digits of π. -/
def eAngOk (k m : Nat) : Bool := match IEEE.get (eAng (k : Int) (m : Int) : IEEE libm0) with
  | .fin _ q => decide (|q + 2 * 314159265358979323846 / 100000000000000000000 * (((m + 1) * k : Nat) : ℚ) / 256| ≤ 1 / 8388608)
  | _ => false

theorem eAng_ok : ∀ (k : Fin 32) (m : Fin 3), eAngOk k.val m.val = true := by decide +kernel

theorem eAng_near {k n : Nat} (hk : k < 32) (hn : n < 3) : ∃ q : ℚ, Val (eAng (k : Int) (n : Int) : IEEE m) q ∧
    |(q : ℝ) - (eAng (k : Int) (n : Int) : ℝ)| ≤ 13 / 100 / 1048576 ∧ |q| ≤ 8 := by
  have h := eAng_ok ⟨k, hk⟩ ⟨n, hn⟩
  dsimp only at h
  unfold eAngOk at h
  split at h
  case h_2 => cases h
  rename_i s q hq
  have h := of_decide_eq_true h
  have hv : Val (eAng (k : Int) (n : Int) : IEEE m) q := ⟨s, hq⟩
  have hpi := Real.pi_gt_d20
  have hpi' := Real.pi_lt_d20
  obtain ⟨u, hu⟩ : ∃ u : ℕ, u = (n + 1) * k := ⟨_, rfl⟩
  have hu' : u ≤ 93 := by rw [hu]; nlinarith
  have u0 : (0 : ℝ) ≤ u := by positivity
  have u1 : (u : ℝ) ≤ 93 := by exact_mod_cast hu'
  rw [← hu] at h
  have h' : |(q : ℝ) + 2 * 314159265358979323846 / 100000000000000000000 * (u : ℝ) / 256| ≤ 1 / 8388608 := by
    have : ((|q + 2 * 314159265358979323846 / 100000000000000000000 * (u : ℚ) / 256| : ℚ) : ℝ) ≤ ((1 / 8388608 : ℚ) : ℝ) := Rat.cast_le.2 h
    push_cast at this
    exact this
  have q8 : |(q : ℝ)| ≤ 8 := by
    rw [abs_le] at h' ⊢
    constructor <;> linarith
  refine ⟨q, hv, ?_, by exact_mod_cast q8⟩
  rw [eAng_r, ← hu]
  rw [abs_le] at h' ⊢
  have p1 : (u : ℝ) * Real.pi ≤ u * 3.14159265358979323847 := mul_le_mul_of_nonneg_left hpi'.le u0
  have p2 : (u : ℝ) * 3.14159265358979323846 ≤ u * Real.pi := mul_le_mul_of_nonneg_left hpi.le u0
  push_cast
  constructor <;> linarith

theorem eTab_near (hcos : CosAcc m) (hsin : SinAcc m) (i : Int) : Near (1 / 1048576) 1 (eTab i : IEEE m) (eTab i : ℝ) := by
  refine LNear.valAt (by norm_num) (by norm_num) ?_ i
  unfold eW
  refine LNear.flatMap _ fun k hk => LNear.flatMap _ fun n hn => ?_
  rw [List.mem_range] at hk hn
  obtain ⟨q, vq, e1, e2⟩ := eAng_near (m := m) hk hn
  obtain ⟨r1, v1, f1⟩ := hcos _ q vq e2
  obtain ⟨r2, v2, f2⟩ := hsin _ q vq e2
  have g1 := Real.abs_cos_sub_cos_le (q : ℝ) (eAng (k : Int) (n : Int) : ℝ)
  have g2 := Real.abs_sin_sub_sin_le (q : ℝ) (eAng (k : Int) (n : Int) : ℝ)
  have i1 := abs_sub_le (r1 : ℝ) (Real.cos q) (Real.cos (eAng (k : Int) (n : Int) : ℝ))
  have i2 := abs_sub_le (r2 : ℝ) (Real.sin q) (Real.sin (eAng (k : Int) (n : Int) : ℝ))
  unfold eW1
  refine .cons ⟨rfl, ?_⟩ (.cons ⟨rfl, ?_⟩ .nil)
  · exact toF_near v1 (y := Real.cos _) (by linarith) (Real.abs_cos_le_one _)
  · exact toF_near v2 (y := Real.sin _) (by linarith) (Real.abs_sin_le_one _)

/-! ## Combining steps -/

theorem Near.neg {e B : ℝ} {x : IEEE m} {y : ℝ} (h : Near e B x y) : Near e B (Arith.neg x : IEEE m) (Arith.neg y : ℝ) := by
  obtain ⟨q, v, h1, h2⟩ := h
  refine ⟨-q, v.neg, ?_, ?_⟩
  · rw [RealArith.neg_r]
    push_cast
    rw [show -(q : ℝ) - -y = -((q : ℝ) - y) by ring, abs_neg]
    exact h1
  · rw [RealArith.neg_r, abs_neg]
    exact h2

theorem sqrtVals : IEEE.get (sqrtHalf : IEEE libm0) = FP.fin false (11863283 / 16777216) ∧
    IEEE.get (sqrtTwo : IEEE libm0) = FP.fin false (11863283 / 8388608) := by decide +kernel

theorem sqrt_bnds : 23726565 / 16777216 < Real.sqrt 2 ∧ Real.sqrt 2 < 23726567 / 16777216 := by
  have h2 : Real.sqrt 2 * Real.sqrt 2 = 2 := Real.mul_self_sqrt (by norm_num)
  have h0 := Real.sqrt_nonneg 2
  constructor <;> (by_contra hc; nlinarith [not_lt.1 hc])

theorem sqrtHalf_near : Near (1 / 2 ^ 24) (3 / 4) (sqrtHalf : IEEE m) (sqrtHalf : ℝ) := by
  obtain ⟨lo, hi⟩ := sqrt_bnds
  refine ⟨11863283 / 16777216, ⟨_, sqrtVals.1⟩, ?_, ?_⟩
  · rw [sqrtHalf_r, abs_le]
    push_cast
    constructor <;> linarith
  · rw [sqrtHalf_r, abs_le]
    constructor <;> linarith

theorem sqrtTwo_near : Near (1 / 2 ^ 23) (3 / 2) (sqrtTwo : IEEE m) (sqrtTwo : ℝ) := by
  obtain ⟨lo, hi⟩ := sqrt_bnds
  refine ⟨11863283 / 8388608, ⟨_, sqrtVals.2⟩, ?_, ?_⟩
  · rw [sqrtTwo_r, abs_le]
    push_cast
    constructor <;> linarith
  · rw [sqrtTwo_r, abs_le]
    constructor <;> linarith

/-- Lane by lane. -/
def VNear (e B : ℝ) (c : Int → Vec4 (IEEE m)) (d : Int → Vec4 ℝ) : Prop := ∀ i b, Near e B (c i b) (d i b)

theorem v4_near {e B : ℝ} {x0 x1 x2 x3 : IEEE m} {y0 y1 y2 y3 : ℝ} (h0 : Near e B x0 y0) (h1 : Near e B x1 y1) (h2 : Near e B x2 y2) (h3 : Near e B x3 y3)
    (b : Fin 4) : Near e B (v4 x0 x1 x2 x3 b) (v4 y0 y1 y2 y3 b) := by
  match b with
  | 0 => exact h0
  | 1 => exact h1
  | 2 => exact h2
  | 3 => exact h3

theorem transpose_near {e B : ℝ} {x0 x1 x2 x3 : Vec4 (IEEE m)} {y0 y1 y2 y3 : Vec4 ℝ} (h0 : ∀ b, Near e B (x0 b) (y0 b)) (h1 : ∀ b, Near e B (x1 b) (y1 b))
    (h2 : ∀ b, Near e B (x2 b) (y2 b)) (h3 : ∀ b, Near e B (x3 b) (y3 b)) (t b : Fin 4) :
    Near e B (transpose4 x0 x1 x2 x3 t b) (transpose4 y0 y1 y2 y3 t b) := v4_near (h0 t) (h1 t) (h2 t) (h3 t) b

section
variable {e B : ℝ} (h0 : 0 ≤ e) (hB : 1 / 2 ^ 100 ≤ B) (hb : 1000 * (B + e) ≤ 2 ^ 126)
include h0 hB hb

theorem fin8_near {r i : Fin 4 → IEEE m} {r' i' : Fin 4 → ℝ} {w : Fin 6 → IEEE m} {w' : Fin 6 → ℝ} (hr : ∀ t, Near e B (r t) (r' t))
    (hi : ∀ t, Near e B (i t) (i' t)) (hw : ∀ t, Near (1 / 1048576) 1 (w t) (w' t)) (n : Fin 8) :
    Near (71 / 10 * e + 8 / 1048576 * B) (7 * B) (fin8 r i w n) (fin8 r' i' w' n) := by
  have ht := tiny_le hB
  have k : ∀ t u v, Near (2003 / 1000 * e + 227 / 100 / 1048576 * B) (2 * B) (mulCplx (r t) (i t) (w u) (w v)).1 (mulCplx (r' t) (i' t) (w' u) (w' v)).1 ∧
      Near (2003 / 1000 * e + 227 / 100 / 1048576 * B) (2 * B) (mulCplx (r t) (i t) (w u) (w v)).2 (mulCplx (r' t) (i' t) (w' u) (w' v)).2 := fun t u v =>
    mulCplx_near h0 hB (by linarith) (hr t) (hi t) (hw u) (hw v)
  have ss : ∀ {x x' : IEEE m} {y y' : ℝ}, Near (2003 / 1000 * e + 227 / 100 / 1048576 * B) (2 * B) x y →
      Near (2003 / 1000 * e + 227 / 100 / 1048576 * B) (2 * B) x' y' →
      Near (401 / 100 * e + 48 / 10 / 1048576 * B) (4 * B) (x +ᶠ x' : IEEE m) (y +ᶠ y' : ℝ) := fun h h' => h.add h' (by linarith) (by linarith) (by linarith)
  have dd : ∀ {x x' : IEEE m} {y y' : ℝ}, Near (2003 / 1000 * e + 227 / 100 / 1048576 * B) (2 * B) x y →
      Near (2003 / 1000 * e + 227 / 100 / 1048576 * B) (2 * B) x' y' →
      Near (401 / 100 * e + 48 / 10 / 1048576 * B) (4 * B) (x -ᶠ x' : IEEE m) (y -ᶠ y' : ℝ) := fun h h' => h.sub h' (by linarith) (by linarith) (by linarith)
  have cs : ∀ {u x : IEEE m} {v y : ℝ}, Near e B u v → Near (2003 / 1000 * e + 227 / 100 / 1048576 * B) (2 * B) x y →
      Near (301 / 100 * e + 25 / 10 / 1048576 * B) (3 * B) (u +ᶠ x : IEEE m) (v +ᶠ y : ℝ) := fun g h => g.add h (by linarith) (by linarith) (by linarith)
  have cd : ∀ {u x : IEEE m} {v y : ℝ}, Near e B u v → Near (2003 / 1000 * e + 227 / 100 / 1048576 * B) (2 * B) x y →
      Near (301 / 100 * e + 25 / 10 / 1048576 * B) (3 * B) (u -ᶠ x : IEEE m) (v -ᶠ y : ℝ) := fun g h => g.sub h (by linarith) (by linarith) (by linarith)
  have fa : ∀ {x x' : IEEE m} {y y' : ℝ}, Near (401 / 100 * e + 48 / 10 / 1048576 * B) (4 * B) x y →
      Near (301 / 100 * e + 25 / 10 / 1048576 * B) (3 * B) x' y' →
      Near (71 / 10 * e + 8 / 1048576 * B) (7 * B) (x +ᶠ x' : IEEE m) (y +ᶠ y' : ℝ) := fun h h' => h.add h' (by linarith) (by linarith) (by linarith)
  have fa' : ∀ {x x' : IEEE m} {y y' : ℝ}, Near (301 / 100 * e + 25 / 10 / 1048576 * B) (3 * B) x y →
      Near (401 / 100 * e + 48 / 10 / 1048576 * B) (4 * B) x' y' →
      Near (71 / 10 * e + 8 / 1048576 * B) (7 * B) (x +ᶠ x' : IEEE m) (y +ᶠ y' : ℝ) := fun h h' => h.add h' (by linarith) (by linarith) (by linarith)
  have fs : ∀ {x x' : IEEE m} {y y' : ℝ}, Near (401 / 100 * e + 48 / 10 / 1048576 * B) (4 * B) x y →
      Near (301 / 100 * e + 25 / 10 / 1048576 * B) (3 * B) x' y' →
      Near (71 / 10 * e + 8 / 1048576 * B) (7 * B) (x -ᶠ x' : IEEE m) (y -ᶠ y' : ℝ) := fun h h' => h.sub h' (by linarith) (by linarith) (by linarith)
  have fr : ∀ {x x' : IEEE m} {y y' : ℝ}, Near (301 / 100 * e + 25 / 10 / 1048576 * B) (3 * B) x y →
      Near (401 / 100 * e + 48 / 10 / 1048576 * B) (4 * B) x' y' →
      Near (71 / 10 * e + 8 / 1048576 * B) (7 * B) (x -ᶠ x' : IEEE m) (y -ᶠ y' : ℝ) := fun h h' => h.sub h' (by linarith) (by linarith) (by linarith)
  match n with
  | 0 => exact fa' (cs (hr 0) (k 2 2 3).1) (ss (k 1 0 1).1 (k 3 4 5).1)
  | 1 => exact fa' (cs (hi 0) (k 2 2 3).2) (ss (k 1 0 1).2 (k 3 4 5).2)
  | 2 => exact fa' (cd (hr 0) (k 2 2 3).1) (dd (k 3 4 5).2 (k 1 0 1).2)
  | 3 => exact fs (dd (k 3 4 5).1 (k 1 0 1).1) (cd (hi 0) (k 2 2 3).2)
  | 4 => exact fr (cd (hr 0) (k 2 2 3).1) (dd (k 3 4 5).2 (k 1 0 1).2)
  | 5 => exact fa (dd (k 3 4 5).1 (k 1 0 1).1) (cd (hi 0) (k 2 2 3).2)
  | 6 => exact fr (cs (hr 0) (k 2 2 3).1) (ss (k 1 0 1).1 (k 3 4 5).1)
  | 7 => exact fs (ss (k 1 0 1).2 (k 3 4 5).2) (cs (hi 0) (k 2 2 3).2)

theorem edge8_near {cr ci : Vec4 (IEEE m)} {cr' ci' : Vec4 ℝ} (hr : ∀ t, Near e B (cr t) (cr' t)) (hi : ∀ t, Near e B (ci t) (ci' t)) (n : Fin 8) :
    Near (71 / 10 * e + 8 / 1048576 * B) (7 * B) (edge8 cr ci n) (edge8 cr' ci' n) := by
  have ht := tiny_le hB
  have ss : ∀ {x x' : IEEE m} {y y' : ℝ}, Near e B x y → Near e B x' y' →
      Near (2001 / 1000 * e + 1 / 7 / 1048576 * B) (2 * B) (x +ᶠ x' : IEEE m) (y +ᶠ y' : ℝ) := fun h h' => h.add h' (by linarith) (by linarith) (by linarith)
  have dd : ∀ {x x' : IEEE m} {y y' : ℝ}, Near e B x y → Near e B x' y' →
      Near (2001 / 1000 * e + 1 / 7 / 1048576 * B) (2 * B) (x -ᶠ x' : IEEE m) (y -ᶠ y' : ℝ) := fun h h' => h.sub h' (by linarith) (by linarith) (by linarith)
  have w : ∀ {x : IEEE m} {y : ℝ}, Near (2001 / 1000 * e + 1 / 7 / 1048576 * B) (2 * B) x y →
      Near (2 * e + 1 / 1048576 * B) (2 * B) (sqrtHalf *ᶠ x : IEEE m) (sqrtHalf *ᶠ y : ℝ) := fun h => sqrtHalf_near.mul h (by linarith) (by linarith) (by linarith)
  have s2 : ∀ {x x' : IEEE m} {y y' : ℝ}, Near (2001 / 1000 * e + 1 / 7 / 1048576 * B) (2 * B) x y →
      Near (2001 / 1000 * e + 1 / 7 / 1048576 * B) (2 * B) x' y' →
      Near (71 / 10 * e + 8 / 1048576 * B) (7 * B) (x +ᶠ x' : IEEE m) (y +ᶠ y' : ℝ) := fun h h' => h.add h' (by linarith) (by linarith) (by linarith)
  have d2 : ∀ {x x' : IEEE m} {y y' : ℝ}, Near (2001 / 1000 * e + 1 / 7 / 1048576 * B) (2 * B) x y →
      Near (2001 / 1000 * e + 1 / 7 / 1048576 * B) (2 * B) x' y' →
      Near (71 / 10 * e + 8 / 1048576 * B) (7 * B) (x -ᶠ x' : IEEE m) (y -ᶠ y' : ℝ) := fun h h' => h.sub h' (by linarith) (by linarith) (by linarith)
  have s1 : ∀ {x x' : IEEE m} {y y' : ℝ}, Near e B x y → Near (2 * e + 1 / 1048576 * B) (2 * B) x' y' →
      Near (71 / 10 * e + 8 / 1048576 * B) (7 * B) (x +ᶠ x' : IEEE m) (y +ᶠ y' : ℝ) := fun h h' => h.add h' (by linarith) (by linarith) (by linarith)
  have d1 : ∀ {x x' : IEEE m} {y y' : ℝ}, Near e B x y → Near (2 * e + 1 / 1048576 * B) (2 * B) x' y' →
      Near (71 / 10 * e + 8 / 1048576 * B) (7 * B) (x -ᶠ x' : IEEE m) (y -ᶠ y' : ℝ) := fun h h' => h.sub h' (by linarith) (by linarith) (by linarith)
  match n with
  | 0 => exact s2 (ss (hr 0) (hr 2)) (ss (hr 1) (hr 3))
  | 1 => exact d2 (ss (hr 0) (hr 2)) (ss (hr 1) (hr 3))
  | 2 => exact s1 (hi 0) (w (dd (hi 1) (hi 3)))
  | 3 => exact d1 (Near.neg (hi 2)) (w (ss (hi 1) (hi 3)))
  | 4 => exact (dd (hr 0) (hr 2)).mono (by linarith) (by linarith)
  | 5 => exact (dd (hr 3) (hr 1)).mono (by linarith) (by linarith)
  | 6 => exact d1 (hi 0) (w (dd (hi 1) (hi 3)))
  | 7 => exact d1 (hi 2) (w (ss (hi 1) (hi 3)))

omit hb in
theorem zero_near : Near e B (fi 0 : IEEE m) (fi 0 : ℝ) := by
  have hp : 0 ≤ B := le_trans (by positivity) hB
  refine ⟨0, Val.ofInt (n := 0) (by norm_num), ?_, ?_⟩
  · show |((0 : ℚ) : ℝ) - ((0 : Int) : ℝ)| ≤ e
    simpa using h0
  · show |((0 : Int) : ℝ)| ≤ B
    simpa using hp

theorem finV_near {c w : Int → Vec4 (IEEE m)} {d v : Int → Vec4 ℝ} (hc : VNear e B c d) (hw : VNear (1 / 1048576) 1 w v) :
    VNear (71 / 10 * e + 8 / 1048576 * B) (7 * B) (finV c w) (finV d v) := by
  intro a b
  have z := zero_near (m := m) h0 hB
  have f0 : ∀ b, Near (71 / 10 * e + 8 / 1048576 * B) (7 * B) (finV0 c w a b) (finV0 d v a b) := by
    intro b
    unfold finV0
    rw [fin8_lane, fin8_lane]
    refine fin8_near h0 hB hb (fun t => ?_) (fun t => ?_) (fun t => hw _ _) _
    · refine transpose_near (fun b => ?_) (hc _) (hc _) (hc _) t b
      split
      · exact z
      · exact hc _ _
    · refine transpose_near (fun b => ?_) (hc _) (hc _) (hc _) t b
      split
      · exact z
      · exact hc _ _
  unfold finV
  split
  · exact v4_near (edge8_near h0 hB hb (hc 0) (hc 63) _) (f0 1) (f0 2) (f0 3) b
  · exact f0 b

end

section
variable {B : ℝ} (hB : 1 / 2 ^ 100 ≤ B) (hb : 1000 * B ≤ 2 ^ 126)
include hB hb

theorem pre4_near {x : Fin 8 → IEEE m} {y : Fin 8 → ℝ} {w : Fin 6 → IEEE m} {w' : Fin 6 → ℝ} (hx : ∀ n, Near 0 B (x n) (y n))
    (hw : ∀ t, Near (1 / 1048576) 1 (w t) (w' t)) (t : Fin 4) :
    Near (11 / 1048576 * B) (8 * B) (pre4 x w t).1 (pre4 y w' t).1 ∧ Near (11 / 1048576 * B) (8 * B) (pre4 x w t).2 (pre4 y w' t).2 := by
  have ht := tiny_le hB
  have hp : 0 ≤ B := le_trans (by positivity) hB
  have s : ∀ i j, Near (1 / 7 / 1048576 * B) (2 * B) (x i +ᶠ x j : IEEE m) (y i +ᶠ y j : ℝ) := fun i j => (hx i).add (hx j) (by linarith) (by linarith) (by linarith)
  have d : ∀ i j, Near (1 / 7 / 1048576 * B) (2 * B) (x i -ᶠ x j : IEEE m) (y i -ᶠ y j : ℝ) := fun i j => (hx i).sub (hx j) (by linarith) (by linarith) (by linarith)
  have ss : ∀ {x x' : IEEE m} {y y' : ℝ}, Near (1 / 7 / 1048576 * B) (2 * B) x y → Near (1 / 7 / 1048576 * B) (2 * B) x' y' →
      Near (6 / 10 / 1048576 * B) (4 * B) (x +ᶠ x' : IEEE m) (y +ᶠ y' : ℝ) := fun h h' => h.add h' (by linarith) (by linarith) (by linarith)
  have dd : ∀ {x x' : IEEE m} {y y' : ℝ}, Near (1 / 7 / 1048576 * B) (2 * B) x y → Near (1 / 7 / 1048576 * B) (2 * B) x' y' →
      Near (6 / 10 / 1048576 * B) (4 * B) (x -ᶠ x' : IEEE m) (y -ᶠ y' : ℝ) := fun h h' => h.sub h' (by linarith) (by linarith) (by linarith)
  have k : ∀ {x x' : IEEE m} {y y' : ℝ} (i j : Fin 6), Near (6 / 10 / 1048576 * B) (4 * B) x y → Near (6 / 10 / 1048576 * B) (4 * B) x' y' →
      Near (11 / 1048576 * B) (8 * B) (mulConj x x' (w i) (w j)).1 (mulConj y y' (w' i) (w' j)).1 ∧
      Near (11 / 1048576 * B) (8 * B) (mulConj x x' (w i) (w j)).2 (mulConj y y' (w' i) (w' j)).2 := fun i j hx hy => by
    have := mulConj_near (e := 6 / 10 / 1048576 * B) (B := 4 * B) (by linarith) (by linarith) (by linarith) hx hy (hw i) (hw j)
    exact ⟨this.1.mono (by linarith) (by linarith), this.2.mono (by linarith) (by linarith)⟩
  match t with
  | 0 => exact ⟨(ss (s 0 6) (s 2 4)).mono (by linarith) (by linarith), (dd (d 1 7) (d 3 5)).mono (by linarith) (by linarith)⟩
  | 1 => exact k 0 1 (dd (d 0 6) (s 3 5)) (dd (s 1 7) (d 2 4))
  | 2 => exact k 2 3 (dd (s 0 6) (s 2 4)) (ss (d 1 7) (d 3 5))
  | 3 => exact k 4 5 (ss (d 0 6) (s 3 5)) (ss (s 1 7) (d 2 4))

theorem preV_near {c w : Int → Vec4 (IEEE m)} {d v : Int → Vec4 ℝ} (hc : VNear 0 B c d) (hw : VNear (1 / 1048576) 1 w v) :
    VNear (11 / 1048576 * B) (8 * B) (preV c w) (preV d v) := by
  intro a b
  have ht := tiny_le hB
  have hp : 0 ≤ B := le_trans (by positivity) hB
  have P : ∀ k t b, Near (11 / 1048576 * B) (8 * B) ((preP c w k t).1 b) ((preP d v k t).1 b) ∧
      Near (11 / 1048576 * B) (8 * B) ((preP c w k t).2 b) ((preP d v k t).2 b) := by
    intro k t b
    have l := pre4_lane (fun n => c (8 * k + (n.val : Int))) (fun n => w (6 * k + (n.val : Int))) t b
    have l' := pre4_lane (fun n => d (8 * k + (n.val : Int))) (fun n => v (6 * k + (n.val : Int))) t b
    unfold preP
    rw [l.1, l.2, l'.1, l'.2]
    exact pre4_near hB hb (fun n => hc _ _) (fun n => hw _ _) t
  have ss : ∀ {x x' : IEEE m} {y y' : ℝ}, Near 0 B x y → Near 0 B x' y' →
      Near (1 / 7 / 1048576 * B) (2 * B) (x +ᶠ x' : IEEE m) (y +ᶠ y' : ℝ) := fun h h' => h.add h' (by linarith) (by linarith) (by linarith)
  have dd : ∀ {x x' : IEEE m} {y y' : ℝ}, Near 0 B x y → Near 0 B x' y' →
      Near (1 / 7 / 1048576 * B) (2 * B) (x -ᶠ x' : IEEE m) (y -ᶠ y' : ℝ) := fun h h' => h.sub h' (by linarith) (by linarith) (by linarith)
  have t1 : ∀ {x : IEEE m} {y : ℝ}, Near 0 B x y → Near (1 / 7 / 1048576 * B) (2 * B) (fi 2 *ᶠ x : IEEE m) (fi 2 *ᶠ y : ℝ) := fun h =>
    fi2_near.mul h (by linarith) (by linarith) (by linarith)
  have t2 : ∀ {x : IEEE m} {y : ℝ}, Near (1 / 7 / 1048576 * B) (2 * B) x y → Near (11 / 1048576 * B) (8 * B) (fi 2 *ᶠ x : IEEE m) (fi 2 *ᶠ y : ℝ) := fun h =>
    fi2_near.mul h (by linarith) (by linarith) (by linarith)
  have w1 : ∀ {x : IEEE m} {y : ℝ}, Near (1 / 7 / 1048576 * B) (2 * B) x y → Near (1 / 1048576 * B) (3 * B) (sqrtTwo *ᶠ x : IEEE m) (sqrtTwo *ᶠ y : ℝ) := fun h =>
    sqrtTwo_near.mul h (by linarith) (by linarith) (by linarith)
  have w2 : ∀ {x : IEEE m} {y : ℝ}, Near (1 / 7 / 1048576 * B) (2 * B) x y →
      Near (1 / 1048576 * B) (3 * B) (Arith.neg sqrtTwo *ᶠ x : IEEE m) (Arith.neg sqrtTwo *ᶠ y : ℝ) := fun h =>
    (Near.neg sqrtTwo_near).mul h (by linarith) (by linarith) (by linarith)
  have f2 : ∀ {x x' : IEEE m} {y y' : ℝ}, Near (1 / 7 / 1048576 * B) (2 * B) x y → Near (1 / 7 / 1048576 * B) (2 * B) x' y' →
      Near (11 / 1048576 * B) (8 * B) (x +ᶠ x' : IEEE m) (y +ᶠ y' : ℝ) := fun h h' => h.add h' (by linarith) (by linarith) (by linarith)
  have g2 : ∀ {x x' : IEEE m} {y y' : ℝ}, Near (1 / 7 / 1048576 * B) (2 * B) x y → Near (1 / 7 / 1048576 * B) (2 * B) x' y' →
      Near (11 / 1048576 * B) (8 * B) (x -ᶠ x' : IEEE m) (y -ᶠ y' : ℝ) := fun h h' => h.sub h' (by linarith) (by linarith) (by linarith)
  have g3 : ∀ {x x' : IEEE m} {y y' : ℝ}, Near (1 / 1048576 * B) (3 * B) x y → Near (1 / 1048576 * B) (3 * B) x' y' →
      Near (11 / 1048576 * B) (8 * B) (x -ᶠ x' : IEEE m) (y -ᶠ y' : ℝ) := fun h h' => h.sub h' (by linarith) (by linarith) (by linarith)
  unfold preV
  split
  · exact v4_near (f2 (ss (hc _ _) (hc _ _)) (t1 (hc _ _))) (g2 (dd (hc _ _) (hc _ _)) (t1 (hc _ _))) (g2 (ss (hc _ _) (hc _ _)) (t1 (hc _ _)))
      (f2 (dd (hc _ _) (hc _ _)) (t1 (hc _ _))) b
  · split
    · exact v4_near (t2 (ss (hc _ _) (hc _ _))) (g3 (w1 (dd (hc _ _) (hc _ _))) (w1 (ss (hc _ _) (hc _ _)))) (t2 (dd (hc _ _) (hc _ _)))
        (g3 (w2 (dd (hc _ _) (hc _ _))) (w1 (ss (hc _ _) (hc _ _)))) b
    · split
      · exact transpose_near (fun b => (P _ _ b).1) (fun b => (P _ _ b).1) (fun b => (P _ _ b).1) (fun b => (P _ _ b).1) _ b
      · exact transpose_near (fun b => (P _ _ b).2) (fun b => (P _ _ b).2) (fun b => (P _ _ b).2) (fun b => (P _ _ b).2) _ b

end

/-! ## Passes -/

section
variable {e B : ℝ} (h0 : 0 ≤ e) (hB : 1 / 2 ^ 100 ≤ B) (hb : 1000 * (B + e) ≤ 2 ^ 126) {c w : Int → IEEE m} {d v : Int → ℝ}
  (hc : ∀ i, Near e B (c i) (d i)) (hw : ∀ i, Near (1 / 1048576) 1 (w i) (v i))
include h0 hB hb hc

theorem stepF1_near (l1 : Nat) (w1 w2 w3 : Int) (i : Int) :
    Near (41 / 10 * e + 1 / 1048576 * B) (4 * B) (stepF 1 l1 w w1 w2 w3 c i : IEEE m) (stepF 1 l1 v w1 w2 w3 d i : ℝ) := by
  have hp : 0 ≤ B := le_trans (by positivity) hB
  refine LNear.valAt (by linarith) (by linarith) ?_ i
  unfold passF
  rw [if_pos rfl, if_pos rfl]
  exact (LNear.flatMap _ fun t _ => endsF_near h0 hB (by linarith) hc _ _ _ _).append .nil

theorem stepB1_near (l1 : Nat) (w1 w2 w3 : Int) (i : Int) :
    Near (41 / 10 * e + 1 / 1048576 * B) (4 * B) (stepB 1 l1 w w1 w2 w3 c i : IEEE m) (stepB 1 l1 v w1 w2 w3 d i : ℝ) := by
  have hp : 0 ≤ B := le_trans (by positivity) hB
  refine LNear.valAt (by linarith) (by linarith) ?_ i
  unfold passB
  rw [if_pos rfl, if_pos rfl]
  exact (LNear.flatMap _ fun t _ => endsB_near h0 hB (by linarith) hc _ _ _ _).append .nil

include hw

theorem stepF_near {ido : Nat} (hi : ido ≠ 1) (l1 : Nat) (w1 w2 w3 : Int) (i : Int) :
    Near (71 / 10 * e + 8 / 1048576 * B) (7 * B) (stepF ido l1 w w1 w2 w3 c i : IEEE m) (stepF ido l1 v w1 w2 w3 d i : ℝ) := by
  have hp : 0 ≤ B := le_trans (by positivity) hB
  refine LNear.valAt (by linarith) (by linarith) ?_ i
  unfold passF
  rw [if_neg hi, if_neg hi]
  refine (LNear.flatMap _ fun t _ => (endsF_near h0 hB (by linarith) hc _ _ _ _).mono (by linarith) (by linarith)).append <|
    (LNear.flatMap _ fun t _ => LNear.flatMap _ fun u _ => midF_near h0 hB (by linarith) hc hw _ _ _ _ _ _ _ _).append <|
    LNear.flatMap _ fun t _ => halfF_near h0 hB (by linarith) hc _ _ _

theorem stepB_near {ido : Nat} (hi : ido ≠ 1) (l1 : Nat) (w1 w2 w3 : Int) (i : Int) :
    Near (81 / 10 * e + 11 / 1048576 * B) (8 * B) (stepB ido l1 w w1 w2 w3 c i : IEEE m) (stepB ido l1 v w1 w2 w3 d i : ℝ) := by
  have hp : 0 ≤ B := le_trans (by positivity) hB
  refine LNear.valAt (by linarith) (by linarith) ?_ i
  unfold passB
  rw [if_neg hi, if_neg hi]
  refine (LNear.flatMap _ fun t _ => (endsB_near h0 hB (by linarith) hc _ _ _ _).mono (by linarith) (by linarith)).append <|
    (LNear.flatMap _ fun t _ => LNear.flatMap _ fun u _ => midB_near h0 hB (by linarith) hc hw hb _ _ _ _ _ _ _ _).append <|
    LNear.flatMap _ fun t _ => halfB_near h0 hB (by linarith) hc _ _ _
end

/-! ## Whole transforms -/

theorem pack_near {e B : ℝ} {c : Int → IEEE m} {d : Int → ℝ} (h : ∀ i, Near e B (c i) (d i)) : VNear e B (packV c) (packV d) := fun _ b =>
  v4_near (h _) (h _) (h _) (h _) b

theorem zB_at {α : Type} (c : Int → Vec4 α) (v : Int) (b : Fin 4) : zB c v b = fl c (zB (vecs fun a : Int => a) v b) := by
  have e := zB_map (fl c) (vecs fun a : Int => a) v b
  have h : (fun a : Int => lmap (fl c) (vecs (fun a : Int => a) a)) = c := vecs_fl c
  rw [h] at e
  exact e.symm

theorem passesFV_near (hcos : CosAcc m) (hsin : SinAcc m) {B : ℝ} (hB : 1 / 2 ^ 100 ≤ B) (hb : B ≤ 2 ^ 100) {c : Int → IEEE m} {d : Int → ℝ}
    (hc : ∀ i, Near 0 B (c i) (d i)) (i : Int) : Near (502 / 1048576 * B) (196 * B) (passesF tw64 c i : IEEE m) (passesF tw64 d i : ℝ) := by
  have hp : 0 ≤ B := le_trans (by positivity) hB
  have hb' : 1000000 * B ≤ 2 ^ 126 := le_trans (mul_le_mul_of_nonneg_left hb (by norm_num)) (by norm_num)
  have w := tw64_near hcos hsin
  have s1 := stepF1_near (e := 0) (B := B) (le_refl _) hB (by linarith) hc (w := tw64) (v := tw64) 16 60 61 62
  have s2 := stepF_near (e := 1 / 1048576 * B) (B := 4 * B) (by linarith) (by linarith) (by linarith)
    (fun i => (s1 i).mono (by linarith) (by linarith)) w (ido := 4) (by decide) 4 48 52 56
  have s3 := stepF_near (e := 39.1 / 1048576 * B) (B := 28 * B) (by linarith) (by linarith) (by linarith)
    (fun i => (s2 i).mono (by linarith) (by linarith)) w (ido := 16) (by decide) 1 0 16 32
  exact (s3 i).mono (by linarith) (by linarith)

theorem passesBV_near (hcos : CosAcc m) (hsin : SinAcc m) {B : ℝ} (hB : 1 / 2 ^ 100 ≤ B) (hb : B ≤ 2 ^ 100) {c : Int → IEEE m} {d : Int → ℝ}
    (hc : ∀ i, Near (11 / 1048576 * B) (8 * B) (c i) (d i)) (i : Int) : Near (B / 100) (2048 * B) (passesB tw64 c i : IEEE m) (passesB tw64 d i : ℝ) := by
  have hp : 0 ≤ B := le_trans (by positivity) hB
  have hb' : 1000000 * B ≤ 2 ^ 126 := le_trans (mul_le_mul_of_nonneg_left hb (by norm_num)) (by norm_num)
  have w := tw64_near hcos hsin
  have s1 := stepB_near (e := 11 / 1048576 * B) (B := 8 * B) (by linarith) (by linarith) (by linarith) hc w (ido := 16) (by decide) 1 0 16 32
  have s2 := stepB_near (e := 178 / 1048576 * B) (B := 64 * B) (by linarith) (by linarith) (by linarith)
    (fun i => (s1 i).mono (by linarith) (by linarith)) w (ido := 4) (by decide) 4 48 52 56
  have s3 := stepB1_near (e := 2146 / 1048576 * B) (B := 512 * B) (by linarith) (by linarith) (by linarith)
    (fun i => (s2 i).mono (by linarith) (by linarith)) (w := tw64) (v := tw64) 16 60 61 62
  exact (s3 i).mono (by linarith) (by linarith)

/-- Both transforms on vectors in binary32 against the exact ones. -/
theorem outV_near (hcos : CosAcc m) (hsin : SinAcc m) {B : ℝ} (hB : 1 / 2 ^ 100 ≤ B) (hb : B ≤ 2 ^ 100) {a : Arr 256 (IEEE m)} {b : Arr 256 ℝ}
    (h : ∀ j, Near 0 B (a j) (b j)) (j : Fin 256) :
    Near (B / 200) (1372 * B) (outFV a j) (outFV b j) ∧ Near (B / 100) (2048 * B) (outBV a j) (outBV b j) := by
  have hp : 0 ≤ B := le_trans (by positivity) hB
  have hb' : 1000000 * B ≤ 2 ^ 126 := le_trans (mul_le_mul_of_nonneg_left hb (by norm_num)) (by norm_num)
  have hx := ext_near hp h
  have hj := j.isLt
  have he : VNear (1 / 1048576) 1 (eV : Int → Vec4 (IEEE m)) (eV : Int → Vec4 ℝ) := pack_near (eTab_near hcos hsin)
  have hpk := pack_near hx
  constructor
  · have k : VNear (502 / 1048576 * B) (196 * B) (passesF twV (packV (ext a))) (passesF twV (packV (ext b))) := by
      intro i t
      have e1 := congrFun (passesF_lane (packV (ext a)) t) i
      have e2 := congrFun (passesF_lane (packV (ext b)) t) i
      rw [e1, e2]
      exact passesFV_near hcos hsin hB hb (fun i => hpk i t) i
    have f := finV_near (e := 502 / 1048576 * B) (B := 196 * B) (by linarith) (by linarith) (by linarith) k he
    show Near _ _ (fl (zF (finV (passesF twV (packV (ext a))) eV)) (j.val : Int)) (fl (zF (finV (passesF twV (packV (ext b))) eV)) (j.val : Int))
    rw [fl_zF _ (by omega) (by omega), fl_zF _ (by omega) (by omega)]
    exact (f _ _).mono (by linarith) (by linarith)
  · have hz : VNear 0 B (zB (packV (ext a))) (zB (packV (ext b))) := by
      intro v t
      rw [zB_at (packV (ext a)), zB_at (packV (ext b))]
      exact hpk _ _
    have p := preV_near hB (by linarith) hz he
    have k : VNear (B / 100) (2048 * B) (passesB twV (preV (zB (packV (ext a))) eV)) (passesB twV (preV (zB (packV (ext b))) eV)) := by
      intro i t
      have e1 := congrFun (passesB_lane (preV (zB (packV (ext a))) eV) t) i
      have e2 := congrFun (passesB_lane (preV (zB (packV (ext b))) eV) t) i
      rw [e1, e2]
      exact passesBV_near hcos hsin hB hb (fun i => p i t) i
    exact k _ _

end Verif.Model.Vec
