import Verif.Spec.Finite
import Verif.Lemmas.FinRot
import Verif.Lemmas.Smooth
import Verif.Lemmas.SynthSafe
import Verif.Lemmas.SynthFrame

/-!
# The spectral enhancement of moderate amplitudes is finite
-/

namespace Verif.Model
open Verif Verif.Gen Verif.Spec Verif.Num Arith
variable {m : Libm}

theorem one_val : Val (lit 1 1 : IEEE m) 1 := by
  have : Val (lit 1 1 : IEEE libm0) 1 := ⟨false, by decide +kernel⟩
  exact this

/-- No harmonic of the fundamental is near a multiple of pi. -/
def PitchOk (w : ℚ) (L : Int) : Prop := ∀ l : Nat, 1 ≤ l → (l : Int) ≤ L → |Real.cos (l * (w : ℝ))| ≤ 1 - 1 / 900

theorem cosTab_val (hm : TrigAcc m) {w : IEEE m} {q : ℚ} (hw : Val w q) (hq : |q| ≤ pow2 26) {L : Int} (hL : L ≤ 56)
    (hp : PitchOk q L) : Ok (cosTab w L) fun ct => ∀ l : Fin 57, 1 ≤ l.val → (l.val : Int) ≤ L →
      ∃ (c : IEEE m) (r : ℚ), ct l = some c ∧ Val c r ∧ |r| ≤ 1999 / 2000 := by
  obtain ⟨pc, hc1, hc2⟩ := hm.cos w q hw hq
  obtain ⟨ps, hs1, hs2⟩ := hm.sin w q hw hq
  have hc1 : Val (cos w : IEEE m) pc := hc1
  have hs1 : Val (sin w : IEEE m) ps := hs1
  have h1c : Val (lit 1 1 : IEEE m) 1 := one_val
  have h0c : Val (lit 0 1 : IEEE m) 0 := ⟨false, rfl⟩
  have z1 : ‖(1 : ℂ)‖ ≤ 5 / 4 := by rw [norm_one]; norm_num
  unfold cosTab
  dsimp only
  generalize hcs : (cos w : IEEE m) = cs at *
  generalize hss : (sin w : IEEE m) = ss at *
  refine Ok.bind (P := fun s : Loc 57 (IEEE m) × IEEE m × IEEE m => ∀ l : Fin 57, 1 ≤ l.val → (l.val : Int) ≤ L →
      ∃ (c : IEEE m) (r : ℚ), s.1 l = some c ∧ Val c r ∧ |r| ≤ 1999 / 2000) ?_ fun s hs => Ok.ok hs
  unfold loopTo
  by_cases h0 : L ≤ 0
  · have : L.toNat = 0 := by omega
    rw [this]
    exact Ok.ok fun l h1 h2 => by omega
  · refine (loopFT_inv (lo := 1) (hi := L.toNat) (fun k (s : Loc 57 (IEEE m) × IEEE m × IEEE m) =>
      (∀ l : Fin 57, 1 ≤ l.val → l.val < k → ∃ (c : IEEE m) (r : ℚ), s.1 l = some c ∧ Val c r ∧ |r| ≤ 1999 / 2000) ∧
      Rot q 1 (k - 1) s.2.1 s.2.2) (by omega) ⟨by intro l _ _; omega, ?_⟩ ?_).mono ?_
    · refine ⟨1, 0, h1c, h0c, ?_⟩
      have : (⟨((1 : ℚ) : ℝ), ((0 : ℚ) : ℝ)⟩ : ℂ) = 1 := by apply Complex.ext <;> simp
      rw [this]
      simp
    · intro i h1 h2 s hs
      obtain ⟨hs, hr⟩ := hs
      have hr' := Rot.step z1 (by omega) hr hc1 hs1 hc2 hs2
      rw [show i - 1 + 1 = i by omega] at hr'
      rw [Loc.wr_nat (by omega), ok_bind]
      refine Ok.ok ⟨fun l a b => ?_, by simpa using hr'⟩
      by_cases e : l.val = i
      · dsimp only
        rw [Arr.set_same e]
        obtain ⟨x, y, hx, hy, hxy⟩ := hr'
        refine ⟨_, x, rfl, hx, ?_⟩
        have hre := (Complex.abs_re_le_norm _).trans hxy
        have e2 : ((⟨(x : ℝ), (y : ℝ)⟩ : ℂ) - 1 * Complex.exp ((i : ℂ) * ((q : ℝ) : ℂ) * Complex.I)).re = (x : ℝ) - Real.cos (i * (q : ℝ)) := by
          have := Complex.exp_ofReal_mul_I_re ((i : ℝ) * (q : ℝ))
          push_cast at this
          simp only [one_mul, Complex.sub_re]
          push_cast
          rw [this]
        rw [e2] at hre
        have hi : (i : ℝ) ≤ 56 := by have : i ≤ 56 := by omega
                                     exact_mod_cast this
        have hcos := hp i h1 (by omega)
        have := abs_sub_abs_le_abs_sub (x : ℝ) (Real.cos (i * (q : ℝ)))
        have : |(x : ℝ)| ≤ ((1999 / 2000 : ℚ) : ℝ) := by
          push_cast
          linarith
        exact_mod_cast this
      · dsimp only; rw [Arr.set_ne e]; exact hs l a (by omega)
    · intro s hs l a b
      exact hs.1 l a (by omega)

/-! ## Sums -/

/-- One addition: `Q` and `P` are the exact sums of the terms and of their bounds. -/
theorem sumMl_step {x y : IEEE m} {k : Nat} {q Q P v w u : ℚ} (hk : k ≤ 56) (hx : Val x q) (hq : |q - Q| ≤ k * (P / 4194304 + 1 / 2 ^ 140))
    (hP : 0 ≤ P) (hQ : |Q| ≤ P) (hy : Val y v) (hv : |v - w| ≤ u / 16777216 + pow2 (-150)) (hw : |w| ≤ u) (hb : P + u ≤ 2 ^ 100) :
    ∃ q', Val (x +ᶠ y : IEEE m) q' ∧ |q' - (Q + w)| ≤ ((k + 1 : Nat) : ℚ) * ((P + u) / 4194304 + 1 / 2 ^ 140) := by
  have hu : 0 ≤ u := (abs_nonneg _).trans hw
  have hk' : (k : ℚ) ≤ 56 := by exact_mod_cast hk
  have hk0 : (0 : ℚ) ≤ k := by positivity
  have t : pow2 (-150) ≤ 1 / 2 ^ 149 := by rw [pow2_eq]; norm_num
  obtain ⟨τ, hτ⟩ : ∃ τ : ℚ, τ = 1 / 2 ^ 140 := ⟨_, rfl⟩
  rw [← hτ] at hq ⊢
  have hτ0 : 0 < τ := by rw [hτ]; positivity
  have t' : pow2 (-150) ≤ τ / 512 := t.trans (by rw [hτ]; norm_num)
  have hB : (k : ℚ) * (P / 4194304 + τ) ≤ 56 * (P / 4194304 + τ) := mul_le_mul_of_nonneg_right hk' (by positivity)
  have hs : |q + v| ≤ 2 * (P + u) + 60 * τ := by
    have h1 := abs_le.1 hq
    have h2 := abs_le.1 hQ
    have h3 := abs_le.1 hv
    have h4 := abs_le.1 hw
    rw [abs_le]
    constructor <;> linarith
  have hτ1 : τ ≤ 1 := by rw [hτ]; norm_num
  obtain ⟨r, hr, he⟩ := hx.addE hy (hs.trans (le_trans (by linarith) (le_trans (by norm_num : (2 : ℚ) * 2 ^ 100 + 60 ≤ 2 ^ 127) big_ge)))
  refine ⟨r, hr, ?_⟩
  rw [p24] at he
  have g : (k : ℚ) * (P / 4194304 + τ) ≤ k * ((P + u) / 4194304 + τ) := mul_le_mul_of_nonneg_left (by linarith) hk0
  have e : ((k + 1 : Nat) : ℚ) * ((P + u) / 4194304 + τ) = k * ((P + u) / 4194304 + τ) + ((P + u) / 4194304 + τ) := by push_cast; ring
  rw [e]
  have he' : |r - (q + v)| ≤ (2 * (P + u) + 60 * τ) / 16777216 + τ / 512 := by linarith
  have h1 := abs_le.1 hq
  have h3 := abs_le.1 hv
  have h5 := abs_le.1 he'
  rw [abs_le]
  constructor <;> linarith

/-- The state of the two sums after the bands before `k`. -/
def SumInv (L : Nat) (a : Nat → ℚ) (M : ℚ) (k : Nat) (x y : FP) : Prop :=
  ∃ P Q q0 q1 : ℚ, Val x q0 ∧ Val y q1 ∧ 0 ≤ P ∧ |Q| ≤ 1999 / 2000 * P ∧ P ≤ (k - 1 : Nat) * (M * M * (1 + 1 / 16777216) + pow2 (-150)) ∧
    (∀ j, 1 ≤ j → j < k → a j * a j * (1 - 1 / 16777216) - pow2 (-150) ≤ P) ∧
    |q0 - P| ≤ (k - 1 : Nat) * (P / 4194304 + 1 / 2 ^ 140) ∧ |q1 - Q| ≤ (k - 1 : Nat) * (P / 4194304 + 1 / 2 ^ 140)

/-- `Rm0` and `Rm1` against the largest amplitude `M`. -/
theorem rm01_val {L : Int} (hL : L ≤ 56) (h0 : 1 ≤ L) {Ml : Arr 57 (IEEE m)} {ct : Loc 57 (IEEE m)} {a : Nat → ℚ} {M : ℚ} (hM0 : 1 / 1024 ≤ M)
    (hM1 : M ≤ 2 ^ 27) (ha : ∀ l : Fin 57, 1 ≤ l.val → (l.val : Int) ≤ L → Val (Ml l) (a l.val) ∧ 0 ≤ a l.val ∧ a l.val ≤ M)
    {k : Nat} (hk1 : 1 ≤ k) (hk2 : (k : Int) ≤ L) (hk : a k = M)
    (hc : ∀ l : Fin 57, 1 ≤ l.val → (l.val : Int) ≤ L → ∃ (c : IEEE m) (r : ℚ), ct l = some c ∧ Val c r ∧ |r| ≤ 1999 / 2000) :
    Ok (rm01 L Ml ct) fun s => ∃ q0 q1 : ℚ, Val s.1 q0 ∧ Val s.2 q1 ∧ M * M * (99 / 100) ≤ q0 ∧ q0 ≤ 57 * (M * M) ∧ |q1| ≤ 4095 / 4096 * q0 := by
  have hMM : (1 : ℚ) / 2 ^ 20 ≤ M * M := by
    have := mul_le_mul hM0 hM0 (by norm_num) (by linarith)
    exact le_trans (by norm_num) this
  have hMM2 : M * M ≤ 2 ^ 54 := by
    have := mul_le_mul hM1 hM1 (by linarith) (by norm_num)
    exact this.trans (by norm_num)
  have t : pow2 (-150) ≤ 1 / 2 ^ 100 := p150
  have t0 := pow2_pos (-150)
  unfold rm01 loopTo
  have h0c : Val (lit 0 1 : IEEE m) 0 := ⟨false, rfl⟩
  refine (loopFT_inv (lo := 1) (hi := L.toNat) (fun k (s : IEEE m × IEEE m) => SumInv L.toNat a M k s.1 s.2) (by omega) ?_ ?_).mono ?_
  · exact ⟨0, 0, 0, 0, h0c, h0c, le_rfl, by simp, by simp, fun j h1 h2 => by omega, by simp, by simp⟩
  · intro i h1 h2 s hs
    obtain ⟨P, Q, q0, q1, v0, v1, hP, hQ, hPM, hmax, e0, e1⟩ := hs
    obtain ⟨ha1, ha2, ha3⟩ := ha ⟨i, by omega⟩ h1 (by show (i : Int) ≤ L; omega)
    obtain ⟨c, r, hc1, hc2, hc3⟩ := hc ⟨i, by omega⟩ h1 (by show (i : Int) ≤ L; omega)
    dsimp only at ha1 ha2 ha3
    rw [Arr.rd_nat (show i < 57 by omega), ok_bind, Loc.rd_nat (show i < 57 by omega) hc1, ok_bind]
    have haa : a i * a i ≤ M * M := mul_le_mul ha3 ha3 ha2 (by linarith)
    have haa0 : 0 ≤ a i * a i := mul_nonneg ha2 ha2
    obtain ⟨u, hu1, hu2⟩ := ha1.mulE ha1 (by rw [abs_of_nonneg haa0]; exact (haa.trans hMM2).trans (le_trans (by norm_num) big_ge))
    have hu0 : 0 ≤ u := by
      have := ha1.mul ha1 (by rw [abs_of_nonneg haa0]; exact (haa.trans hMM2).trans (le_trans (by norm_num) big_ge))
      rw [hu1.unique this]
      exact rnd_nonneg haa0
    rw [p24, abs_of_nonneg haa0] at hu2
    have hu3 := abs_le.1 hu2
    have huM : u ≤ M * M * (1 + 1 / 16777216) + pow2 (-150) := by linarith
    have hu55 : u ≤ 2 ^ 55 := by
      have : (1 : ℚ) / 2 ^ 100 ≤ 1 := by norm_num
      have : (2 : ℚ) ^ 54 * (1 + 1 / 16777216) + 1 ≤ 2 ^ 55 := by norm_num
      linarith
    have hur : |u * r| ≤ u := by
      rw [abs_mul, abs_of_nonneg hu0]
      calc u * |r| ≤ u * 1 := mul_le_mul_of_nonneg_left (by linarith) hu0
        _ = u := mul_one u
    have hur' : |u * r| ≤ 1999 / 2000 * u := by
      rw [abs_mul, abs_of_nonneg hu0]
      calc u * |r| ≤ u * (1999 / 2000) := mul_le_mul_of_nonneg_left hc3 hu0
        _ = 1999 / 2000 * u := mul_comm _ _
    obtain ⟨v, hv1, hv2⟩ := hu1.mulE hc2 (hur.trans (hu55.trans (le_trans (by norm_num) big_ge)))
    rw [p24] at hv2
    have ik : i - 1 ≤ 56 := by omega
    have hP62 : P ≤ 2 ^ 62 := by
      have e : ((i - 1 : Nat) : ℚ) ≤ 56 := by exact_mod_cast ik
      have : ((i - 1 : Nat) : ℚ) * (M * M * (1 + 1 / 16777216) + pow2 (-150)) ≤ 56 * 2 ^ 55 :=
        mul_le_mul e (by
          have : (1 : ℚ) / 2 ^ 100 ≤ 1 := by norm_num
          have : (2 : ℚ) ^ 54 * (1 + 1 / 16777216) + 1 ≤ 2 ^ 55 := by norm_num
          linarith) (by positivity) (by norm_num)
      linarith
    have hPu : P + u ≤ 2 ^ 100 := by
      have : (2 : ℚ) ^ 62 + 2 ^ 55 ≤ 2 ^ 100 := by norm_num
      linarith
    obtain ⟨q0', w0, f0⟩ := sumMl_step ik v0 e0 hP (by rw [abs_of_nonneg hP]) hu1 (w := u) (u := u) (by
      rw [sub_self, abs_zero]; positivity) (by rw [abs_of_nonneg hu0]) hPu
    obtain ⟨q1', w1, f1⟩ := sumMl_step ik v1 e1 hP (by linarith) hv1 (w := u * r) (u := u) (by
      linarith) hur hPu
    rw [show i - 1 + 1 = i by omega] at f0 f1
    refine Ok.ok ⟨P + u, Q + u * r, q0', q1', w0, w1, by linarith, ?_, ?_, ?_, f0, f1⟩
    · refine (abs_add_le _ _).trans ?_
      linarith
    · have : ((i + 1 - 1 : Nat) : ℚ) = ((i - 1 : Nat) : ℚ) + 1 := by
        rw [show i + 1 - 1 = i - 1 + 1 by omega]; push_cast; ring
      rw [this]
      linarith
    · intro j hj1 hj2
      by_cases c : j = i
      · subst c; linarith
      · have := hmax j hj1 (by omega)
        linarith
  · rintro s ⟨P, Q, q0, q1, v0, v1, hP, hQ, hPM, hmax, e0, e1⟩
    refine ⟨q0, q1, v0, v1, ?_⟩
    have hm := hmax k hk1 (by omega)
    rw [hk] at hm
    have e : ((L.toNat + 1 - 1 : Nat) : ℚ) ≤ 56 := by
      have : L.toNat + 1 - 1 ≤ 56 := by omega
      exact_mod_cast this
    have small : (1 : ℚ) / 2 ^ 100 ≤ 1 / 2 ^ 20 / 2 ^ 40 := by norm_num
    have small2 : (1 : ℚ) / 2 ^ 140 ≤ 1 / 2 ^ 20 / 2 ^ 40 := by norm_num
    generalize M * M = X at *
    have hP1 : X * (999 / 1000) ≤ P := by
      have : (1 : ℚ) / 2 ^ 40 * (1 / 2 ^ 20) ≤ 1 / 2 ^ 40 * X := mul_le_mul_of_nonneg_left hMM (by norm_num)
      linarith
    have hP2 : P ≤ 565 / 10 * X := by
      have : ((L.toNat + 1 - 1 : Nat) : ℚ) * (X * (1 + 1 / 16777216) + pow2 (-150)) ≤ 56 * (X * (1 + 1 / 16777216) + pow2 (-150)) :=
        mul_le_mul_of_nonneg_right e (by positivity)
      have : (1 : ℚ) / 2 ^ 40 * (1 / 2 ^ 20) ≤ 1 / 2 ^ 40 * X := mul_le_mul_of_nonneg_left hMM (by norm_num)
      linarith
    have hE : ((L.toNat + 1 - 1 : Nat) : ℚ) * (P / 4194304 + 1 / 2 ^ 140) ≤ P / 65536 := by
      have : ((L.toNat + 1 - 1 : Nat) : ℚ) * (P / 4194304 + 1 / 2 ^ 140) ≤ 56 * (P / 4194304 + 1 / 2 ^ 140) :=
        mul_le_mul_of_nonneg_right e (by positivity)
      have : (1 : ℚ) / 2 ^ 40 * (1 / 2 ^ 20) ≤ 1 / 2 ^ 40 * X := mul_le_mul_of_nonneg_left hMM (by norm_num)
      linarith
    have a0 := abs_le.1 (e0.trans hE)
    have a1 := abs_le.1 (e1.trans hE)
    have aQ := abs_le.1 hQ
    refine ⟨by linarith, by linarith, ?_⟩
    rw [abs_le]
    constructor <;> linarith

/-! ## Weights -/

/-- Decides that a datum is a number in a range. -/
def rngB : FP → ℚ → ℚ → Bool
  | .fin _ q, a, b => decide (a ≤ q ∧ q ≤ b)
  | _, _, _ => false

theorem rng_of {x : FP} {a b : ℚ} (h : rngB x a b = true) : ∃ q, Val x q ∧ a ≤ q ∧ q ≤ b := by
  cases x with
  | fin s q => exact ⟨q, ⟨s, rfl⟩, of_decide_eq_true h⟩
  | nan => cases h
  | inf s => cases h

theorem enhK0 : rngB ((toF (dlit 96 100) *ᶠ fpi) : IEEE libm0) 3 4 = true := by decide +kernel
theorem enhK : ∃ q, Val ((toF (dlit 96 100) *ᶠ fpi) : IEEE m) q ∧ 3 ≤ q ∧ q ≤ 4 := rng_of enhK0

theorem rel_of {x y X : ℚ} (hX : 1 / 2 ^ 60 ≤ X) {c : ℚ} (hc : 0 ≤ c) (hy : |y| ≤ c * X) (h : |x - y| ≤ pow2 (-24) * |y| + pow2 (-150)) :
    |x - y| ≤ (c / 2 ^ 24 + 1 / 2 ^ 40) * X := by
  have t := p150
  rw [p24] at h
  have : (1 : ℚ) / 2 ^ 40 * (1 / 2 ^ 60) ≤ 1 / 2 ^ 40 * X := mul_le_mul_of_nonneg_left hX (by norm_num)
  have e : (1 : ℚ) / 2 ^ 100 = 1 / 2 ^ 40 * (1 / 2 ^ 60) := by norm_num
  have e2 : (1 : ℚ) / 16777216 = 1 / 2 ^ 24 := by norm_num
  have : 1 / 2 ^ 24 * |y| ≤ 1 / 2 ^ 24 * (c * X) := mul_le_mul_of_nonneg_left hy (by norm_num)
  rw [e2] at h
  linarith

theorem enhNum_val {rm0 rm1 : IEEE m} {q0 q1 : ℚ}
    (h0 : Val rm0 q0) (h01 : 1 / 2 ^ 21 ≤ q0) (h02 : q0 ≤ 2 ^ 60) (h1 : Val rm1 q1) (h11 : |q1| ≤ 4095 / 4096 * q0)
    {c : IEEE m} {r : ℚ} (hc : Val c r) (hr : |r| ≤ 1999 / 2000) :
    ∃ N, Val (((toF (dlit 96 100) *ᶠ fpi) *ᶠ (((rm0 *ᶠ rm0) +ᶠ (rm1 *ᶠ rm1)) -ᶠ (((ofInt 2 *ᶠ rm0) *ᶠ rm1) *ᶠ c))) : IEEE m) N ∧
      0 ≤ N ∧ N ≤ 173 / 10 * (q0 * q0) := by
  have q0p : 0 < q0 := lt_of_lt_of_le (by norm_num) h01
  obtain ⟨X, hX⟩ : ∃ X, X = q0 * q0 := ⟨_, rfl⟩
  have hX1 : 1 / 2 ^ 60 ≤ X := by
    rw [hX]
    exact le_trans (by norm_num) (mul_le_mul h01 h01 (by norm_num) q0p.le)
  have hX2 : X ≤ 2 ^ 120 := by
    rw [hX]
    exact (mul_le_mul h02 h02 q0p.le (by norm_num)).trans (by norm_num)
  have hX0 : 0 < X := lt_of_lt_of_le (by norm_num) hX1
  have hz : |q0 * q1| ≤ X := by
    rw [abs_mul, abs_of_pos q0p, hX]
    exact mul_le_mul_of_nonneg_left (by linarith) q0p.le
  have hy0 : 0 ≤ q1 * q1 := mul_self_nonneg _
  have hy : q1 * q1 ≤ (4095 / 4096) ^ 2 * X := by
    rw [← abs_mul_abs_self q1, hX]
    have := mul_le_mul h11 h11 (abs_nonneg _) (by positivity)
    linarith
  have hr2 : |r| ≤ 1 := by linarith
  have hN : 1 / 1001 * X ≤ X + q1 * q1 - 2 * (q0 * q1) * r := by
    have s := mul_self_nonneg (q1 - q0 * r)
    have rr : r * r ≤ (1999 / 2000) * (1999 / 2000) := by
      rw [← abs_mul_abs_self r]
      exact mul_le_mul hr hr (abs_nonneg _) (by norm_num)
    have : X * (r * r) ≤ X * ((1999 / 2000) * (1999 / 2000)) := mul_le_mul_of_nonneg_left rr hX0.le
    have e : X * (r * r) = q0 * q0 * (r * r) := by rw [hX]
    nlinarith
  have hB := big_ge
  -- squares
  obtain ⟨r20, v20, e20⟩ := h0.mulE h0 (by rw [← hX, abs_of_pos hX0]; linarith [(by norm_num : (2 : ℚ) ^ 120 ≤ 2 ^ 127)])
  rw [← hX] at e20
  have e20' := rel_of hX1 (c := 1) (by norm_num) (by rw [abs_of_pos hX0, one_mul]) e20
  obtain ⟨r21, v21, e21⟩ := h1.mulE h1 (by
    rw [abs_of_nonneg hy0]; linarith [(by norm_num : (2 : ℚ) ^ 120 ≤ 2 ^ 127)])
  have e21' := rel_of hX1 (c := 1) (by norm_num) (by rw [abs_of_nonneg hy0]; linarith) e21
  have a20 := abs_le.1 e20'
  have a21 := abs_le.1 e21'
  have two : Val (ofInt 2 : IEEE m) 2 := by simpa using Val.ofInt (m := m) (n := 2) (by norm_num)
  -- numerator
  have bA : |r20 + r21| ≤ 21 / 10 * X := by rw [abs_le]; constructor <;> linarith
  obtain ⟨A, vA, eA⟩ := v20.addE v21 (bA.trans (by linarith [(by norm_num : (21 : ℚ) / 10 * 2 ^ 120 ≤ 2 ^ 127)]))
  have aA := abs_le.1 (rel_of hX1 (by norm_num) bA eA)
  obtain ⟨b1, vb1, eb1⟩ := two.mulE h0 (by
    rw [abs_of_pos (by linarith)]; linarith [(by norm_num : (2 : ℚ) * 2 ^ 60 ≤ 2 ^ 127)])
  have eb1' := rel_of (X := q0) (le_trans (by norm_num) h01) (c := 2) (by norm_num) (by rw [abs_of_pos (by linarith)]) eb1
  have hb1z : |b1 * q1 - 2 * (q0 * q1)| ≤ (2 / 2 ^ 24 + 1 / 2 ^ 40) * X := by
    have : b1 * q1 - 2 * (q0 * q1) = (b1 - 2 * q0) * q1 := by ring
    rw [this, abs_mul]
    have hq1 : |q1| ≤ q0 := by linarith
    calc |b1 - 2 * q0| * |q1| ≤ ((2 / 2 ^ 24 + 1 / 2 ^ 40) * q0) * q0 := mul_le_mul eb1' hq1 (abs_nonneg _) (by positivity)
      _ = (2 / 2 ^ 24 + 1 / 2 ^ 40) * X := by rw [hX]; ring
  have az := abs_le.1 hz
  have ab1 := abs_le.1 hb1z
  have bb2 : |b1 * q1| ≤ 201 / 100 * X := by rw [abs_le]; constructor <;> linarith
  obtain ⟨b2, vb2, eb2⟩ := vb1.mulE h1 (bb2.trans (by linarith [(by norm_num : (201 : ℚ) / 100 * 2 ^ 120 ≤ 2 ^ 127)]))
  have ab2 := abs_le.1 (rel_of hX1 (by norm_num) bb2 eb2)
  have bb2' : |b2| ≤ 202 / 100 * X := by
    have := abs_le.1 bb2
    rw [abs_le]; constructor <;> linarith
  have bb3 : |b2 * r| ≤ 202 / 100 * X := by
    rw [abs_mul]
    calc |b2| * |r| ≤ |b2| * 1 := mul_le_mul_of_nonneg_left hr2 (abs_nonneg _)
      _ ≤ 202 / 100 * X := by rw [mul_one]; exact bb2'
  obtain ⟨b3, vb3, eb3⟩ := vb2.mulE hc (bb3.trans (by linarith [(by norm_num : (202 : ℚ) / 100 * 2 ^ 120 ≤ 2 ^ 127)]))
  have ab3 := abs_le.1 (rel_of hX1 (by norm_num) bb3 eb3)
  have hb2r : |b2 * r - 2 * (q0 * q1) * r| ≤ 5 / 2 ^ 24 * X := by
    have : b2 * r - 2 * (q0 * q1) * r = (b2 - 2 * (q0 * q1)) * r := by ring
    rw [this, abs_mul]
    have h : |b2 - 2 * (q0 * q1)| ≤ 5 / 2 ^ 24 * X := by rw [abs_le]; constructor <;> linarith
    calc |b2 - 2 * (q0 * q1)| * |r| ≤ |b2 - 2 * (q0 * q1)| * 1 := mul_le_mul_of_nonneg_left hr2 (abs_nonneg _)
      _ ≤ 5 / 2 ^ 24 * X := by rw [mul_one]; exact h
  have ab2r := abs_le.1 hb2r
  have bb3v := abs_le.1 bb3
  have bD : |A - b3| ≤ 42 / 10 * X := by rw [abs_le]; constructor <;> linarith
  obtain ⟨D, vD, eD⟩ := vA.subE vb3 (bD.trans (by linarith [(by norm_num : (42 : ℚ) / 10 * 2 ^ 120 ≤ 2 ^ 127)]))
  have aD := abs_le.1 (rel_of hX1 (by norm_num) bD eD)
  have aDb := abs_le.1 bD
  have D1 : 1 / 1002 * X ≤ D := by linarith
  have D2 : D ≤ 43 / 10 * X := by linarith
  obtain ⟨K, vK, K1, K2⟩ := enhK (m := m)
  have D0 : 0 ≤ D := le_trans (by positivity) D1
  have KD0 : 0 ≤ K * D := mul_nonneg (by linarith) D0
  have KD : K * D ≤ 172 / 10 * X := by
    calc K * D ≤ 4 * (43 / 10 * X) := mul_le_mul K2 D2 D0 (by norm_num)
      _ = 172 / 10 * X := by ring
  have KDb : |K * D| ≤ Val.big := by
    rw [abs_of_nonneg KD0]; linarith [(by norm_num : (172 : ℚ) / 10 * 2 ^ 120 ≤ 2 ^ 127)]
  have vN := vK.mul vD KDb
  have N0 : 0 ≤ rnd F32 (K * D) := rnd_nonneg KD0
  have N1 : rnd F32 (K * D) ≤ 173 / 10 * X := by
    have := abs_le.1 (rel_of hX1 (c := 172 / 10) (by norm_num) (by rw [abs_of_nonneg KD0]; exact KD) (rnd32_err (K * D)))
    linarith
  rw [← hX]
  exact ⟨_, vN, N0, N1⟩

theorem enhDen_val {rm0 rm1 : IEEE m} {q0 q1 : ℚ}
    (h0 : Val rm0 q0) (h01 : 1 / 2 ^ 21 ≤ q0) (h02 : q0 ≤ 2 ^ 60) (h1 : Val rm1 q1) (h11 : |q1| ≤ 4095 / 4096 * q0)
    {w0 : IEEE m} {w : ℚ} (hw : Val w0 w) (w1 : 1 / 32 ≤ w) (w2 : w ≤ 1) :
    ∃ d1 d2, Val (w0 *ᶠ rm0 : IEEE m) d1 ∧ Val ((rm0 *ᶠ rm0) -ᶠ (rm1 *ᶠ rm1) : IEEE m) d2 ∧ 1 / 72600 * (q0 * (q0 * q0)) ≤ d1 * d2 := by
  have q0p : 0 < q0 := lt_of_lt_of_le (by norm_num) h01
  obtain ⟨X, hX⟩ : ∃ X, X = q0 * q0 := ⟨_, rfl⟩
  have hX1 : 1 / 2 ^ 60 ≤ X := by
    rw [hX]
    exact le_trans (by norm_num) (mul_le_mul h01 h01 (by norm_num) q0p.le)
  have hX2 : X ≤ 2 ^ 120 := by
    rw [hX]
    exact (mul_le_mul h02 h02 q0p.le (by norm_num)).trans (by norm_num)
  have hX0 : 0 < X := lt_of_lt_of_le (by norm_num) hX1
  have hz : |q0 * q1| ≤ X := by
    rw [abs_mul, abs_of_pos q0p, hX]
    exact mul_le_mul_of_nonneg_left (by linarith) q0p.le
  have hy0 : 0 ≤ q1 * q1 := mul_self_nonneg _
  have hy : q1 * q1 ≤ (4095 / 4096) ^ 2 * X := by
    rw [← abs_mul_abs_self q1, hX]
    have := mul_le_mul h11 h11 (abs_nonneg _) (by positivity)
    linarith
  have hB := big_ge
  -- squares
  obtain ⟨r20, v20, e20⟩ := h0.mulE h0 (by rw [← hX, abs_of_pos hX0]; linarith [(by norm_num : (2 : ℚ) ^ 120 ≤ 2 ^ 127)])
  rw [← hX] at e20
  have e20' := rel_of hX1 (c := 1) (by norm_num) (by rw [abs_of_pos hX0, one_mul]) e20
  obtain ⟨r21, v21, e21⟩ := h1.mulE h1 (by
    rw [abs_of_nonneg hy0]; linarith [(by norm_num : (2 : ℚ) ^ 120 ≤ 2 ^ 127)])
  have e21' := rel_of hX1 (c := 1) (by norm_num) (by rw [abs_of_nonneg hy0]; linarith) e21
  have a20 := abs_le.1 e20'
  have a21 := abs_le.1 e21'
  -- denominator
  have wq1 : 1 / 32 * q0 ≤ w * q0 := mul_le_mul_of_nonneg_right w1 q0p.le
  have wq2 : w * q0 ≤ 1 * q0 := mul_le_mul_of_nonneg_right w2 q0p.le
  have wq0 : 0 ≤ w * q0 := mul_nonneg (by linarith) q0p.le
  obtain ⟨d1, vd1, ed1⟩ := hw.mulE h0 (by rw [abs_of_nonneg wq0]; linarith [(by norm_num : (2 : ℚ) ^ 60 ≤ 2 ^ 127)])
  have ad1 := abs_le.1 (rel_of (X := q0) (le_trans (by norm_num) h01) (c := 1) (by norm_num) (by rw [abs_of_nonneg wq0]; exact wq2) ed1)
  have d11 : 1 / 33 * q0 ≤ d1 := by linarith
  have bd2 : |r20 - r21| ≤ 11 / 10 * X := by rw [abs_le]; constructor <;> linarith
  obtain ⟨d2, vd2, ed2⟩ := v20.subE v21 (bd2.trans (by linarith [(by norm_num : (11 : ℚ) / 10 * 2 ^ 120 ≤ 2 ^ 127)]))
  have ad2 := abs_le.1 (rel_of hX1 (by norm_num) bd2 ed2)
  have d21 : 1 / 2200 * X ≤ d2 := by linarith
  have dd : 1 / 33 * q0 * (1 / 2200 * X) ≤ d1 * d2 := mul_le_mul d11 d21 (by positivity) (le_trans (by positivity) d11)
  refine ⟨d1, d2, vd1, vd2, ?_⟩
  rw [← hX]
  linarith

theorem enhQuot_arith {q0 N d : ℚ} (h01 : 1 / 2 ^ 21 ≤ q0) (N1 : N ≤ 173 / 10 * (q0 * q0)) (hd : 1 / 72600 * (q0 * (q0 * q0)) ≤ d) :
    0 < rnd F32 d ∧ N / rnd F32 d ≤ pow2 42 := by
  have q0p : 0 < q0 := lt_of_lt_of_le (by norm_num) h01
  obtain ⟨X, hX⟩ : ∃ X, X = q0 * q0 := ⟨_, rfl⟩
  rw [← hX] at N1 hd
  have hX1 : 1 / 2 ^ 60 ≤ X := by
    rw [hX]
    exact le_trans (by norm_num) (mul_le_mul h01 h01 (by norm_num) q0p.le)
  have hX0 : 0 < X := lt_of_lt_of_le (by norm_num) hX1
  have qX : 1 / 2 ^ 100 ≤ q0 * X := le_trans (by norm_num) (mul_le_mul h01 hX1 (by norm_num) q0p.le)
  have qX' : 1 / 2 ^ 100 / 72600 ≤ d := by linarith
  have den1 : 1 / 72601 * (q0 * X) ≤ rnd F32 d := by
    have := rnd_ge_rel (f := F32) (q := d) (by
      refine le_trans ?_ qX'
      show pow2 (-126) ≤ _
      rw [pow2_eq]; norm_num)
    have e : pow2 (-(F32.p : Int)) = 1 / 16777216 := p24
    rw [e] at this
    linarith
  have den0 : 0 < rnd F32 d := lt_of_lt_of_le (by positivity) den1
  refine ⟨den0, ?_⟩
  rw [div_le_iff₀ den0]
  have p42 : pow2 42 = 2 ^ 42 := by rw [pow2_eq]; norm_num
  rw [p42]
  have : (1 : ℚ) / 2 ^ 21 * X ≤ q0 * X := mul_le_mul_of_nonneg_right h01 hX0.le
  linarith

theorem enhWeight_val {w0 rm0 rm1 mm c : IEEE m} {w q0 q1 a r : ℚ} (hw : Val w0 w) (w1 : 1 / 32 ≤ w) (w2 : w ≤ 1)
    (h0 : Val rm0 q0) (h01 : 1 / 2 ^ 21 ≤ q0) (h02 : q0 ≤ 2 ^ 60) (h1 : Val rm1 q1) (h11 : |q1| ≤ 4095 / 4096 * q0)
    (ha : Val mm a) (ha0 : 0 ≤ a) (ha1 : a ≤ 2 ^ 27) (hc : Val c r) (hr : |r| ≤ 1999 / 2000) :
    ∃ x, Val (enhWeight w0 rm0 rm1 mm c : IEEE m) x ∧ 0 ≤ x := by
  obtain ⟨N, vN, N0, N1⟩ := enhNum_val h0 h01 h02 h1 h11 hc hr
  obtain ⟨d1, d2, vd1, vd2, dd⟩ := enhDen_val h0 h01 h02 h1 h11 hw w1 w2
  obtain ⟨den0, qle⟩ := enhQuot_arith h01 N1 dd
  -- the quotient
  have key : ∃ ρ, Val ((((toF (dlit 96 100) *ᶠ fpi) *ᶠ (((rm0 *ᶠ rm0) +ᶠ (rm1 *ᶠ rm1)) -ᶠ (((ofInt 2 *ᶠ rm0) *ᶠ rm1) *ᶠ c)))
      /ᶠ ((w0 *ᶠ rm0) *ᶠ ((rm0 *ᶠ rm0) -ᶠ (rm1 *ᶠ rm1)))) : IEEE m) ρ ∧ 0 ≤ ρ ∧ ρ < pow2 (2 * 22) := by
    rcases vd1.mul_or vd2 with hd | ⟨s, hd⟩
    · have q0' : 0 ≤ N / rnd F32 (d1 * d2) := div_nonneg N0 den0.le
      have := vN.div hd den0.ne' (by
        rw [abs_of_nonneg q0']; exact qle.trans (pow2_big (by norm_num)))
      refine ⟨_, this, rnd_nonneg q0', lt_of_le_of_lt (rnd_le_of_repr F32_p (repr32_pow2 (k := 42) (by norm_num)) qle) (pow2_lt (by norm_num))⟩
    · rw [hd]
      exact ⟨0, vN.div_inf s, le_rfl, pow2_pos _⟩
  obtain ⟨ρ, vρ, ρ0, ρ1⟩ := key
  obtain ⟨s1, vs1, s10, s11⟩ := vρ.sqrt_le (by norm_num) ρ0 ρ1
  obtain ⟨s2, vs2, s20, s21⟩ := vs1.sqrt_le (k := 12) (by norm_num) s10 (lt_of_le_of_lt s11 (pow2_lt (by norm_num)))
  obtain ⟨s3, vs3, s30, s31⟩ := ha.sqrt_le (k := 14) (by norm_num) ha0 (lt_of_le_of_lt ha1 (by rw [pow2_eq]; norm_num))
  have p12 : pow2 12 = 2 ^ 12 := by rw [pow2_eq]; norm_num
  have p14 : pow2 14 = 2 ^ 14 := by rw [pow2_eq]; norm_num
  have fin := vs3.mul vs2 (by
    rw [abs_of_nonneg (mul_nonneg s30 s20)]
    refine (mul_le_mul s31 s21 s20 (pow2_pos _).le).trans (le_trans ?_ big_ge)
    rw [p12, p14]; norm_num)
  exact ⟨_, fin, rnd_nonneg (mul_nonneg s30 s20)⟩

theorem lit12_0 : rngB (lit 12 10 : IEEE libm0) (119 / 100) (121 / 100) = true := by decide +kernel
theorem lit12 : ∃ q, Val (lit 12 10 : IEEE m) q ∧ 119 / 100 ≤ q ∧ q ≤ 121 / 100 := rng_of lit12_0
theorem lit5_0 : rngB (lit 5 10 : IEEE libm0) (1 / 2) (1 / 2) = true := by decide +kernel
theorem lit5 : ∃ q, Val (lit 5 10 : IEEE m) q ∧ 1 / 2 ≤ q ∧ q ≤ 1 / 2 := rng_of lit5_0

/-- The amplitude after weighting. -/
theorem enhApply_val {w mm : IEEE m} {x a : ℚ} (hw : Val w x) (ha : Val mm a) (h0 : 0 ≤ a) (h1 : a ≤ 2 ^ 27) (l : Nat) (L : Int) :
    ∃ r, Val (enhApply l L w mm : IEEE m) r ∧ 0 ≤ r ∧ 49 / 100 * a - pow2 (-150) ≤ r ∧ r ≤ 122 / 100 * a + pow2 (-150) := by
  have t := pow2_pos (-150)
  have key : ∀ {y : IEEE m} {z : ℚ}, Val y z → 1 / 2 ≤ z → z ≤ 121 / 100 → ∃ r, Val (y *ᶠ mm : IEEE m) r ∧ 0 ≤ r ∧
      49 / 100 * a - pow2 (-150) ≤ r ∧ r ≤ 122 / 100 * a + pow2 (-150) := by
    intro y z hy z1 z2
    have za0 : 0 ≤ z * a := mul_nonneg (by linarith) h0
    have za1 : z * a ≤ 121 / 100 * a := mul_le_mul_of_nonneg_right z2 h0
    have za2 : 1 / 2 * a ≤ z * a := mul_le_mul_of_nonneg_right z1 h0
    have hb : |z * a| ≤ Val.big := by
      rw [abs_of_nonneg za0]
      refine le_trans ?_ big_ge
      have : (121 : ℚ) / 100 * 2 ^ 27 ≤ 2 ^ 127 := by norm_num
      linarith
    have e := rnd32_err (z * a)
    rw [p24, abs_of_nonneg za0] at e
    have e := abs_le.1 e
    exact ⟨_, hy.mul ha hb, rnd_nonneg za0, by linarith, by linarith⟩
  unfold enhApply
  obtain ⟨c, vc, c1, c2⟩ := lit12 (m := m)
  obtain ⟨d, vd, d1, d2⟩ := lit5 (m := m)
  split
  · exact ⟨a, ha, h0, by linarith, by linarith⟩
  · rw [vc.lt hw, hw.lt vd]
    split
    · exact key vc (by linarith) c2
    · split
      · exact key vd d1 (by linarith)
      · rename_i h2 h3
        have h2 : x ≤ c := not_lt.1 (by simpa using h2)
        have h3 : d ≤ x := not_lt.1 (by simpa using h3)
        exact key hw (by linarith) (by linarith)

theorem enhWeights_val {w0 rm0 rm1 : IEEE m} {w q0 q1 : ℚ} {L : Int} (hL : L ≤ 56) {Ml : Arr 57 (IEEE m)} {ct : Loc 57 (IEEE m)}
    {a : Nat → ℚ} {M : ℚ} (hM1 : M ≤ 2 ^ 27)
    (ha : ∀ l : Fin 57, 1 ≤ l.val → (l.val : Int) ≤ L → Val (Ml l) (a l.val) ∧ 0 ≤ a l.val ∧ a l.val ≤ M)
    (hc : ∀ l : Fin 57, 1 ≤ l.val → (l.val : Int) ≤ L → ∃ (c : IEEE m) (r : ℚ), ct l = some c ∧ Val c r ∧ |r| ≤ 1999 / 2000)
    (hw : Val w0 w) (w1 : 1 / 32 ≤ w) (w2 : w ≤ 1) (h0 : Val rm0 q0) (h01 : 1 / 2 ^ 21 ≤ q0) (h02 : q0 ≤ 2 ^ 60) (h1 : Val rm1 q1)
    (h11 : |q1| ≤ 4095 / 4096 * q0) : Ok (enhWeights w0 L rm0 rm1 ct Ml) fun Ml' => ∃ b : Nat → ℚ,
      ∀ l : Fin 57, 1 ≤ l.val → (l.val : Int) ≤ L → Val (Ml' l) (b l.val) ∧ 0 ≤ b l.val ∧
        49 / 100 * a l.val - pow2 (-150) ≤ b l.val ∧ b l.val ≤ 122 / 100 * a l.val + pow2 (-150) := by
  have t := pow2_pos (-150)
  have ctv : ∀ l : Fin 57, ∃ c : IEEE m, 1 ≤ l.val → (l.val : Int) ≤ L → ct l = some c ∧ ∃ r, Val c r ∧ |r| ≤ 1999 / 2000 := by
    intro l
    by_cases h : 1 ≤ l.val ∧ (l.val : Int) ≤ L
    · obtain ⟨c, r, e1, e2, e3⟩ := hc l h.1 h.2
      exact ⟨c, fun _ _ => ⟨e1, r, e2, e3⟩⟩
    · exact ⟨lit 0 1, fun h1 h2 => absurd ⟨h1, h2⟩ h⟩
  obtain ⟨cv, hcv⟩ := Classical.skolem.1 ctv
  unfold enhWeights
  rw [loopTo_ptwise (by omega) (fun l v => if eq v (lit 0 1) then v else enhApply l.val L (enhWeight w0 rm0 rm1 v (cv l)) v) _ (fun l hl h1 h2 A => by
    rw [Arr.rd_nat hl, ok_bind, Loc.rd_nat hl (hcv ⟨l, hl⟩ h1 h2).1]
    by_cases c : eq (A ⟨l, hl⟩) (lit 0 1) = true
    · rw [if_pos c, if_pos c, Arr.set_self]
    · rw [if_neg c, if_neg c, ok_bind, Arr.wr_nat hl]) Ml]
  refine Ok.ok ?_
  have : ∀ l : Nat, ∃ b : ℚ, ∀ (hl : l < 57) (_ : 1 ≤ l) (_ : (l : Int) ≤ L),
      Val (if eq (Ml ⟨l, hl⟩) (lit 0 1) then Ml ⟨l, hl⟩ else enhApply l L (enhWeight w0 rm0 rm1 (Ml ⟨l, hl⟩) (cv ⟨l, hl⟩)) (Ml ⟨l, hl⟩) : IEEE m) b ∧ 0 ≤ b ∧
        49 / 100 * a l - pow2 (-150) ≤ b ∧ b ≤ 122 / 100 * a l + pow2 (-150) := by
    intro l
    by_cases h : l < 57 ∧ 1 ≤ l ∧ (l : Int) ≤ L
    · obtain ⟨hl, i1, i2⟩ := h
      obtain ⟨g1, g2, g3⟩ := ha ⟨l, hl⟩ i1 i2
      obtain ⟨e1, r, e2, e3⟩ := hcv ⟨l, hl⟩ i1 i2
      dsimp only at g1 g2 g3
      by_cases c : eq (Ml ⟨l, hl⟩) (lit 0 1) = true
      · refine ⟨a l, fun _ _ _ => ?_⟩
        rw [if_pos c]
        exact ⟨g1, g2, by linarith, by linarith⟩
      · obtain ⟨x, vx, _⟩ := enhWeight_val hw w1 w2 h0 h01 h02 h1 h11 g1 g2 (g3.trans hM1) e2 e3
        obtain ⟨r, vr⟩ := enhApply_val vx g1 g2 (g3.trans hM1) l L
        refine ⟨r, fun _ _ _ => ?_⟩
        rw [if_neg c]
        exact vr
    · exact ⟨0, fun a b c => absurd ⟨a, b, c⟩ h⟩
  obtain ⟨b, hb⟩ := Classical.skolem.1 this
  refine ⟨b, fun l i1 i2 => ?_⟩
  dsimp only
  rw [if_pos ⟨i1, i2⟩]
  exact hb l.val l.isLt i1 i2

/-- The second sum of squares, against a bound `B` and a term that is at least `c`. -/
theorem enhSum_val {L : Int} (hL : L ≤ 56) (h0 : 1 ≤ L) {Ml : Arr 57 (IEEE m)} {b : Nat → ℚ} {B c : ℚ} (hB1 : B ≤ 2 ^ 28) (hB0 : 0 ≤ B)
    (hc : 1 / 2 ^ 30 ≤ c) (hb : ∀ l : Fin 57, 1 ≤ l.val → (l.val : Int) ≤ L → Val (Ml l) (b l.val) ∧ 0 ≤ b l.val ∧ b l.val ≤ B)
    {k : Nat} (hk1 : 1 ≤ k) (hk2 : (k : Int) ≤ L) (hk : c ≤ b k) :
    Ok (enhSum L Ml) fun s => ∃ q : ℚ, Val s q ∧ c * c * (999 / 1000) ≤ q ∧ q ≤ 57 * (B * B) := by
  have hcB : c ≤ B := hk.trans (hb ⟨k, by omega⟩ hk1 hk2).2.2
  have hc0 : 0 < c := lt_of_lt_of_le (by norm_num) hc
  have hcc : (1 : ℚ) / 2 ^ 60 ≤ c * c := le_trans (by norm_num) (mul_le_mul hc hc (by norm_num) hc0.le)
  have hcc' : c * c ≤ B * B := mul_le_mul hcB hcB hc0.le hB0
  have hBB : B * B ≤ 2 ^ 56 := (mul_le_mul hB1 hB1 hB0 (by norm_num)).trans (by norm_num)
  have t : pow2 (-150) ≤ 1 / 2 ^ 149 := by rw [pow2_eq]; norm_num
  have t0 := pow2_pos (-150)
  have small : (1 : ℚ) / 2 ^ 149 ≤ 1 / 2 ^ 60 / 2 ^ 40 := by norm_num
  have h0c : Val (lit 0 1 : IEEE m) 0 := ⟨false, rfl⟩
  unfold enhSum loopTo
  refine (loopFT_inv (lo := 1) (hi := L.toNat) (fun k (s : IEEE m) => ∃ P q : ℚ, Val s q ∧ 0 ≤ P ∧
    P ≤ (k - 1 : Nat) * (B * B * (1 + 1 / 16777216) + pow2 (-150)) ∧
    (∀ j, 1 ≤ j → j < k → b j * b j * (1 - 1 / 16777216) - pow2 (-150) ≤ P) ∧
    |q - P| ≤ (k - 1 : Nat) * (P / 4194304 + 1 / 2 ^ 140)) (by omega) ?_ ?_).mono ?_
  · exact ⟨0, 0, h0c, le_rfl, by simp, fun j h1 h2 => by omega, by simp⟩
  · rintro i h1 h2 s ⟨P, q, v, hP, hPM, hmax, e⟩
    obtain ⟨ha1, ha2, ha3⟩ := hb ⟨i, by omega⟩ h1 (by show (i : Int) ≤ L; omega)
    dsimp only at ha1 ha2 ha3
    rw [Arr.rd_nat (show i < 57 by omega), ok_bind]
    dsimp only
    rw [ha1.lt h0c, if_neg (by simpa using ha2)]
    have haa : b i * b i ≤ B * B := mul_le_mul ha3 ha3 ha2 hB0
    have haa0 : 0 ≤ b i * b i := mul_nonneg ha2 ha2
    have hbig : |b i * b i| ≤ Val.big := by
      rw [abs_of_nonneg haa0]; exact (haa.trans hBB).trans (le_trans (by norm_num) big_ge)
    have hu1 := ha1.mul ha1 hbig
    have hu0 : 0 ≤ rnd F32 (b i * b i) := rnd_nonneg haa0
    have hu2 := rnd32_err (b i * b i)
    generalize rnd F32 (b i * b i) = u at *
    rw [p24, abs_of_nonneg haa0] at hu2
    have hu3 := abs_le.1 hu2
    have ik : i - 1 ≤ 56 := by omega
    have hP62 : P ≤ 56 * 2 ^ 57 := by
      have e : ((i - 1 : Nat) : ℚ) ≤ 56 := by exact_mod_cast ik
      refine hPM.trans (mul_le_mul e ?_ (by positivity) (by norm_num))
      have : (1 : ℚ) / 2 ^ 60 / 2 ^ 40 ≤ 1 := by norm_num
      have : (2 : ℚ) ^ 56 * (1 + 1 / 16777216) + 1 ≤ 2 ^ 57 := by norm_num
      linarith
    have hPu : P + u ≤ 2 ^ 100 := by
      have : (56 : ℚ) * 2 ^ 57 + 2 ^ 57 + 1 ≤ 2 ^ 100 := by norm_num
      have : (1 : ℚ) / 2 ^ 60 / 2 ^ 40 ≤ 1 := by norm_num
      linarith
    obtain ⟨q', w, f⟩ := sumMl_step ik v e hP (by rw [abs_of_nonneg hP]) hu1 (w := u) (u := u) (by
      rw [sub_self, abs_zero]; positivity) (by rw [abs_of_nonneg hu0]) hPu
    rw [show i - 1 + 1 = i by omega] at f
    refine Ok.ok ⟨P + u, q', w, by linarith, ?_, ?_, f⟩
    · have : ((i + 1 - 1 : Nat) : ℚ) = ((i - 1 : Nat) : ℚ) + 1 := by
        rw [show i + 1 - 1 = i - 1 + 1 by omega]; push_cast; ring
      rw [this]
      linarith
    · intro j hj1 hj2
      by_cases c : j = i
      · subst c; linarith
      · have := hmax j hj1 (by omega)
        linarith
  · rintro s ⟨P, q, v, hP, hPM, hmax, e⟩
    refine ⟨q, v, ?_⟩
    have hm := hmax k hk1 (by omega)
    have hkk : c * c ≤ b k * b k := mul_le_mul hk hk hc0.le (hc0.le.trans hk)
    have e' : ((L.toNat + 1 - 1 : Nat) : ℚ) ≤ 56 := by
      have : L.toNat + 1 - 1 ≤ 56 := by omega
      exact_mod_cast this
    have small2 : (1 : ℚ) / 2 ^ 140 ≤ 1 / 2 ^ 60 / 2 ^ 40 := by norm_num
    generalize B * B = X at *
    generalize c * c = Y at *
    have sm : (1 : ℚ) / 2 ^ 40 * (1 / 2 ^ 60) ≤ 1 / 2 ^ 40 * Y := mul_le_mul_of_nonneg_left hcc (by norm_num)
    have X0 : 0 ≤ X := by linarith
    have hP1 : Y * (9999 / 10000) ≤ P := by linarith
    have hP2 : P ≤ 565 / 10 * X := by
      have : ((L.toNat + 1 - 1 : Nat) : ℚ) * (X * (1 + 1 / 16777216) + pow2 (-150)) ≤ 56 * (X * (1 + 1 / 16777216) + pow2 (-150)) :=
        mul_le_mul_of_nonneg_right e' (by positivity)
      linarith
    have hE : ((L.toNat + 1 - 1 : Nat) : ℚ) * (P / 4194304 + 1 / 2 ^ 140) ≤ P / 65536 := by
      have : ((L.toNat + 1 - 1 : Nat) : ℚ) * (P / 4194304 + 1 / 2 ^ 140) ≤ 56 * (P / 4194304 + 1 / 2 ^ 140) :=
        mul_le_mul_of_nonneg_right e' (by positivity)
      linarith
    have a0 := abs_le.1 (e.trans hE)
    exact ⟨by linarith, by linarith⟩

/-! ## The whole enhancement -/

theorem enhScale_eq {L : Int} (hL : L ≤ 56) (g : IEEE m) (Ml : Arr 57 (IEEE m)) : enhScale L g Ml =
    .ok (fun l => if 1 ≤ l.val ∧ (l.val : Int) ≤ L then g *ᶠ Ml l else Ml l) := by
  unfold enhScale
  exact loopTo_ptwise (by omega) (fun _ v => g *ᶠ v) _ (fun l hl h1 h2 a => by rw [Arr.rd_nat hl, ok_bind, Arr.wr_nat hl]) Ml

theorem mul_zero_val {x y : IEEE m} {a : ℚ} (hx : Val x a) (hy : Val y 0) : Val (x *ᶠ y : IEEE m) 0 := by
  have := hx.mul hy (by rw [mul_zero, abs_zero]; exact Val.big_pos.le)
  rwa [mul_zero, rnd_zero] at this

theorem zero_mul_val {x y : IEEE m} {a : ℚ} (hx : Val x 0) (hy : Val y a) : Val (x *ᶠ y : IEEE m) 0 := by
  have := hx.mul hy (by rw [zero_mul, abs_zero]; exact Val.big_pos.le)
  rwa [zero_mul, rnd_zero] at this

theorem zero_add_val {x y : IEEE m} (hx : Val x 0) (hy : Val y 0) : Val (x +ᶠ y : IEEE m) 0 := by
  have := hx.add hy (by rw [add_zero, abs_zero]; exact Val.big_pos.le)
  rwa [add_zero, rnd_zero] at this

/-- Without any amplitude the sum is zero. -/
theorem enhSum_zero {L : Int} (hL : L ≤ 56) {Ml : Arr 57 (IEEE m)} (h : ∀ l : Fin 57, 1 ≤ l.val → (l.val : Int) ≤ L → Val (Ml l) 0) :
    Post (enhSum L Ml) fun s => Val s 0 := by
  have h0c : Val (lit 0 1 : IEEE m) 0 := ⟨false, rfl⟩
  unfold enhSum loopTo
  refine loopFT_post (fun _ (s : IEEE m) => Val s 0) (by omega) h0c fun i h1 h2 s hs => ?_
  by_cases hi : (i : Int) ≤ L
  · have hz := h ⟨i, by omega⟩ h1 hi
    rw [Arr.rd_nat (show i < 57 by omega), ok_bind]
    dsimp only
    rw [hz.lt h0c, if_neg (by simp)]
    exact Post.pure (zero_add_val hs (mul_zero_val hz hz))
  · omega

/-- The enhancement with the two sums left open. -/
def enhanceWith (rm : Int → Arr 57 (IEEE m) → Loc 57 (IEEE m) → Exec (IEEE m × IEEE m)) (es : Int → Arr 57 (IEEE m) → Exec (IEEE m)) (addr : Nat)
    (cur : Parms (IEEE m)) (t : Tls (IEEE m)) : Exec (Parms (IEEE m) × Tls (IEEE m)) := do
  let ct ← cosTab cur.w0 cur.L
  let r ← rm cur.L cur.Ml ct
  let t := setPreEnhRm0 addr r.1 t
  let Ml ← enhWeights cur.w0 cur.L r.1 r.2 ct cur.Ml
  let sum ← es cur.L Ml
  let Ml ← enhScale cur.L (enhGamma r.1 sum) Ml
  .ok ({ cur with Ml := Ml }, t)

/-- What the bounds need of the two sums. -/
structure SumsVal (rm : Int → Arr 57 (IEEE m) → Loc 57 (IEEE m) → Exec (IEEE m × IEEE m)) (es : Int → Arr 57 (IEEE m) → Exec (IEEE m)) : Prop where
  rmVal : ∀ {L : Int}, L ≤ 56 → 1 ≤ L → ∀ {Ml : Arr 57 (IEEE m)} {ct : Loc 57 (IEEE m)} {a : Nat → ℚ} {M : ℚ}, 1 / 1024 ≤ M → M ≤ 2 ^ 27 →
    (∀ l : Fin 57, 1 ≤ l.val → (l.val : Int) ≤ L → Val (Ml l) (a l.val) ∧ 0 ≤ a l.val ∧ a l.val ≤ M) →
    ∀ {k : Nat}, 1 ≤ k → (k : Int) ≤ L → a k = M →
    (∀ l : Fin 57, 1 ≤ l.val → (l.val : Int) ≤ L → ∃ (c : IEEE m) (r : ℚ), ct l = some c ∧ Val c r ∧ |r| ≤ 1999 / 2000) →
    Ok (rm L Ml ct) fun s => ∃ q0 q1 : ℚ, Val s.1 q0 ∧ Val s.2 q1 ∧ M * M * (99 / 100) ≤ q0 ∧ q0 ≤ 57 * (M * M) ∧ |q1| ≤ 4095 / 4096 * q0
  sumVal : ∀ {L : Int}, L ≤ 56 → 1 ≤ L → ∀ {Ml : Arr 57 (IEEE m)} {b : Nat → ℚ} {B c : ℚ}, B ≤ 2 ^ 28 → 0 ≤ B → 1 / 2 ^ 30 ≤ c →
    (∀ l : Fin 57, 1 ≤ l.val → (l.val : Int) ≤ L → Val (Ml l) (b l.val) ∧ 0 ≤ b l.val ∧ b l.val ≤ B) →
    ∀ {k : Nat}, 1 ≤ k → (k : Int) ≤ L → c ≤ b k → Ok (es L Ml) fun s => ∃ q : ℚ, Val s q ∧ c * c * (999 / 1000) ≤ q ∧ q ≤ 57 * (B * B)
  zero : ∀ {L : Int}, L ≤ 56 → ∀ {Ml : Arr 57 (IEEE m)}, (∀ l : Fin 57, 1 ≤ l.val → (l.val : Int) ≤ L → Val (Ml l) 0) → Post (es L Ml) fun s => Val s 0

theorem sumsVal_scalar : SumsVal (m := m) rm01 enhSum := ⟨rm01_val, enhSum_val, enhSum_zero⟩

variable {rm : Int → Arr 57 (IEEE m) → Loc 57 (IEEE m) → Exec (IEEE m × IEEE m)} {es : Int → Arr 57 (IEEE m) → Exec (IEEE m)}

/-- A frame without any amplitude. -/
theorem enhanceWith_zero (hs : SumsVal rm es) (hm : TrigAcc m) {addr : Nat} {cur : Parms (IEEE m)} {t : Tls (IEEE m)} {w : ℚ} (hw : Val cur.w0 w) (hq : |w| ≤ pow2 26)
    (hp : PitchOk w cur.L) (hL : cur.L ≤ 56) (h : ∀ l : Fin 57, 1 ≤ l.val → (l.val : Int) ≤ cur.L → Val (cur.Ml l) 0) :
    Post (enhanceWith rm es addr cur t) fun r => ∀ l : Fin 57, 1 ≤ l.val → (l.val : Int) ≤ cur.L → Val (r.1.Ml l) 0 := by
  have h0c : Val (lit 0 1 : IEEE m) 0 := ⟨false, rfl⟩
  unfold enhanceWith
  refine Post.bind (Ok.post (cosTab_val hm hw hq hL hp)) fun ct hct => ?_
  refine Post.bind Post.true fun r _ => ?_
  refine Post.bind (P := fun M : Arr 57 (IEEE m) => ∀ l : Fin 57, 1 ≤ l.val → (l.val : Int) ≤ cur.L → Val (M l) 0) ?_ fun M hM => ?_
  · unfold enhWeights loopTo
    refine loopFT_post (fun _ (M : Arr 57 (IEEE m)) => ∀ l : Fin 57, 1 ≤ l.val → (l.val : Int) ≤ cur.L → Val (M l) 0) (by omega) h fun i h1 h2 M hM => ?_
    by_cases hi : (i : Int) ≤ cur.L
    · rw [Arr.rd_nat (show i < 57 by omega), ok_bind, (hM ⟨i, by omega⟩ h1 hi).eq h0c, if_pos (by simp)]
      exact Post.pure hM
    · omega
  refine Post.bind (hs.zero hL hM) fun s hs => ?_
  rw [enhScale_eq hL, ok_bind]
  refine Post.pure fun l h1 h2 => ?_
  dsimp only
  rw [if_pos ⟨h1, h2⟩]
  unfold enhGamma
  rw [hs.eq h0c, if_pos (by simp)]
  exact mul_zero_val one_val (hM l h1 h2)

theorem enhance_zero (hm : TrigAcc m) {addr : Nat} {cur : Parms (IEEE m)} {t : Tls (IEEE m)} {w : ℚ} (hw : Val cur.w0 w) (hq : |w| ≤ pow2 26)
    (hp : PitchOk w cur.L) (hL : cur.L ≤ 56) (h : ∀ l : Fin 57, 1 ≤ l.val → (l.val : Int) ≤ cur.L → Val (cur.Ml l) 0) :
    Post (spectralAmpEnhance addr cur t) fun r => ∀ l : Fin 57, 1 ≤ l.val → (l.val : Int) ≤ cur.L → Val (r.1.Ml l) 0 :=
  enhanceWith_zero sumsVal_scalar hm hw hq hp hL h

theorem enhanceWith_frame (addr : Nat) (cur : Parms (IEEE m)) (t : Tls (IEEE m)) : Post (enhanceWith rm es addr cur t) fun r =>
    r.1 = { cur with Ml := r.1.Ml } := by
  unfold enhanceWith
  refine Post.bind Post.true fun ct _ => Post.bind Post.true fun r _ => Post.bind Post.true fun _ _ => ?_
  exact Post.bind Post.true fun _ _ => Post.bind Post.true fun _ _ => Post.pure rfl

theorem gamma_arith {M q0 q c B : ℚ} (hM : 1 / 1024 ≤ M) (hc : c = 489 / 1000 * M) (hB : B = 123 / 100 * M) (h1 : M * M * (99 / 100) ≤ q0)
    (h2 : q0 ≤ 57 * (M * M)) (h3 : c * c * (999 / 1000) ≤ q) (h4 : q ≤ 57 * (B * B)) :
    0 < q ∧ 1 / 100 ≤ q0 / q ∧ q0 / q ≤ 240 := by
  have hX : 0 < M * M := mul_pos (by linarith) (by linarith)
  have e1 : c * c = 489 / 1000 * (489 / 1000) * (M * M) := by rw [hc]; ring
  have e2 : B * B = 123 / 100 * (123 / 100) * (M * M) := by rw [hB]; ring
  rw [e1] at h3
  rw [e2] at h4
  have hq : 0 < q := lt_of_lt_of_le (by positivity) h3
  refine ⟨hq, ?_, ?_⟩
  · rw [le_div_iff₀ hq]; linarith
  · rw [div_le_iff₀ hq]; linarith

/-- A frame with moderate amplitudes. -/
theorem enhanceWith_fin (hs : SumsVal rm es) (hm : TrigAcc m) {addr : Nat} {cur : Parms (IEEE m)} {t : Tls (IEEE m)} {w : ℚ} (hw : Val cur.w0 w) (w1 : 1 / 32 ≤ w)
    (w2 : w ≤ 1) (hp : PitchOk w cur.L) (h0 : 1 ≤ cur.L) (hL : cur.L ≤ 56) (h : Amps (2 ^ 27) (1 / 1024) cur) :
    Post (enhanceWith rm es addr cur t) fun r => Amps (2 ^ 32) (1 / 2 ^ 16) r.1 := by
  have hq : |w| ≤ pow2 26 := by
    rw [abs_of_nonneg (by linarith), pow2_eq]; exact w2.trans (by norm_num)
  obtain ⟨a, ha, hz | ⟨k0, k01, k02, k03⟩⟩ := h
  · intro r hr
    have hL' : r.1.L = cur.L := by rw [enhanceWith_frame _ _ _ r hr]
    refine ⟨fun _ => 0, fun l h1 h2 => ⟨enhanceWith_zero hs hm hw hq hp hL (fun l h1 h2 => ?_) r hr l h1 (by rwa [hL'] at h2), le_rfl, by norm_num⟩,
      .inl fun _ _ _ => rfl⟩
    have := (ha l h1 h2).1
    rwa [hz l.val h1 h2] at this
  obtain ⟨k, hk, hmax⟩ := Finset.exists_max_image (Finset.Icc 1 cur.L.toNat) a ⟨k0, by rw [Finset.mem_Icc]; omega⟩
  rw [Finset.mem_Icc] at hk
  obtain ⟨M, hM⟩ : ∃ M, a k = M := ⟨_, rfl⟩
  rw [hM] at hmax
  have hM0 : 1 / 1024 ≤ M := k03.trans (hmax k0 (by rw [Finset.mem_Icc]; omega))
  have hM1 : M ≤ 2 ^ 27 := by rw [← hM]; exact (ha ⟨k, by omega⟩ hk.1 (by show (k : Int) ≤ _; omega)).2.2
  have ha' : ∀ l : Fin 57, 1 ≤ l.val → (l.val : Int) ≤ cur.L → Val (cur.Ml l) (a l.val) ∧ 0 ≤ a l.val ∧ a l.val ≤ M :=
    fun l h1 h2 => ⟨(ha l h1 h2).1, (ha l h1 h2).2.1, hmax l.val (by rw [Finset.mem_Icc]; omega)⟩
  have hMM : (1 : ℚ) / 2 ^ 20 ≤ M * M := le_trans (by norm_num) (mul_le_mul hM0 hM0 (by norm_num) (by linarith))
  have hMM2 : M * M ≤ 2 ^ 54 := (mul_le_mul hM1 hM1 (by linarith) (by norm_num)).trans (by norm_num)
  have tt : pow2 (-150) ≤ 1 / 2 ^ 100 := p150
  have t0 := pow2_pos (-150)
  have small : (1 : ℚ) / 2 ^ 100 ≤ 1 / 1024 / 1000000 := by norm_num
  unfold enhanceWith
  refine Post.bind (Ok.post (cosTab_val hm hw hq hL hp)) fun ct hct => ?_
  refine Post.bind (Ok.post (hs.rmVal hL h0 hM0 hM1 ha' hk.1 (by omega) hM hct)) fun r hr => ?_
  obtain ⟨q0, q1, v0, v1, i1, i2, i3⟩ := hr
  dsimp only
  refine Post.bind (Ok.post (enhWeights_val hL hM1 ha' hct hw w1 w2 v0 ?_ ?_ v1 i3)) fun Ml hMl => ?_
  · have : (1 : ℚ) / 2 ^ 21 ≤ 1 / 2 ^ 20 * (99 / 100) := by norm_num
    linarith
  · have : (57 : ℚ) * 2 ^ 54 ≤ 2 ^ 60 := by norm_num
    linarith
  obtain ⟨b, hb⟩ := hMl
  have hbk := hb ⟨k, by omega⟩ hk.1 (by show (k : Int) ≤ _; omega)
  dsimp only at hbk
  rw [hM] at hbk
  refine Post.bind (Ok.post (hs.sumVal hL h0 (B := 123 / 100 * M) (c := 489 / 1000 * M) (b := b) ?_ (by linarith) ?_ (fun l h1 h2 => ?_) hk.1 (by omega) ?_))
    fun s hs' => ?_
  · have : (123 : ℚ) / 100 * 2 ^ 27 ≤ 2 ^ 28 := by norm_num
    linarith
  · have : (1 : ℚ) / 2 ^ 30 ≤ 489 / 1000 * (1 / 1024) := by norm_num
    linarith
  · obtain ⟨g1, g2, g3, g4⟩ := hb l h1 h2
    have := (ha' l h1 h2).2.2
    exact ⟨g1, g2, by linarith⟩
  · linarith [hbk.2.2.1]
  obtain ⟨q, vq, j1, j2⟩ := hs'
  obtain ⟨qp, g1, g2⟩ := gamma_arith hM0 rfl rfl i1 i2 j1 j2
  have h0c : Val (lit 0 1 : IEEE m) 0 := ⟨false, rfl⟩
  have hg : ∃ g, Val (enhGamma r.1 s : IEEE m) g ∧ pow2 (-4) ≤ g ∧ g ≤ pow2 4 := by
    unfold enhGamma
    rw [vq.eq h0c, if_neg (by simpa using qp.ne')]
    have g0 : 0 ≤ q0 / q := by linarith
    have vd := v0.div vq qp.ne' (by rw [abs_of_nonneg g0]; exact g2.trans (le_trans (by norm_num) big_ge))
    have e := rnd32_err (q0 / q)
    rw [p24, abs_of_nonneg g0] at e
    have e := abs_le.1 e
    refine vd.sqrt_between (by norm_num) ?_ ?_
    · have : pow2 (2 * (-4)) = 1 / 256 := by rw [pow2_eq]; norm_num
      rw [this]; linarith
    · have : pow2 (2 * 4) = 256 := by rw [pow2_eq]; norm_num
      rw [this]; linarith
  obtain ⟨g, vg, gl, gh⟩ := hg
  have p4 : pow2 4 = 16 := by rw [pow2_eq]; norm_num
  have p4' : pow2 (-4) = 1 / 16 := by rw [pow2_eq]; norm_num
  rw [p4] at gh
  rw [p4'] at gl
  rw [enhScale_eq hL, ok_bind]
  refine Post.pure ⟨fun l => rnd F32 (g * b l), fun l h1 h2 => ?_, .inr ⟨k, hk.1, ?_, ?_⟩⟩
  · dsimp only at h2 ⊢
    rw [if_pos ⟨h1, h2⟩]
    obtain ⟨e1, e2, e3, e4⟩ := hb l h1 h2
    have e5 := (ha' l h1 h2).2.2
    have gb0 : 0 ≤ g * b l.val := mul_nonneg (by linarith) e2
    have gb1 : g * b l.val ≤ pow2 32 := by
      have p32 : pow2 32 = 2 ^ 32 := by rw [pow2_eq]; norm_num
      rw [p32]
      have : g * b l.val ≤ 16 * (123 / 100 * 2 ^ 27) := mul_le_mul gh (by linarith) e2 (by norm_num)
      exact this.trans (by norm_num)
    refine ⟨vg.mul e1 (by rw [abs_of_nonneg gb0]; exact gb1.trans (pow2_big (by norm_num))), rnd_nonneg gb0, ?_⟩
    have := rnd_le_of_repr F32_p (repr32_pow2 (k := 32) (by norm_num)) gb1
    refine this.trans (le_of_eq ?_)
    rw [pow2_eq]; norm_num
  · show (k : Int) ≤ cur.L
    omega
  · dsimp only
    have : pow2 (-16) ≤ g * b k := by
      have : (1 : ℚ) / 16 * (48 / 100 * (1 / 1024)) ≤ g * b k := mul_le_mul gl (by linarith [hbk.2.2.1]) (by norm_num) (by linarith)
      refine le_trans ?_ this
      rw [pow2_eq]; norm_num
    have := le_rnd_of_repr F32_p (repr32_pow2 (k := -16) (by norm_num)) this
    refine le_trans (le_of_eq ?_) this
    rw [pow2_eq]; norm_num

theorem enhance_fin (hm : TrigAcc m) {addr : Nat} {cur : Parms (IEEE m)} {t : Tls (IEEE m)} {w : ℚ} (hw : Val cur.w0 w) (w1 : 1 / 32 ≤ w)
    (w2 : w ≤ 1) (hp : PitchOk w cur.L) (h0 : 1 ≤ cur.L) (hL : cur.L ≤ 56) (h : Amps (2 ^ 27) (1 / 1024) cur) :
    Post (spectralAmpEnhance addr cur t) fun r => Amps (2 ^ 32) (1 / 2 ^ 16) r.1 :=
  enhanceWith_fin sumsVal_scalar hm hw w1 w2 hp h0 hL h

end Verif.Model
