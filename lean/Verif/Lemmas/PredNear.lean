import Verif.Lemmas.AmpNear
import Verif.Lemmas.Contract
import Verif.Lemmas.Predict

/-!
# The prediction of the log amplitudes in binary32 against exact interpolation
-/

namespace Verif.Model
open Verif Verif.Gen Verif.Spec Verif.Num Arith
variable {m : Libm}

/-! ## Linear interpolation of a sequence -/

/-- The value at `x` of the function that is linear between consecutive naturals and equals `u` there. -/
noncomputable def itp (u : Nat → ℝ) (x : ℝ) : ℝ := (1 - (x - ⌊x⌋)) * u ⌊x⌋.toNat + (x - ⌊x⌋) * u (⌊x⌋.toNat + 1)

theorem itp_sub (u v : Nat → ℝ) (x : ℝ) : itp (fun i => u i - v i) x = itp u x - itp v x := by
  unfold itp
  ring

theorem itp_at (u : Nat → ℝ) {x : ℝ} {k : Nat} (h0 : (k : ℝ) ≤ x) (h1 : x ≤ k + 1) :
    itp u x = (1 - (x - k)) * u k + (x - k) * u (k + 1) := by
  rcases lt_or_eq_of_le h1 with h | h
  · have hf : ⌊x⌋ = (k : Int) := by
      rw [Int.floor_eq_iff]
      exact ⟨by exact_mod_cast h0, by exact_mod_cast h⟩
    unfold itp
    rw [hf, Int.toNat_natCast]
    push_cast
    rfl
  · have hf : ⌊x⌋ = ((k + 1 : Nat) : Int) := by
      rw [Int.floor_eq_iff, h]
      push_cast
      exact ⟨le_refl _, by linarith⟩
    unfold itp
    rw [hf, Int.toNat_natCast, h]
    push_cast
    ring

theorem itp_abs {u : Nat → ℝ} {x M : ℝ} (h0 : 0 ≤ x) (h : ∀ j : Nat, (j : ℝ) ≤ x + 1 → |u j| ≤ M) : |itp u x| ≤ M := by
  have hf := Int.floor_nonneg.mpr h0
  obtain ⟨k, hk⟩ := Int.eq_ofNat_of_zero_le hf
  have a1 : (k : ℝ) ≤ x := by have := Int.floor_le x; rw [hk] at this; exact_mod_cast this
  have a2 : x < k + 1 := by have := Int.lt_floor_add_one x; rw [hk] at this; exact_mod_cast this
  rw [itp_at u a1 a2.le]
  have b1 := abs_le.mp (h k (by linarith))
  have b2 := abs_le.mp (h (k + 1) (by push_cast; linarith))
  rw [abs_le]
  constructor <;> nlinarith

theorem itp_lip1 {u : Nat → ℝ} {x y M : ℝ} (h0 : 0 ≤ x) (hxy : x ≤ y) (h1 : y ≤ x + 1)
    (h : ∀ j : Nat, (j : ℝ) ≤ y + 1 → |u j| ≤ M) : |itp u y - itp u x| ≤ (y - x) * (2 * M) := by
  have hf := Int.floor_nonneg.mpr h0
  obtain ⟨k, hk⟩ := Int.eq_ofNat_of_zero_le hf
  have a1 : (k : ℝ) ≤ x := by have := Int.floor_le x; rw [hk] at this; exact_mod_cast this
  have a2 : x < k + 1 := by have := Int.lt_floor_add_one x; rw [hk] at this; exact_mod_cast this
  rw [itp_at u a1 a2.le]
  have b1 := abs_le.mp (h k (by linarith))
  have b2 := abs_le.mp (h (k + 1) (by push_cast; linarith))
  rcases le_total y (k + 1) with c | c
  · rw [itp_at u (a1.trans hxy) c]
    rw [show (1 - (y - k)) * u k + (y - k) * u (k + 1) - ((1 - (x - k)) * u k + (x - k) * u (k + 1)) = (y - x) * (u (k + 1) - u k) by ring]
    rw [abs_mul, abs_of_nonneg (by linarith : 0 ≤ y - x)]
    refine mul_le_mul_of_nonneg_left ?_ (by linarith)
    rw [abs_le]
    constructor <;> linarith
  · have b3 := abs_le.mp (h (k + 1 + 1) (by push_cast; linarith))
    rw [itp_at u (k := k + 1) (by push_cast; exact c) (by push_cast; linarith)]
    push_cast
    have e1 : |u (k + 1 + 1) - u (k + 1)| ≤ 2 * M := by rw [abs_le]; constructor <;> linarith
    have e2 : |u (k + 1) - u k| ≤ 2 * M := by rw [abs_le]; constructor <;> linarith
    rw [show (1 - (y - (k + 1))) * u (k + 1) + (y - (k + 1)) * u (k + 1 + 1) - ((1 - (x - k)) * u k + (x - k) * u (k + 1))
      = (y - (k + 1)) * (u (k + 1 + 1) - u (k + 1)) + ((k + 1) - x) * (u (k + 1) - u k) by ring]
    refine (abs_add_le _ _).trans ?_
    rw [abs_mul, abs_mul, abs_of_nonneg (by linarith : 0 ≤ y - (k + 1)), abs_of_nonneg (by linarith : 0 ≤ (k : ℝ) + 1 - x)]
    have := mul_le_mul_of_nonneg_left e1 (by linarith : 0 ≤ y - (k + 1))
    have := mul_le_mul_of_nonneg_left e2 (by linarith : 0 ≤ (k : ℝ) + 1 - x)
    linarith

theorem itp_lip {u : Nat → ℝ} {x y M δ : ℝ} (hx : 0 ≤ x) (hy : 0 ≤ y) (hd : |y - x| ≤ δ) (h1 : δ ≤ 1)
    (hux : ∀ j : Nat, (j : ℝ) ≤ x + 1 → |u j| ≤ M) (huy : ∀ j : Nat, (j : ℝ) ≤ y + 1 → |u j| ≤ M) : |itp u y - itp u x| ≤ δ * (2 * M) := by
  have hM : 0 ≤ M := (abs_nonneg _).trans (hux 0 (by simpa using by linarith))
  have hd' := abs_le.mp hd
  rcases le_total x y with c | c
  · exact (itp_lip1 hx c (by linarith) huy).trans (mul_le_mul_of_nonneg_right (by linarith) (by linarith))
  · rw [abs_sub_comm]
    exact (itp_lip1 hy c (by linarith) hux).trans (mul_le_mul_of_nonneg_right (by linarith) (by linarith))

/-! ## The exact prediction is that interpolation -/

theorem predQ_itp (lax : Bool) {p : Parms ℝ} {L : Int} {l : Nat} (hp : 0 ≤ p.L) (hp' : p.L ≤ 56) (hL : 1 ≤ L) (hl : (l : Int) ≤ L) :
    predQ lax L p l = itp (fun i => p.log2Ml.getD i 0) (posR p.L L l) := by
  obtain ⟨a1, a2, a3, a4⟩ := posI_range hp hL hl
  obtain ⟨b1, b2⟩ := posR_range hp hL hl
  have e : posI p.L L l = ⌊posR p.L L l⌋ := by unfold posI; rw [if_pos b1]
  unfold predQ itp
  rw [← e]
  generalize posI p.L L l = k at *
  generalize posR p.L L l = x at *
  rw [lgAt_fin lax p a1 (by omega)]
  dsimp only
  rw [Arr.getD_lt (show k.toNat < 57 by omega)]
  rcases lt_or_eq_of_le a2 with c | c
  · rw [lgAt_fin lax p (i := k + 1) (by omega) (by omega), Arr.getD_lt (show k.toNat + 1 < 57 by omega)]
    congr 3
    ext
    dsimp only
    omega
  · have : x = k := le_antisymm (by rw [c]; exact b2) a3
    have hz : x - k = 0 := by linarith
    rw [hz, zero_mul, zero_mul]

/-! ## The computed position -/

theorem klQ_near {p L l : Nat} (hp : p ≤ 56) (hL : 1 ≤ L) (hL' : L ≤ 56) (hl : l ≤ L) :
    |((klQ p L l : ℚ) : ℝ) - posR p L l| ≤ 7 / 1000000 := by
  have hL1 : (1 : ℝ) ≤ L := by exact_mod_cast hL
  have hp1 : (p : ℝ) ≤ 56 := by exact_mod_cast hp
  have hl1 : (l : ℝ) ≤ L := by exact_mod_cast hl
  have hl2 : (l : ℝ) ≤ 56 := by exact_mod_cast hl.trans hL'
  have hl0 : (0 : ℝ) ≤ l := by positivity
  have hp0 : (0 : ℝ) ≤ p := by positivity
  have h1 := rnd32_near ((p : ℚ) / L)
  have h2 := rnd32_near (rnd F32 ((p : ℚ) / L) * l)
  have hx : (0 : ℝ) ≤ (p : ℝ) / L * l ∧ (p : ℝ) / L * l ≤ 56 := by
    refine ⟨by positivity, ?_⟩
    rw [div_mul_eq_mul_div, div_le_iff₀ (by linarith)]
    nlinarith
  have hq0 : (0 : ℝ) ≤ (p : ℝ) / L := by positivity
  unfold klQ posR
  push_cast at h1 h2 ⊢
  rw [abs_of_nonneg hq0] at h1
  set r : ℝ := ((rnd F32 ((p : ℚ) / L) : ℚ) : ℝ) with hr
  obtain ⟨τ, hτ⟩ : ∃ τ : ℝ, τ = 1 / 2 ^ 150 := ⟨_, rfl⟩
  have hτ0 : 0 ≤ τ ∧ τ ≤ 1 / 1000000000 := by rw [hτ]; norm_num
  rw [← hτ] at h1 h2
  have h3 : |r * l - (p : ℝ) / L * l| ≤ 56 / 16777216 + 56 * τ := by
    rw [← sub_mul, abs_mul, abs_of_nonneg hl0]
    refine (mul_le_mul_of_nonneg_right h1 hl0).trans ?_
    nlinarith
  have h4 : |r * l| ≤ 57 := by
    have := abs_sub_abs_le_abs_sub (r * l) ((p : ℝ) / L * l)
    rw [abs_of_nonneg hx.1] at this
    linarith
  have h5 := abs_sub_le ((rnd F32 (rnd F32 ((p : ℚ) / L) * l) : ℚ) : ℝ) (r * l) ((p : ℝ) / L * l)
  linarith

/-! ## Arithmetic with a separate bound for the exact result -/

section
variable {e1 e2 e B1 B2 B : ℝ} {x x' : IEEE m} {y y' : ℝ}

theorem Near.add' (h : Near e1 B1 x y) (h' : Near e2 B2 x' y') (hB : |y + y'| ≤ B)
    (he : e1 + e2 + (B + (e1 + e2)) / 16777216 + 1 / 2 ^ 150 ≤ e) (hb : B + (e1 + e2) ≤ 2 ^ 126) : Near e B (x +ᶠ x' : IEEE m) (y + y') := by
  obtain ⟨q, v, a1, a2⟩ := h
  obtain ⟨q', v', b1, b2⟩ := h'
  have k1 : |((q + q' : ℚ) : ℝ) - (y + y')| ≤ e1 + e2 := by
    rw [show ((q + q' : ℚ) : ℝ) - (y + y') = (q - y) + (q' - y') by push_cast; ring]
    exact (abs_add_le _ _).trans (by linarith)
  have k3 : |((q + q' : ℚ) : ℝ)| ≤ B + (e1 + e2) := by
    have := abs_sub_abs_le_abs_sub ((q + q' : ℚ) : ℝ) (y + y')
    linarith
  exact ⟨_, v.add v' (big_real k3 hb), near_op k1 hB he, hB⟩

theorem Near.sub' (h : Near e1 B1 x y) (h' : Near e2 B2 x' y') (hB : |y - y'| ≤ B)
    (he : e1 + e2 + (B + (e1 + e2)) / 16777216 + 1 / 2 ^ 150 ≤ e) (hb : B + (e1 + e2) ≤ 2 ^ 126) : Near e B (x -ᶠ x' : IEEE m) (y - y') := by
  obtain ⟨q, v, a1, a2⟩ := h
  obtain ⟨q', v', b1, b2⟩ := h'
  have k1 : |((q - q' : ℚ) : ℝ) - (y - y')| ≤ e1 + e2 := by
    rw [show ((q - q' : ℚ) : ℝ) - (y - y') = (q - y) - (q' - y') by push_cast; ring]
    exact (abs_sub _ _).trans (by linarith)
  have k3 : |((q - q' : ℚ) : ℝ)| ≤ B + (e1 + e2) := by
    have := abs_sub_abs_le_abs_sub ((q - q' : ℚ) : ℝ) (y - y')
    linarith
  exact ⟨_, v.sub v' (big_real k3 hb), near_op k1 hB he, hB⟩

theorem Near.divNat (h : Near e1 B1 x y) {n : Nat} (hn : 1 ≤ n) (hn' : n ≤ 16777216)
    (he : e1 / n + (B1 / n + e1 / n) / 16777216 + 1 / 2 ^ 150 ≤ e) (hb : B1 + e1 ≤ 2 ^ 126) :
    Near e (B1 / n) (x /ᶠ Arith.ofInt (n : Int) : IEEE m) (y / n) := by
  obtain ⟨q, v, a1, a2⟩ := h
  have hn1 : (1 : ℝ) ≤ n := by exact_mod_cast hn
  have v' := Val.ofInt (m := m) (n := (n : Int)) (by rw [abs_of_nonneg (by omega)]; omega)
  have k1 : |((q / ((n : Int) : ℚ) : ℚ) : ℝ) - y / n| ≤ e1 / n := by
    push_cast
    rw [← sub_div, abs_div, abs_of_nonneg (by linarith : (0 : ℝ) ≤ n)]
    exact div_le_div_of_nonneg_right a1 (by linarith)
  have k2 : |y / n| ≤ B1 / n := by
    rw [abs_div, abs_of_nonneg (by linarith : (0 : ℝ) ≤ n)]
    exact div_le_div_of_nonneg_right a2 (by linarith)
  have k3 : |((q / ((n : Int) : ℚ) : ℚ) : ℝ)| ≤ B1 + e1 := by
    have := abs_sub_abs_le_abs_sub ((q / ((n : Int) : ℚ) : ℚ) : ℝ) (y / n)
    have := div_le_self ((abs_nonneg _).trans a1) hn1
    have := div_le_self ((abs_nonneg _).trans a2) hn1
    linarith
  exact ⟨_, v.div v' (by exact_mod_cast (by omega : n ≠ 0)) (big_real k3 hb), near_op k1 k2 he, k2⟩
end

theorem val_near' {x : IEEE m} {q : ℚ} {B : ℝ} (h : Val x q) (hB : |(q : ℝ)| ≤ B) : Near 0 B x q := ⟨q, h, by simp, hB⟩

/-! ## The log amplitudes of the previous frame -/

/-- The values of the log amplitudes 0 .. 56 and of the float stored behind them. -/
def LogVal (M : ℝ) (p : Parms (IEEE m)) (U : Nat → ℚ) : Prop :=
  (∀ i : Fin 57, Val (p.log2Ml i) (U i)) ∧ Val (p.PHIl 0) (U 57) ∧ ∀ i, |(U i : ℝ)| ≤ M

theorem LogVal.rd {M : ℝ} {p : Parms (IEEE m)} {U : Nat → ℚ} (h : LogVal M p U) {lax : Bool} {i : Int} (h0 : 0 ≤ i) (h1 : i ≤ 57) :
    Post (rdLog2 lax p i) fun v => Val v (U i.toNat) := by
  unfold rdLog2
  split
  · rename_i h57
    obtain ⟨rfl, _⟩ := h57
    exact Post.pure h.2.1
  · refine Arr.rd_post.mono ?_
    rintro v ⟨hi, rfl⟩
    exact h.1 _

/-! ## One interpolated value -/

/-- The fractional part of the computed position. -/
noncomputable def dR (P L l : Nat) : ℝ := ((klQ P L l : ℚ) : ℝ) - ⌊klQ P L l⌋

theorem dR_range (P L l : Nat) : 0 ≤ dR P L l ∧ dR P L l ≤ 1 := by
  unfold dR
  have h1 : ((⌊klQ P L l⌋ : ℚ) : ℝ) ≤ ((klQ P L l : ℚ) : ℝ) := by exact_mod_cast Int.floor_le (klQ P L l)
  have h2 : ((klQ P L l : ℚ) : ℝ) < ((⌊klQ P L l⌋ + 1 : ℚ) : ℝ) := by exact_mod_cast Int.lt_floor_add_one (klQ P L l)
  push_cast at h1 h2
  constructor <;> linarith

theorem itp_klQ (U : Nat → ℝ) (P L l : Nat) :
    itp U ((klQ P L l : ℚ) : ℝ) = (1 - dR P L l) * U ⌊klQ P L l⌋.toNat + dR P L l * U (⌊klQ P L l⌋.toNat + 1) := by
  unfold itp dR
  rw [Rat.floor_cast]

section
variable {P L l : Nat} (hP : P ≤ 56) (hL : 1 ≤ L) (hL' : L ≤ 56) (hl : l ≤ L)
include hP hL hL' hl

theorem dl_near : Near (1 / 2 ^ 23) 1 (flokl (P : Int) (L : Int) l -ᶠ Arith.ofInt ⌊klQ P L l⌋ : IEEE m) (dR P L l) := by
  obtain ⟨f0, f1, _⟩ := floor_klQ hP hL hL' hl
  have v := flokl_val (m := m) hP hL hL' hl
  have v' := Val.ofInt (m := m) (n := ⌊klQ P L l⌋) (by rw [abs_of_nonneg f0]; omega)
  obtain ⟨d0, d1⟩ := dR_range P L l
  have h0 : |((klQ P L l - (⌊klQ P L l⌋ : ℚ) : ℚ) : ℝ) - dR P L l| ≤ 0 := by
    unfold dR
    push_cast
    simp
  have hb : |dR P L l| ≤ 1 := by rw [abs_of_nonneg d0]; exact d1
  have h1 : |((klQ P L l - (⌊klQ P L l⌋ : ℚ) : ℚ) : ℝ)| ≤ 1 := by
    have : ((klQ P L l - (⌊klQ P L l⌋ : ℚ) : ℚ) : ℝ) = dR P L l := by unfold dR; push_cast; rfl
    rw [this]; exact hb
  exact ⟨_, v.sub v' (big_real h1 (by norm_num)), near_op h0 hb (by norm_num), hb⟩

theorem omd_near : Near (1 / 2 ^ 22) 1 (Arith.ofInt 1 -ᶠ (flokl (P : Int) (L : Int) l -ᶠ Arith.ofInt ⌊klQ P L l⌋) : IEEE m) (1 - dR P L l) := by
  obtain ⟨d0, d1⟩ := dR_range P L l
  have h1 : Near 0 1 (Arith.ofInt 1 : IEEE m) ((1 : ℚ) : ℝ) := by
    have := Val.ofInt (m := m) (n := 1) (by decide)
    exact val_near' (by simpa using this) (by norm_num)
  rw [Rat.cast_one] at h1
  exact h1.sub' (dl_near hP hL hL' hl) (by rw [abs_le]; constructor <;> linarith) (by norm_num) (by norm_num)

variable {U : Nat → ℚ} (hU : ∀ i, |(U i : ℝ)| ≤ 212)
include hU

theorem itp_pos_near : |itp (fun i => (U i : ℝ)) ((klQ P L l : ℚ) : ℝ) - itp (fun i => (U i : ℝ)) (posR P L l)| ≤ 2968 / 1000000 := by
  obtain ⟨k0, _⟩ := klQ_bounds hP hL hL' hl
  have hx := (posR_range (p := (P : Int)) (L := (L : Int)) (l := l) (by omega) (by omega) (by omega)).1
  refine (itp_lip (M := 212) hx (by exact_mod_cast k0) (klQ_near hP hL hL' hl) (by norm_num) (fun j _ => hU j) (fun j _ => hU j)).trans (by norm_num)

theorem itp_pos_abs : |itp (fun i => (U i : ℝ)) (posR P L l)| ≤ 212 :=
  itp_abs (posR_range (p := (P : Int)) (L := (L : Int)) (l := l) (by omega) (by omega) (by omega)).1 fun j _ => hU j

theorem itp_kl_abs : |itp (fun i => (U i : ℝ)) ((klQ P L l : ℚ) : ℝ)| ≤ 212 :=
  itp_abs (by exact_mod_cast (klQ_bounds hP hL hL' hl).1) fun j _ => hU j

variable {a b : IEEE m} (ha : Val a (U ⌊klQ P L l⌋.toNat)) (hb : Val b (U (⌊klQ P L l⌋.toNat + 1)))
include ha hb

theorem predTerm_near : Near (32 / 10000) 212
    (((Arith.ofInt 1 -ᶠ (flokl (P : Int) (L : Int) l -ᶠ Arith.ofInt ⌊klQ P L l⌋)) *ᶠ a) +ᶠ
      ((flokl (P : Int) (L : Int) l -ᶠ Arith.ofInt ⌊klQ P L l⌋) *ᶠ b) : IEEE m) (itp (fun i => (U i : ℝ)) (posR P L l)) := by
  have h1 := (omd_near (m := m) hP hL hL' hl).mul (val_near' ha (hU _)) (B := 212) (e := 212 * 6 / 2 ^ 24) (by norm_num) (by norm_num) (by norm_num)
  have h2 := (dl_near (m := m) hP hL hL' hl).mul (val_near' hb (hU _)) (B := 212) (e := 212 * 4 / 2 ^ 24) (by norm_num) (by norm_num) (by norm_num)
  rw [RealArith.mul_r] at h1 h2
  have h3 := h1.add' h2 (B := 212) (e := 212 * 12 / 2 ^ 24)
    (by have := itp_kl_abs hP hL hL' hl hU; rwa [itp_klQ] at this) (by norm_num) (by norm_num)
  obtain ⟨q, v, e1, e2⟩ := h3
  refine ⟨q, v, ?_, itp_pos_abs hP hL hL' hl hU⟩
  have := itp_pos_near hP hL hL' hl hU
  rw [itp_klQ] at this
  refine (abs_sub_le _ _ _).trans ((add_le_add e1 this).trans ?_)
  norm_num
end

/-! ## The sum of eq. 77 -/

theorem predict1_near {lax : Bool} {P L : Nat} (hP : P ≤ 56) (hL : 1 ≤ L) (hL' : L ≤ 56) {prev : Parms (IEEE m)} (hp : prev.L = (P : Int))
    {U : Nat → ℚ} (hU : LogVal 212 prev U) : Post (imbePredict1 lax (L : Int) prev) fun p =>
    (∀ l : Fin 57, 1 ≤ l.val → l.val ≤ L → p.1 l = some ⌊klQ P L l⌋ ∧
      p.2.1 l = some (flokl (P : Int) (L : Int) l -ᶠ Arith.ofInt ⌊klQ P L l⌋)) ∧
    Near (L * (4 / 1000)) (L * 212) p.2.2 (∑ l ∈ Finset.Icc 1 L, itp (fun i => (U i : ℝ)) (posR P L l)) := by
  unfold imbePredict1
  rw [Int.toNat_natCast]
  refine (loopFT_post (fun i (s : Loc 57 Int × Loc 57 (IEEE m) × IEEE m) =>
    (∀ l : Fin 57, 1 ≤ l.val → l.val < i → s.1 l = some ⌊klQ P L l⌋ ∧
      s.2.1 l = some (flokl (P : Int) (L : Int) l -ᶠ Arith.ofInt ⌊klQ P L l⌋)) ∧
    Near ((i - 1 : Nat) * (4 / 1000)) ((i - 1 : Nat) * 212) s.2.2 (∑ l ∈ Finset.Icc 1 (i - 1), itp (fun i => (U i : ℝ)) (posR P L l)))
    (by omega) ?_ ?_).mono ?_
  · refine ⟨fun l h1 h2 => by omega, ?_⟩
    have := Val.ofInt (m := m) (n := 0) (by decide)
    exact ⟨0, by show Val (Arith.ofInt 0 : IEEE m) 0; simpa using this, by simp, by simp⟩
  · rintro i h1 h2 ⟨K, D, q⟩ ⟨g1, g2⟩
    dsimp only at g1 g2 ⊢
    rw [hp, toI32_flokl hP hL hL' (by omega), ok_bind]
    obtain ⟨f0, f1, _⟩ := floor_klQ hP hL hL' (show i ≤ L by omega)
    refine Post.bind Loc.wr_post fun K' hK => Post.bind Loc.wr_post fun D' hD => ?_
    refine Post.bind (hU.rd f0 (by omega)) fun a ha => Post.bind (hU.rd (by omega) (by omega)) fun b hb => Post.pure ⟨fun l l1 l2 => ?_, ?_⟩
    · obtain ⟨_, _, rfl⟩ := hK
      obtain ⟨_, _, rfl⟩ := hD
      dsimp only
      rw [Int.toNat_natCast]
      by_cases e : l.val = i
      · rw [Arr.set_same e, Arr.set_same e, e]
        exact ⟨rfl, rfl⟩
      · rw [Arr.set_ne e, Arr.set_ne e]
        exact g1 l l1 (by omega)
    · dsimp only
      rw [show i + 1 - 1 = (i - 1) + 1 by omega, Finset.sum_Icc_succ_top (by omega), show i - 1 + 1 = i by omega]
      rw [Int.toNat_add f0 (by decide)] at hb
      have ht := predTerm_near hP hL hL' (show i ≤ L by omega) hU.2.2 ha hb
      have hn : (((i - 1 : Nat) : ℝ)) = (i : ℝ) - 1 := by push_cast [h1]; rfl
      have hi1 : (1 : ℝ) ≤ i := by exact_mod_cast h1
      have hi2 : (i : ℝ) ≤ 56 := by exact_mod_cast (show i ≤ 56 by omega)
      rw [hn] at g2
      refine (g2.add ht (B := i * 212) (e := i * (4 / 1000)) (by linarith) ?_ (by norm_num; linarith))
      obtain ⟨τ, hτ⟩ : ∃ τ : ℝ, τ = 1 / 2 ^ 150 := ⟨_, rfl⟩
      have hτ0 : 0 ≤ τ ∧ τ ≤ 1 / 1000000000 := by rw [hτ]; norm_num
      rw [← hτ]
      linarith
  · rintro s ⟨g1, g2⟩
    exact ⟨fun l h1 h2 => g1 l h1 (by omega), by simpa using g2⟩

/-! ## The prediction coefficient -/

/-- The exact coefficient. -/
def rhoQ (L : Nat) : ℚ := if L ≤ 15 then 4 / 10 else if L ≤ 24 then 3 / 100 * L - 5 / 100 else 7 / 10

theorem rho_chk : ∀ L : Nat, L < 57 → rngB (imbeRho (L : Int) : IEEE libm0) (rhoQ L - 1 / 2 ^ 23) (rhoQ L + 1 / 2 ^ 23) = true := by decide +kernel

theorem imbeRho_q (L : Nat) : (imbeRho (L : Int) : ℝ) = (rhoQ L : ℝ) := by
  unfold imbeRho rhoQ
  by_cases h : L ≤ 15
  · rw [if_pos (by omega), if_pos h, RealArith.toF_r, RealArith.dlit_r _ _ (by decide)]
    norm_num
  · rw [if_neg (by omega), if_neg h]
    by_cases h : L ≤ 24
    · rw [if_pos (by omega), if_pos h, RealArith.toF_r, RealArith.dlit_r _ _ (by decide), RealArith.dlit_r _ _ (by decide)]
      show ((3 : Int) : ℝ) / ((100 : Nat) : ℝ) * ((L : Int) : ℝ) - ((5 : Int) : ℝ) / ((100 : Nat) : ℝ) = _
      push_cast
      rfl
    · rw [if_neg (by omega), if_neg h, RealArith.toF_r, RealArith.dlit_r _ _ (by decide)]
      norm_num

theorem imbeRho_near {L : Nat} (h : 9 ≤ L) (h' : L ≤ 56) : Near (1 / 2 ^ 23) (7 / 10) (imbeRho (L : Int) : IEEE m) (imbeRho (L : Int) : ℝ) := by
  have c : rngB (imbeRho (L : Int) : IEEE m) (rhoQ L - 1 / 2 ^ 23) (rhoQ L + 1 / 2 ^ 23) = true := rho_chk L (by omega)
  obtain ⟨q, v, h1, h2⟩ := rng_of c
  obtain ⟨r0, r1⟩ := imbeRho_range (L := (L : Int)) (by omega)
  refine ⟨q, v, ?_, by rw [abs_of_nonneg r0]; exact r1⟩
  rw [imbeRho_q]
  have h1' : ((rhoQ L - 1 / 2 ^ 23 : ℚ) : ℝ) ≤ (q : ℝ) := by exact_mod_cast h1
  have h2' : (q : ℝ) ≤ ((rhoQ L + 1 / 2 ^ 23 : ℚ) : ℝ) := by exact_mod_cast h2
  push_cast at h1' h2'
  rw [abs_le]
  constructor <;> linarith

theorem sum77_near {L : Nat} (hL : 9 ≤ L) (hL' : L ≤ 56) {s : IEEE m} {σ : ℝ} (h : Near (L * (4 / 1000)) (L * 212) s σ) :
    Near (295 / 100000) 148.4 ((imbeRho (L : Int) /ᶠ Arith.ofInt (L : Int)) *ᶠ s : IEEE m) (imbeRho (L : Int) / L * σ) := by
  have hL1 : (9 : ℝ) ≤ L := by exact_mod_cast hL
  have hL2 : (L : ℝ) ≤ 56 := by exact_mod_cast hL'
  have hi : (1 : ℝ) / L * L = 1 := by field_simp
  have hi0 : (1 : ℝ) / 56 ≤ 1 / L ∧ (1 : ℝ) / L ≤ 1 / 9 := by
    constructor <;> apply one_div_le_one_div_of_le <;> linarith
  have h1 := (imbeRho_near (m := m) hL hL').divNat (n := L) (by omega) (by omega) (e := 1 / 2 ^ 22 / L) (by
    obtain ⟨τ, hτ⟩ : ∃ τ : ℝ, τ = 1 / 2 ^ 150 := ⟨_, rfl⟩
    have hτ0 : 0 ≤ τ ∧ τ ≤ 1 / 1000000000000 := by rw [hτ]; norm_num
    rw [← hτ]
    rw [div_eq_mul_one_div _ (L : ℝ), div_eq_mul_one_div (7 / 10) (L : ℝ), div_eq_mul_one_div (1 / 2 ^ 22) (L : ℝ)]
    generalize (1 : ℝ) / L = i at *
    norm_num
    linarith) (by norm_num)
  have e1 : (7 : ℝ) / 10 / L * (L * 212) = 148.4 := by field_simp; norm_num
  have e2 : (1 : ℝ) / 2 ^ 22 / L * (L * 212 + L * (4 / 1000)) + 7 / 10 / L * (L * (4 / 1000)) = 1 / 2 ^ 22 * 212.004 + 7 / 10 * (4 / 1000) := by
    field_simp; norm_num
  refine h1.mul h (B := 148.4) (le_of_eq e1) ?_ ?_
  · rw [e2]; norm_num
  · rw [e2]; norm_num

/-! ## The log amplitudes -/

section
variable {P L l : Nat} (hP : P ≤ 56) (hL : 9 ≤ L) (hL' : L ≤ 56) (hl : l ≤ L) {U : Nat → ℚ} (hU : ∀ i, |(U i : ℝ)| ≤ 212)
  {a b : IEEE m} (ha : Val a (U ⌊klQ P L l⌋.toNat)) (hb : Val b (U (⌊klQ P L l⌋.toNat + 1)))
  {t s : IEEE m} {t' s' : ℝ} (ht : Near (3 / 1000) 37.12 t t') (hs : Near (295 / 100000) 148.4 s s')
include hP hL hL' hl hU ha hb ht hs

theorem predOut_near : Near (9 / 1000) 334
    (((t +ᶠ ((imbeRho (L : Int) *ᶠ (Arith.ofInt 1 -ᶠ (flokl (P : Int) (L : Int) l -ᶠ Arith.ofInt ⌊klQ P L l⌋))) *ᶠ a)) +ᶠ
      ((imbeRho (L : Int) *ᶠ (flokl (P : Int) (L : Int) l -ᶠ Arith.ofInt ⌊klQ P L l⌋)) *ᶠ b)) -ᶠ s : IEEE m)
    (t' + imbeRho (L : Int) * itp (fun i => (U i : ℝ)) (posR P L l) - s') := by
  have hr := imbeRho_near (m := m) hL hL'
  obtain ⟨r0, r1⟩ := imbeRho_range (L := (L : Int)) (by omega)
  have h1 := (hr.mul (omd_near (m := m) hP (by omega) hL' hl) (B := 7 / 10) (e := 6 / 2 ^ 24) (by norm_num) (by norm_num) (by norm_num)).mul
    (val_near' ha (hU _)) (B := 148.4) (e := 212 * 7 / 2 ^ 24) (by norm_num) (by norm_num) (by norm_num)
  have h2 := (hr.mul (dl_near (m := m) hP (by omega) hL' hl) (B := 7 / 10) (e := 5 / 2 ^ 24) (by norm_num) (by norm_num) (by norm_num)).mul
    (val_near' hb (hU _)) (B := 148.4) (e := 212 * 6 / 2 ^ 24) (by norm_num) (by norm_num) (by norm_num)
  rw [RealArith.mul_r, RealArith.mul_r] at h1 h2
  have hk := itp_kl_abs hP (show 1 ≤ L by omega) hL' hl hU
  have hp := itp_pos_near hP (show 1 ≤ L by omega) hL' hl hU
  have hx := itp_pos_abs hP (show 1 ≤ L by omega) hL' hl hU
  have h3 := ht.add h1 (B := 186) (e := 31 / 10000) (by norm_num) (by norm_num) (by norm_num)
  rw [RealArith.add_r] at h3
  have q1 : |(imbeRho (L : Int) : ℝ) * itp (fun i => (U i : ℝ)) ((klQ P L l : ℚ) : ℝ)| ≤ 7 / 10 * 212 := rho_mul_abs r0 r1 (by norm_num) hk
  have q2 : |(imbeRho (L : Int) : ℝ) * itp (fun i => (U i : ℝ)) (posR P L l)| ≤ 7 / 10 * 212 := rho_mul_abs r0 r1 (by norm_num) hx
  have q3 : |(imbeRho (L : Int) : ℝ) * (itp (fun i => (U i : ℝ)) ((klQ P L l : ℚ) : ℝ) - itp (fun i => (U i : ℝ)) (posR P L l))| ≤ 7 / 10 * (2968 / 1000000) :=
    rho_mul_abs r0 r1 (by norm_num) hp
  have e : t' + (imbeRho (L : Int) : ℝ) * (1 - dR P L l) * (U ⌊klQ P L l⌋.toNat : ℝ) + imbeRho (L : Int) * dR P L l * (U (⌊klQ P L l⌋.toNat + 1) : ℝ)
      = t' + imbeRho (L : Int) * itp (fun i => (U i : ℝ)) ((klQ P L l : ℚ) : ℝ) := by rw [itp_klQ]; ring
  have ht' : |t'| ≤ 37.12 := ht.choose_spec.2.2
  have hs' : |s'| ≤ 148.4 := hs.choose_spec.2.2
  have b1 := abs_le.mp ht'
  have b2 := abs_le.mp hs'
  have h4 := h3.add' h2 (B := 186) (e := 32 / 10000) (by
    rw [e, abs_le]
    have := abs_le.mp q1
    constructor <;> linarith) (by norm_num) (by norm_num)
  rw [e] at h4
  have h5 : Near (53 / 10000) 186 (((t +ᶠ ((imbeRho (L : Int) *ᶠ (Arith.ofInt 1 -ᶠ (flokl (P : Int) (L : Int) l -ᶠ Arith.ofInt ⌊klQ P L l⌋))) *ᶠ a)) +ᶠ
      ((imbeRho (L : Int) *ᶠ (flokl (P : Int) (L : Int) l -ᶠ Arith.ofInt ⌊klQ P L l⌋)) *ᶠ b)) : IEEE m)
      (t' + imbeRho (L : Int) * itp (fun i => (U i : ℝ)) (posR P L l)) := by
    obtain ⟨q, v, c1, _⟩ := h4
    refine ⟨q, v, ?_, ?_⟩
    · rw [abs_le] at c1 q3 ⊢
      constructor <;> linarith
    · rw [abs_le] at q2 ⊢
      constructor <;> linarith
  refine h5.sub' hs ?_ (by norm_num) (by norm_num)
  rw [abs_le] at q2 ⊢
  constructor <;> linarith
end

theorem predict2_near {lax : Bool} {P L : Nat} (hP : P ≤ 56) (hL : 9 ≤ L) (hL' : L ≤ 56) {prev : Parms (IEEE m)}
    {U : Nat → ℚ} (hU : LogVal 212 prev U) {K : Loc 57 Int} {D : Loc 57 (IEEE m)}
    (hKD : ∀ l : Fin 57, 1 ≤ l.val → l.val ≤ L → K l = some ⌊klQ P L l⌋ ∧ D l = some (flokl (P : Int) (L : Int) l -ᶠ Arith.ofInt ⌊klQ P L l⌋))
    {s : IEEE m} {s' : ℝ} (hs : Near (295 / 100000) 148.4 s s') {T : Arr 57 (IEEE m)} {T' : Arr 57 ℝ} (hT : ∀ l, Near (3 / 1000) 37.12 (T l) (T' l))
    (cur : Parms (IEEE m)) : Post (imbePredict2 lax (L : Int) prev K D (imbeRho (L : Int)) s T cur) fun c =>
      (∀ l : Fin 57, 1 ≤ l.val → l.val ≤ L → Near (9 / 1000) 334 (c.log2Ml l)
        (T' l + imbeRho (L : Int) * itp (fun i => (U i : ℝ)) (posR P L l) - s')) ∧
      (∀ l : Fin 57, l.val < 1 ∨ L < l.val → c.log2Ml l = cur.log2Ml l) ∧
      c = { cur with log2Ml := c.log2Ml, Ml := c.Ml } := by
  unfold imbePredict2
  rw [Int.toNat_natCast]
  refine (loopFT_post (fun i (c : Parms (IEEE m)) =>
    (∀ l : Fin 57, 1 ≤ l.val → l.val < i → Near (9 / 1000) 334 (c.log2Ml l)
        (T' l + imbeRho (L : Int) * itp (fun i => (U i : ℝ)) (posR P L l) - s')) ∧
    (∀ l : Fin 57, l.val < 1 ∨ i ≤ l.val → c.log2Ml l = cur.log2Ml l) ∧
    c = { cur with log2Ml := c.log2Ml, Ml := c.Ml }) (by omega) ?_ ?_).mono ?_
  · exact ⟨fun l h1 h2 => by omega, fun _ _ => rfl, rfl⟩
  · rintro i h1 h2 c ⟨g1, g2, g3⟩
    refine Post.bind Loc.rd_post fun dl hdl => Post.bind Loc.rd_post fun ik hik => ?_
    obtain ⟨h, hdl⟩ := hdl
    obtain ⟨_, hik⟩ := hik
    simp only [Int.toNat_natCast] at h hdl hik
    obtain ⟨k1, k2⟩ := hKD ⟨i, h⟩ h1 h2
    rw [k1] at hik
    rw [k2] at hdl
    cases hik
    cases hdl
    obtain ⟨f0, f1, _⟩ := floor_klQ hP (show 1 ≤ L by omega) hL' (show i ≤ L by omega)
    refine Post.bind (hU.rd f0 (by dsimp only; omega)) fun a ha => Post.bind (hU.rd (by dsimp only; omega) (by dsimp only; omega)) fun b hb => ?_
    rw [Int.toNat_add f0 (by decide)] at hb
    refine Post.bind Arr.rd_post fun t ht => ?_
    obtain ⟨_, rfl⟩ := ht
    refine Post.bind Arr.wr_post fun G hG => Post.bind Arr.wr_post fun M hM => Post.pure ⟨fun l l1 l2 => ?_, fun l hl => ?_, ?_⟩
    · obtain ⟨_, _, rfl⟩ := hG
      dsimp only
      simp only [Int.toNat_natCast]
      by_cases e : l.val = i
      · obtain rfl : l = ⟨i, h⟩ := Fin.ext e
        rw [Arr.set_same e]
        exact predOut_near hP hL hL' (show i ≤ L by omega) hU.2.2 ha hb (hT ⟨i, h⟩) hs
      · rw [Arr.set_ne e]
        exact g1 l l1 (by omega)
    · obtain ⟨_, _, rfl⟩ := hG
      dsimp only
      rw [Arr.set_ne (by rw [Int.toNat_natCast]; omega)]
      exact g2 l (by omega)
    · rw [g3]
  · rintro c ⟨g1, g2, g3⟩
    exact ⟨fun l h1 h2 => g1 l h1 (by omega), fun l hl => g2 l (by omega), g3⟩

end Verif.Model
