import Verif.Lemmas.FPOps
import Verif.Lemmas.ImbeEval
import Verif.Model.Ambe
import Verif.Lemmas.Exec

/-!
# The subscript of the previous frame used by the prediction of the spectral amplitudes
-/

namespace Verif.Model
open Verif Verif.Num Arith

/-- The two roundings of `((float)p / (float)L) * (float)l`. -/
def klQ (p L l : Nat) : ℚ := rnd F32 (rnd F32 ((p : ℚ) / L) * l)

theorem klQ_bounds {p L l : Nat} (hp : p ≤ 56) (hL : 1 ≤ L) (hL' : L ≤ 56) (hl : l ≤ L) :
    0 ≤ klQ p L l ∧ klQ p L l < p + 1 ∧ (l < L → klQ p L l < 56) ∧ 0 ≤ rnd F32 ((p : ℚ) / L) ∧
      rnd F32 ((p : ℚ) / L) ≤ 57 ∧ rnd F32 ((p : ℚ) / L) * l ≤ 57 := by
  have hLq : (1 : ℚ) ≤ L := by exact_mod_cast hL
  have hL'q : (L : ℚ) ≤ 56 := by exact_mod_cast hL'
  have hpq : (p : ℚ) ≤ 56 := by exact_mod_cast hp
  have hlq : (l : ℚ) ≤ L := by exact_mod_cast hl
  have hl0 : (0 : ℚ) ≤ l := by positivity
  have hp0 : (0 : ℚ) ≤ p := by positivity
  rcases Nat.eq_zero_or_pos p with rfl | hpp
  · simp only [klQ, Nat.cast_zero, zero_div, rnd_zero, zero_mul]
    norm_num
  have hpp' : (1 : ℚ) ≤ p := by exact_mod_cast hpp
  have hu : pow2 (-(F32.p : Int)) = 1 / 16777216 := by decide +kernel
  have hmin : pow2 (F32.emin + F32.p - 1) ≤ 1 / 56 := by decide +kernel
  have hq : (1 : ℚ) / 56 ≤ p / L := by
    rw [div_le_div_iff₀ (by norm_num) (by linarith)]; nlinarith
  have h1 := rnd_le_rel (f := F32) (q := (p : ℚ) / L) (hmin.trans hq)
  have h1' := rnd_ge_rel (f := F32) (q := (p : ℚ) / L) (hmin.trans hq)
  rw [hu] at h1 h1'
  set r := rnd F32 ((p : ℚ) / L) with hr
  have hpL : (p : ℚ) / L * L = p := by field_simp
  have hr0 : 1 / 57 ≤ r := by nlinarith
  have hple : (p : ℚ) / L ≤ p := div_le_self hp0 hLq
  have hmul : r * l ≤ p * (1 + 1 / 16777216) := by
    calc r * l ≤ (p / L * (1 + 1 / 16777216)) * L := by
          apply mul_le_mul h1 hlq hl0; positivity
      _ = _ := by rw [mul_right_comm, hpL]
  have hup : ∀ B : ℚ, r * l ≤ B → 1 ≤ B → klQ p L l ≤ B * (1 + 1 / 16777216) := by
    intro B hB hB1
    have h2 : klQ p L l ≤ rnd F32 B := by unfold klQ; exact rnd_mono F32_p hB
    have h3 := rnd_le_rel (f := F32) (q := B) (hmin.trans (by linarith))
    rw [hu] at h3
    linarith
  refine ⟨?_, ?_, ?_, by linarith, ?_, ?_⟩
  · unfold klQ; exact rnd_nonneg (by positivity)
  · have := hup _ hmul (by nlinarith)
    nlinarith
  · intro hlt
    have hlt' : (l : ℚ) + 1 ≤ L := by exact_mod_cast hlt
    have hB : r * l ≤ 55 * (1 + 1 / 16777216) := by
      have : (p : ℚ) / L * l ≤ 55 := by
        rw [div_mul_eq_mul_div, div_le_iff₀ (by linarith)]
        nlinarith
      calc r * l ≤ (p / L * (1 + 1 / 16777216)) * l := mul_le_mul_of_nonneg_right h1 hl0
        _ = (p / L * l) * (1 + 1 / 16777216) := by ring
        _ ≤ _ := mul_le_mul_of_nonneg_right this (by norm_num)
    have := hup _ hB (by norm_num)
    linarith
  · nlinarith
  · linarith

variable {m : Libm}

theorem flokl_val {p L l : Nat} (hp : p ≤ 56) (hL : 1 ≤ L) (hL' : L ≤ 56) (hl : l ≤ L) :
    Val (flokl (p : Int) (L : Int) l : IEEE m) (klQ p L l) := by
  obtain ⟨h0, h1, _, h2, h3, h4⟩ := klQ_bounds hp hL hL' hl
  have c : ∀ n : Nat, n ≤ 56 → Val (Arith.ofInt (n : Int) : IEEE m) (n : ℚ) := by
    intro n hn
    have := Val.ofInt (m := m) (n := (n : Int)) (by rw [abs_of_nonneg (by omega)]; omega)
    simpa using this
  have hL0 : (L : ℚ) ≠ 0 := by
    have : (1 : ℚ) ≤ L := by exact_mod_cast hL
    linarith
  have hb : (56 : ℚ) * 57 ≤ Val.big := by rw [Val.big_eq]; norm_num
  have hdiv : |(p : ℚ) / L| ≤ Val.big := by
    rw [abs_of_nonneg (by positivity)]
    have : (p : ℚ) / L ≤ p := div_le_self (by positivity) (by exact_mod_cast hL)
    have hpq : (p : ℚ) ≤ 56 := by exact_mod_cast hp
    linarith
  have hd := (c p hp).div (c L hL') hL0 hdiv
  refine hd.mul (c l (hl.trans hL')) ?_
  rw [abs_of_nonneg (by positivity)]
  linarith

/-- The integer part of the index. -/
theorem toI32_flokl {p L l : Nat} (hp : p ≤ 56) (hL : 1 ≤ L) (hL' : L ≤ 56) (hl : l ≤ L) :
    toI32 (flokl (p : Int) (L : Int) l : IEEE m) = .ok ⌊klQ p L l⌋ := by
  obtain ⟨h0, h1, _⟩ := klQ_bounds hp hL hL' hl
  refine (flokl_val hp hL hL' hl).toI32 h0 ?_
  have hpq : (p : ℚ) ≤ 56 := by exact_mod_cast hp
  linarith

theorem floor_klQ {p L l : Nat} (hp : p ≤ 56) (hL : 1 ≤ L) (hL' : L ≤ 56) (hl : l ≤ L) :
    0 ≤ ⌊klQ p L l⌋ ∧ ⌊klQ p L l⌋ ≤ p ∧ (l < L → ⌊klQ p L l⌋ ≤ 55) := by
  obtain ⟨h0, h1, h2, _⟩ := klQ_bounds hp hL hL' hl
  refine ⟨Int.floor_nonneg.mpr h0, ?_, fun h => ?_⟩
  · have : ⌊klQ p L l⌋ < (p : Int) + 1 := by rw [Int.floor_lt]; push_cast; exact h1
    omega
  · have : ⌊klQ p L l⌋ < 56 := by rw [Int.floor_lt]; exact_mod_cast h2 h
    omega

/-- The last index reaches 56 when the previous frame has 56 harmonics, except for two values of `L`. -/
theorem klQ_56 : ∀ L < 57, 9 ≤ L → (56 ≤ klQ 56 L L ↔ L ≠ 23 ∧ L ≠ 46) := by decide +kernel

end Verif.Model
