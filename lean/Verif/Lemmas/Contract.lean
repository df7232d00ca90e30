import Verif.Spec.Predict
import Verif.Lemmas.RealTotal
import Verif.Lemmas.Cache

/-!
# The prediction contracts differences of log amplitudes
-/

set_option linter.unusedSectionVars false

namespace Verif.Model
open Verif Verif.Gen Verif.Spec Arith

theorem lgAt_fin (lax : Bool) (p : Parms ℝ) {i : Int} (h0 : 0 ≤ i) (h1 : i < 57) :
    lgAt lax p i = p.log2Ml ⟨i.toNat, by omega⟩ := by
  unfold lgAt rdLog2
  rw [if_neg (by omega), Arr.rd_ok h0 (by omega)]

/-- All log amplitudes with index `0 .. L` lie in an interval. -/
def InRange (lo hi : ℝ) (p : Parms ℝ) : Prop := ∀ i : Fin 57, (i.val : Int) ≤ p.L → lo ≤ p.log2Ml i ∧ p.log2Ml i ≤ hi

theorem predQ_range {lax : Bool} {p : Parms ℝ} {L : Int} {l : Nat} {lo hi : ℝ} (hp : 0 ≤ p.L) (hp' : p.L ≤ 56) (hL : 1 ≤ L)
    (hl : (l : Int) ≤ L) (h : InRange lo hi p) : lo ≤ predQ lax L p l ∧ predQ lax L p l ≤ hi := by
  obtain ⟨a1, a2, a3, a4⟩ := posI_range hp hL hl
  obtain ⟨_, b2⟩ := posR_range hp hL hl
  unfold predQ
  generalize posI p.L L l = k at *
  generalize posR p.L L l = x at *
  rw [lgAt_fin lax p a1 (by omega)]
  have hk := h ⟨k.toNat, by omega⟩ (by dsimp only; omega)
  rcases lt_or_eq_of_le a2 with c | c
  · rw [lgAt_fin lax p (i := k + 1) (by omega) (by omega)]
    have hk1 := h ⟨(k + 1).toNat, by omega⟩ (by dsimp only; omega)
    generalize p.log2Ml _ = u at *
    generalize p.log2Ml _ = v at *
    constructor <;> nlinarith
  · have : x = k := le_antisymm (by rw [c]; exact b2) a3
    rw [this, sub_self, sub_zero, one_mul, zero_mul, add_zero]
    exact hk

/-- Pairwise differences give an interval. -/
theorem inRange_of_diff {p : Parms ℝ} {S : ℝ} (hp : 0 ≤ p.L)
    (h : ∀ i j : Fin 57, (i.val : Int) ≤ p.L → (j.val : Int) ≤ p.L → p.log2Ml i - p.log2Ml j ≤ S) :
    ∃ lo, InRange lo (lo + S) p := by
  obtain ⟨j, hj, hm⟩ := Finset.exists_min_image (Finset.univ.filter fun i : Fin 57 => (i.val : Int) ≤ p.L) p.log2Ml
    ⟨0, by simp [hp]⟩
  rw [Finset.mem_filter] at hj
  refine ⟨p.log2Ml j, fun i hi => ⟨hm i (by simp [hi]), ?_⟩⟩
  have := h i j hi hj.2
  linarith

theorem mean_range {L : Int} {f : Nat → ℝ} {lo hi : ℝ} (hL : 1 ≤ L) (h : ∀ l : Nat, 1 ≤ l → (l : Int) ≤ L → lo ≤ f l ∧ f l ≤ hi) :
    lo ≤ (∑ k ∈ Finset.Icc 1 L.toNat, f k) / L ∧ (∑ k ∈ Finset.Icc 1 L.toNat, f k) / L ≤ hi := by
  have hc : ((Finset.Icc 1 L.toNat).card : ℝ) = L := by
    rw [Nat.card_Icc]
    have : ((L.toNat : Int) : ℝ) = ((L : Int) : ℝ) := by rw [Int.toNat_of_nonneg (by omega)]
    rw [← this]
    push_cast
    simp
  have hL' : (0 : ℝ) < L := by exact_mod_cast (show 0 < L by omega)
  have hm : ∀ k ∈ Finset.Icc 1 L.toNat, lo ≤ f k ∧ f k ≤ hi := by
    intro k hk
    rw [Finset.mem_Icc] at hk
    exact h k hk.1 (by omega)
  rw [le_div_iff₀ hL', div_le_iff₀ hL', ← hc]
  refine ⟨?_, ?_⟩
  · have := Finset.card_nsmul_le_sum _ f lo fun k hk => (hm k hk).1
    rw [nsmul_eq_mul] at this
    linarith
  · have := Finset.sum_le_card_nsmul _ f hi fun k hk => (hm k hk).2
    rw [nsmul_eq_mul] at this
    linarith

theorem imbeRho_range {L : Int} (h : 9 ≤ L) : (0 : ℝ) ≤ imbeRho L ∧ (imbeRho L : ℝ) ≤ 7 / 10 := by
  unfold imbeRho
  split
  · rw [RealArith.toF_r, RealArith.dlit_r _ _ (by decide)]; norm_num
  · split
    · rw [RealArith.toF_r, RealArith.dlit_r _ _ (by decide), RealArith.dlit_r _ _ (by decide)]
      show (0 : ℝ) ≤ ((3 : Int) : ℝ) / ((100 : Nat) : ℝ) * (L : ℝ) - ((5 : Int) : ℝ) / ((100 : Nat) : ℝ) ∧
        ((3 : Int) : ℝ) / ((100 : Nat) : ℝ) * (L : ℝ) - ((5 : Int) : ℝ) / ((100 : Nat) : ℝ) ≤ 7 / 10
      have h1 : (9 : ℝ) ≤ L := by exact_mod_cast h
      have h2 : (L : ℝ) ≤ 24 := by exact_mod_cast (show L ≤ 24 by assumption)
      norm_num
      constructor <;> linarith
    · rw [RealArith.toF_r, RealArith.dlit_r _ _ (by decide)]; norm_num

theorem rho_mul {a x S : ℝ} {c : ℝ} (h0 : 0 ≤ a) (h1 : a ≤ c) (hS : 0 ≤ S) (hx : x ≤ S) : a * x ≤ c * S := by
  nlinarith [mul_le_mul_of_nonneg_left hx h0, mul_le_mul_of_nonneg_right h1 hS]

theorem rho_mul_abs {a x S : ℝ} {c : ℝ} (h0 : 0 ≤ a) (h1 : a ≤ c) (hS : 0 ≤ S) (hx : |x| ≤ S) : |a * x| ≤ c * S := by
  rw [abs_mul, abs_of_nonneg h0]
  exact rho_mul h0 h1 hS hx

/-- One prediction step, with a residual bounded by `B` and prediction coefficient `rho ≤ c`. -/
theorem contract {lax : Bool} {p : Parms ℝ} {L : Int} {Tl : Nat → ℝ} {B c rho S : ℝ} (hp : 0 ≤ p.L) (hp' : p.L ≤ 56) (hL : 1 ≤ L)
    (hB : ∀ l, |Tl l| ≤ B) (h0 : 0 ≤ rho) (h1 : rho ≤ c) (hS : 0 ≤ S)
    (h : ∀ i j : Fin 57, (i.val : Int) ≤ p.L → (j.val : Int) ≤ p.L → p.log2Ml i - p.log2Ml j ≤ S) :
    (∀ l k : Nat, (l : Int) ≤ L → (k : Int) ≤ L →
      (Tl l + rho * predQ lax L p l) - (Tl k + rho * predQ lax L p k) ≤ 2 * B + c * S) ∧
    ∀ l : Nat, (l : Int) ≤ L → |Tl l + rho * predQ lax L p l - rho / L * (∑ k ∈ Finset.Icc 1 L.toNat, predQ lax L p k)| ≤ B + c * S := by
  obtain ⟨lo, hr⟩ := inRange_of_diff hp h
  have hq : ∀ l : Nat, (l : Int) ≤ L → lo ≤ predQ lax L p l ∧ predQ lax L p l ≤ lo + S := fun l hl => predQ_range hp hp' hL hl hr
  obtain ⟨m1, m2⟩ := mean_range hL fun l _ h2 => hq l h2
  refine ⟨fun l k hl hk => ?_, fun l hl => ?_⟩
  · have := rho_mul h0 h1 hS (x := predQ lax L p l - predQ lax L p k) (by linarith [(hq l hl).2, (hq k hk).1])
    have a := abs_le.mp (hB l)
    have b := abs_le.mp (hB k)
    linarith
  · have := rho_mul_abs h0 h1 hS (x := predQ lax L p l - (∑ k ∈ Finset.Icc 1 L.toNat, predQ lax L p k) / L)
      (by rw [abs_le]; constructor <;> linarith [(hq l hl).2, (hq l hl).1])
    rw [mul_sub, mul_div_assoc', ← div_mul_eq_mul_div] at this
    have a := abs_le.mp (hB l)
    have b := abs_le.mp this
    rw [abs_le]
    constructor <;> linarith

end Verif.Model
