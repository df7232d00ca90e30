import Verif.Spec.Enhance
import Verif.Lemmas.Smooth
import Verif.Lemmas.SynthSafe

/-!
# Spectral amplitude enhancement in exact arithmetic
-/

set_option linter.unusedSectionVars false

namespace Verif.Model
open Verif Verif.Gen Verif.Spec Verif.Num Arith

theorem foldl_range_sum (n : Nat) (f : Nat → ℝ) (a : ℝ) :
    (List.range n).foldl (fun s i => s + f (i + 1)) a = a + ∑ l ∈ Finset.Icc 1 n, f l := by
  induction n with
  | zero => simp
  | succ n ih =>
    rw [List.range_succ, List.foldl_append, ih, List.foldl_cons, List.foldl_nil,
      Finset.sum_Icc_succ_top (by omega : 1 ≤ n + 1)]
    ring

theorem lit0_r : (lit 0 1 : ℝ) = 0 := by rw [RealArith.lit_r _ _ (by decide)]; norm_num

theorem lit1_r : (lit 1 1 : ℝ) = 1 := by rw [RealArith.lit_r _ _ (by decide)]; norm_num

theorem cosTab_real (w0 : ℝ) {L : Int} (hL : L ≤ 56) : Ok (cosTab w0 L) fun ct =>
    ∀ l : Fin 57, 1 ≤ l.val → (l.val : Int) ≤ L → ct l = some (Real.cos (l.val * w0)) := by
  unfold cosTab
  dsimp only
  refine Ok.bind (P := fun s => ∀ l : Fin 57, 1 ≤ l.val → (l.val : Int) ≤ L → s.1 l = some (Real.cos (l.val * w0))) ?_
    fun s hs => Ok.ok hs
  unfold loopTo
  refine (loopFT_inv (fun k (s : Loc 57 ℝ × ℝ × ℝ) => (∀ l : Fin 57, 1 ≤ l.val → l.val < k → s.1 l = some (Real.cos (l.val * w0))) ∧
    s.2.1 = Real.cos ((k - 1 : ℝ) * w0) ∧ s.2.2 = Real.sin ((k - 1 : ℝ) * w0)) (by omega) ?_ ?_).mono ?_
  · refine ⟨fun l h1 h2 => by omega, ?_, ?_⟩
    · rw [lit1_r]; simp
    · rw [lit0_r]; simp
  · rintro i h1 h2 ⟨ct, c, s⟩ ⟨g1, g2, g3⟩
    dsimp only at g1 g2 g3 ⊢
    have hi : i < 57 := by omega
    rw [Loc.wr_nat hi, ok_bind]
    have hc : c *ᶠ cos w0 -ᶠ s *ᶠ sin w0 = Real.cos (i * w0) := by
      show c * Real.cos w0 - s * Real.sin w0 = _
      rw [g2, g3, show (i : ℝ) * w0 = (i - 1) * w0 + w0 by ring, Real.cos_add]
    have hs : s *ᶠ cos w0 +ᶠ c *ᶠ sin w0 = Real.sin (i * w0) := by
      show s * Real.cos w0 + c * Real.sin w0 = _
      rw [g2, g3, show (i : ℝ) * w0 = (i - 1) * w0 + w0 by ring, Real.sin_add]
    refine Ok.ok ⟨fun l l1 l2 => ?_, ?_, ?_⟩
    · dsimp only
      by_cases e : l.val = i
      · rw [Arr.set_same e, hc, e]
      · rw [Arr.set_ne e]
        exact g1 l l1 (by omega)
    · dsimp only
      rw [hc]; push_cast; congr 1; ring
    · dsimp only
      rw [hs]; push_cast; congr 1; ring
  · rintro s ⟨h, _⟩ l l1 l2
    exact h l l1 (by omega)

theorem amps_fin (Ml : Arr 57 ℝ) (l : Fin 57) : amps Ml l.val = Ml l := by
  unfold amps
  rw [Arr.getD_lt l.isLt]

theorem rd_amps (Ml : Arr 57 ℝ) {l : Nat} (h : l < 57) : Ml.rd (l : Int) = .ok (amps Ml l) := by
  rw [Arr.rd_nat h]
  exact congrArg _ (amps_fin Ml ⟨l, h⟩).symm

theorem rm01_real (w0 : ℝ) {L : Int} (hL : L ≤ 56) (Ml : Arr 57 ℝ) (ct : Loc 57 ℝ)
    (hct : ∀ l : Fin 57, 1 ≤ l.val → (l.val : Int) ≤ L → ct l = some (Real.cos (l.val * w0))) :
    rm01 L Ml ct = .ok (energy (amps Ml) L.toNat, corr w0 (amps Ml) L.toNat) := by
  unfold rm01
  rw [loopTo_foldl L (fun l (s : ℝ × ℝ) => (s.1 + amps Ml l ^ 2, s.2 + amps Ml l ^ 2 * Real.cos (l * w0))) _ _ ?_]
  · have key : ∀ n (a b : ℝ), (List.range n).foldl (fun (s : ℝ × ℝ) i => (s.1 + amps Ml (i + 1) ^ 2,
        s.2 + amps Ml (i + 1) ^ 2 * Real.cos ((i + 1 : Nat) * w0))) (a, b) =
        ((List.range n).foldl (fun s i => s + amps Ml (i + 1) ^ 2) a,
          (List.range n).foldl (fun s i => s + amps Ml (i + 1) ^ 2 * Real.cos ((i + 1 : Nat) * w0)) b) := by
      intro n a b
      induction n with
      | zero => rfl
      | succ n ih => rw [List.range_succ, List.foldl_append, ih, List.foldl_append, List.foldl_append]; rfl
    rw [key, foldl_range_sum _ (fun l => amps Ml l ^ 2), foldl_range_sum _ (fun l => amps Ml l ^ 2 * Real.cos (l * w0)), lit0_r,
      zero_add, zero_add]
    rfl
  · intro l h1 h2 s
    have hl : l < 57 := by omega
    rw [rd_amps Ml hl, ok_bind]
    dsimp only
    rw [Loc.rd_nat hl (hct ⟨l, hl⟩ h1 h2), ok_bind]
    show Except.ok (_ + amps Ml l * amps Ml l, _ + amps Ml l * amps Ml l * _) = _
    rw [← sq]

theorem sqrt_sqrt_r (x : ℝ) (hx : 0 ≤ x) : Real.sqrt (Real.sqrt x) = x ^ (1 / 4 : ℝ) := by
  rw [Real.sqrt_eq_rpow, Real.sqrt_eq_rpow, ← Real.rpow_mul hx]
  norm_num

/-- The radicand of the weight is not negative, and the energy is positive, when the correlation is smaller than the
energy. -/
theorem enh_radicand {w0 R0 R1 c : ℝ} (hw : 0 < w0) (hR : |R1| < R0) (hc : |c| ≤ 1) :
    0 < R0 ∧ 0 < w0 * R0 * (R0 ^ 2 - R1 ^ 2) ∧ 0 ≤ 96 / 100 * Real.pi * (R0 ^ 2 + R1 ^ 2 - 2 * R0 * R1 * c) := by
  have h0 : 0 < R0 := lt_of_le_of_lt (abs_nonneg _) hR
  have h1 : R1 ^ 2 < R0 ^ 2 := by
    rw [← sq_abs R1]
    exact pow_lt_pow_left₀ hR (abs_nonneg _) two_ne_zero
  refine ⟨h0, mul_pos (mul_pos hw h0) (by linarith), mul_nonneg (mul_nonneg (by norm_num) Real.pi_pos.le) ?_⟩
  have h2 : |2 * R0 * R1 * c| ≤ 2 * R0 * |R1| := by
    rw [abs_mul, abs_mul, abs_mul, abs_of_pos h0, abs_two]
    exact mul_le_of_le_one_right (by positivity) hc
  have h3 : 2 * R0 * |R1| ≤ R0 ^ 2 + R1 ^ 2 := by
    nlinarith [sq_nonneg (R0 - |R1|), sq_abs R1]
  have := le_abs_self (2 * R0 * R1 * c)
  linarith

theorem enhWeight_real {w0 : ℝ} {M : Nat → ℝ} {L l : Nat} (hw : 0 < w0) (hR : |corr w0 M L| < energy M L) :
    enhWeight w0 (energy M L) (corr w0 M L) (M l) (Real.cos (l * w0)) = enhW w0 M L l := by
  unfold enhWeight enhW
  obtain ⟨h0, h1, h2⟩ := enh_radicand (c := Real.cos (l * w0)) hw hR (Real.abs_cos_le_one _)
  rw [← sqrt_sqrt_r _ (div_nonneg h2 h1.le), ← Real.sqrt_eq_rpow]
  show Real.sqrt (M l) * Real.sqrt (Real.sqrt _) = _
  refine congrArg (fun x => Real.sqrt (M l) * Real.sqrt (Real.sqrt x)) ?_
  rw [RealArith.fpi_r, RealArith.toF_r, RealArith.dlit_r _ _ (by decide)]
  show ((((96 : Int) : ℝ) / ((100 : Nat) : ℝ) * Real.pi) * ((energy M L * energy M L + corr w0 M L * corr w0 M L) -
    (((2 : Int) : ℝ) * energy M L * corr w0 M L) * Real.cos (l * w0))) / ((w0 * energy M L) * (energy M L * energy M L -
      corr w0 M L * corr w0 M L)) = _
  push_cast
  simp only [sq]

theorem enhApply_real (l : Nat) {L : Int} (hL : 0 ≤ L) (w m : ℝ) :
    enhApply l L w m = (if 8 * l ≤ L.toNat then 1 else max (1 / 2) (min (6 / 5) w)) * m := by
  unfold enhApply
  by_cases h : 8 * (l : Int) ≤ L
  · rw [if_pos h, if_pos (by omega), one_mul]
  · have h' : ¬ 8 * l ≤ L.toNat := by omega
    rw [if_neg h, if_neg h']
    have e1 : (lit 12 10 : ℝ) = 6 / 5 := by rw [RealArith.lit_r _ _ (by decide)]; norm_num
    have e2 : (lit 5 10 : ℝ) = 1 / 2 := by rw [RealArith.lit_r _ _ (by decide)]; norm_num
    rw [e1, e2]
    by_cases h1 : lt (6 / 5 : ℝ) w = true
    · rw [if_pos h1]
      rw [RealArith.lt_r] at h1
      rw [min_eq_left h1.le, max_eq_right (by norm_num)]
      rfl
    · rw [if_neg h1]
      rw [RealArith.lt_r, not_lt] at h1
      rw [min_eq_right h1]
      by_cases h2 : lt w (1 / 2 : ℝ) = true
      · rw [if_pos h2]
        rw [RealArith.lt_r] at h2
        rw [max_eq_left h2.le]
        rfl
      · rw [if_neg h2]
        rw [RealArith.lt_r, not_lt] at h2
        rw [max_eq_right h2]
        rfl

theorem enhWeights_real {w0 : ℝ} {L : Int} (h0 : 0 ≤ L) (hL : L ≤ 56) (Ml : Arr 57 ℝ) (ct : Loc 57 ℝ) (hw : 0 < w0)
    (hR : |corr w0 (amps Ml) L.toNat| < energy (amps Ml) L.toNat)
    (hct : ∀ l : Fin 57, 1 ≤ l.val → (l.val : Int) ≤ L → ct l = some (Real.cos (l.val * w0))) :
    enhWeights w0 L (energy (amps Ml) L.toNat) (corr w0 (amps Ml) L.toNat) ct Ml =
      .ok (fun l => if 1 ≤ l.val ∧ (l.val : Int) ≤ L then enhFactor w0 (amps Ml) L.toNat l.val * Ml l else Ml l) := by
  unfold enhWeights
  have e := loopTo_ptwise (L := L) (n := 57) (by omega) (fun (l : Fin 57) m => (if 8 * l.val ≤ L.toNat then 1 else max (1 / 2) (min (6 / 5)
    (enhWeight w0 (energy (amps Ml) L.toNat) (corr w0 (amps Ml) L.toNat) m (Real.cos (l.val * w0))))) * m)
    (fun l Ml' => do
      let m ← Ml'.rd l
      if eq m (lit 0 1) then .ok Ml'
      else Ml'.wr l (enhApply l L (enhWeight w0 (energy (amps Ml) L.toNat) (corr w0 (amps Ml) L.toNat) m (← ct.rd l)) m)) ?_ Ml
  · rw [e]
    refine congrArg _ (funext fun l => ?_)
    by_cases hl : 1 ≤ l.val ∧ (l.val : Int) ≤ L
    · rw [if_pos hl, if_pos hl]
      have := enhWeight_real (l := l.val) hw hR
      rw [amps_fin] at this
      rw [this]
      rfl
    · rw [if_neg hl, if_neg hl]
  · intro l hl h1 h2 a
    rw [Arr.rd_nat hl, ok_bind]
    by_cases hz : eq (a ⟨l, hl⟩) (lit 0 1) = true
    · rw [if_pos hz]
      rw [RealArith.eq_r, lit0_r] at hz
      rw [hz, mul_zero]
      refine congrArg _ (funext fun j => ?_)
      by_cases e : j.val = l
      · rw [Arr.set_same e, ← hz]
        exact congrArg a (Fin.ext e)
      · rw [Arr.set_ne e]
    · rw [if_neg hz, Loc.rd_nat hl (hct ⟨l, hl⟩ h1 h2), ok_bind, Arr.wr_nat hl, enhApply_real l h0]

theorem enhWeights_eq {F : Type} [Arith F] {w0 r0 r1 : F} {L : Int} (hL : L ≤ 56) (ct : Loc 57 F) (c : Nat → F)
    (hct : ∀ l : Fin 57, 1 ≤ l.val → (l.val : Int) ≤ L → ct l = some (c l.val)) (Ml : Arr 57 F) :
    enhWeights w0 L r0 r1 ct Ml = .ok (fun l => if 1 ≤ l.val ∧ (l.val : Int) ≤ L then
      (if eq (Ml l) (lit 0 1) = true then Ml l else enhApply l.val L (enhWeight w0 r0 r1 (Ml l) (c l.val)) (Ml l)) else Ml l) := by
  unfold enhWeights
  refine loopTo_ptwise (by omega) (fun (l : Fin 57) m => if eq m (lit 0 1) = true then m
    else enhApply l.val L (enhWeight w0 r0 r1 m (c l.val)) m) _ (fun l hl h1 h2 a => ?_) Ml
  rw [Arr.rd_nat hl, ok_bind]
  by_cases hz : eq (a ⟨l, hl⟩) (lit 0 1) = true
  · rw [if_pos hz, if_pos hz, Arr.set_self]
  · rw [if_neg hz, if_neg hz, Loc.rd_nat hl (hct ⟨l, hl⟩ h1 h2), ok_bind, Arr.wr_nat hl]

theorem enhSum_real {L : Int} (hL : L ≤ 56) (Ml : Arr 57 ℝ) : enhSum L Ml = .ok (energy (amps Ml) L.toNat) := by
  unfold enhSum
  rw [loopTo_foldl L (fun l s => s + amps Ml l ^ 2) _ _ ?_, foldl_range_sum _ (fun l => amps Ml l ^ 2), lit0_r, zero_add]
  · rfl
  · intro l h1 h2 s
    rw [rd_amps Ml (by omega), ok_bind]
    dsimp only
    by_cases h : lt (amps Ml l) (lit 0 1) = true
    · rw [if_pos h]
      show Except.ok (s + -amps Ml l * -amps Ml l) = _
      rw [neg_mul_neg, sq]
    · rw [if_neg h]
      show Except.ok (s + amps Ml l * amps Ml l) = _
      rw [sq]

theorem enhScale_real {L : Int} (hL : L ≤ 56) (g : ℝ) (Ml : Arr 57 ℝ) :
    enhScale L g Ml = .ok (fun l => if 1 ≤ l.val ∧ (l.val : Int) ≤ L then g * Ml l else Ml l) := by
  unfold enhScale
  exact loopTo_ptwise (by omega) (fun _ m => g * m) _ (fun l hl h1 h2 a => by
    rw [Arr.rd_nat hl, ok_bind, Arr.wr_nat hl]; rfl) Ml

theorem energy_congr {M N : Nat → ℝ} {L : Nat} (h : ∀ l, 1 ≤ l → l ≤ L → M l = N l) : energy M L = energy N L :=
  Finset.sum_congr rfl fun l hl => by rw [h l (Finset.mem_Icc.1 hl).1 (Finset.mem_Icc.1 hl).2]

theorem energy_scale (g : ℝ) (M : Nat → ℝ) (L : Nat) : energy (fun l => g * M l) L = g ^ 2 * energy M L := by
  unfold energy
  rw [Finset.mul_sum]
  exact Finset.sum_congr rfl fun l _ => by ring

theorem energy_nonneg (M : Nat → ℝ) (L : Nat) : 0 ≤ energy M L := Finset.sum_nonneg fun l _ => sq_nonneg _

theorem enhFactor_bounds (w0 : ℝ) (M : Nat → ℝ) (L l : Nat) : 1 / 2 ≤ enhFactor w0 M L l ∧ enhFactor w0 M L l ≤ 6 / 5 := by
  unfold enhFactor
  split
  · norm_num
  · exact ⟨le_max_left _ _, max_le (by norm_num) (min_le_left _ _)⟩

/-- The energy after weighting is at least a quarter of what it was. -/
theorem energy_weighted (w0 : ℝ) (M : Nat → ℝ) (L : Nat) :
    1 / 4 * energy M L ≤ energy (fun l => enhFactor w0 M L l * M l) L := by
  unfold energy
  rw [Finset.mul_sum]
  refine Finset.sum_le_sum fun l _ => ?_
  have h := (enhFactor_bounds w0 M L l).1
  rw [mul_pow]
  refine mul_le_mul_of_nonneg_right ?_ (sq_nonneg _)
  nlinarith

/-- The whole enhancement in closed form. -/
theorem spectralAmpEnhance_real (a : Nat) (cur : Parms ℝ) (t : Tls ℝ) (h0 : 0 ≤ cur.L) (hL : cur.L ≤ 56) (hw : 0 < cur.w0)
    (hR : |corr cur.w0 (amps cur.Ml) cur.L.toNat| < energy (amps cur.Ml) cur.L.toNat) :
    spectralAmpEnhance a cur t = .ok ({ cur with
      Ml := fun l => if 1 ≤ l.val ∧ (l.val : Int) ≤ cur.L then
          enhGain cur.w0 (amps cur.Ml) cur.L.toNat * (enhFactor cur.w0 (amps cur.Ml) cur.L.toNat l.val * cur.Ml l)
        else cur.Ml l }, setPreEnhRm0 a (energy (amps cur.Ml) cur.L.toNat) t) := by
  unfold spectralAmpEnhance
  obtain ⟨ct, e, hct⟩ := cosTab_real cur.w0 hL
  rw [e, ok_bind, rm01_real cur.w0 hL cur.Ml ct hct, ok_bind]
  dsimp only
  rw [enhWeights_real h0 hL cur.Ml ct hw hR hct, ok_bind, enhSum_real hL, ok_bind, enhScale_real hL, ok_bind]
  have hE : energy (amps fun l : Fin 57 => if 1 ≤ l.val ∧ (l.val : Int) ≤ cur.L then
      enhFactor cur.w0 (amps cur.Ml) cur.L.toNat l.val * cur.Ml l else cur.Ml l) cur.L.toNat =
      energy (fun l => enhFactor cur.w0 (amps cur.Ml) cur.L.toNat l * amps cur.Ml l) cur.L.toNat := by
    refine energy_congr fun l h1 h2 => ?_
    have hl : l < 57 := by omega
    rw [show amps _ l = _ from amps_fin _ ⟨l, hl⟩, show amps cur.Ml l = _ from amps_fin _ ⟨l, hl⟩]
    exact if_pos ⟨h1, by dsimp only; omega⟩
  rw [hE]
  have hpos := (enh_radicand (c := 0) hw hR (by norm_num)).1
  have hne : energy (fun l => enhFactor cur.w0 (amps cur.Ml) cur.L.toNat l * amps cur.Ml l) cur.L.toNat ≠ 0 := by
    have := energy_weighted cur.w0 (amps cur.Ml) cur.L.toNat
    linarith
  have hg : enhGamma (energy (amps cur.Ml) cur.L.toNat) (energy (fun l => enhFactor cur.w0 (amps cur.Ml) cur.L.toNat l * amps cur.Ml l)
      cur.L.toNat) = enhGain cur.w0 (amps cur.Ml) cur.L.toNat := by
    unfold enhGamma
    rw [if_neg (by rw [RealArith.eq_r, lit0_r]; exact hne)]
    rfl
  rw [hg]
  refine congrArg Except.ok (congrArg₂ Prod.mk ?_ rfl)
  refine congrArg (fun M => { cur with Ml := M }) (funext fun l => ?_)
  by_cases h : 1 ≤ l.val ∧ (l.val : Int) ≤ cur.L
  · rw [if_pos h, if_pos h, if_pos h]
  · rw [if_neg h, if_neg h, if_neg h]

/-- The correlation is smaller than the energy as soon as some harmonic with `sin (l w0) ≠ 0` has an amplitude. -/
theorem corr_lt {w0 : ℝ} {M : Nat → ℝ} {L : Nat} (h : ∃ l, 1 ≤ l ∧ l ≤ L ∧ M l ≠ 0 ∧ Real.sin (l * w0) ≠ 0) :
    |corr w0 M L| < energy M L := by
  obtain ⟨k, k1, k2, k3, k4⟩ := h
  unfold corr energy
  refine lt_of_le_of_lt (Finset.abs_sum_le_sum_abs _ _) ?_
  refine Finset.sum_lt_sum (fun l _ => ?_) ⟨k, Finset.mem_Icc.2 ⟨k1, k2⟩, ?_⟩
  · rw [abs_mul, abs_of_nonneg (sq_nonneg _)]
    exact mul_le_of_le_one_right (sq_nonneg _) (Real.abs_cos_le_one _)
  · rw [abs_mul, abs_of_nonneg (sq_nonneg _)]
    have hM : 0 < M k ^ 2 := by positivity
    have hc : |Real.cos (k * w0)| < 1 := by
      have h1 : 0 < Real.sin (k * w0) ^ 2 := by positivity
      have h2 := Real.sin_sq_add_cos_sq (k * w0)
      have h3 : Real.cos (k * w0) ^ 2 < 1 := by linarith
      exact (sq_lt_one_iff_abs_lt_one _).1 h3
    nlinarith

end Verif.Model
