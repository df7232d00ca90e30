import Verif.Lemmas.Enhance

/-!
# C43: spectral amplitude enhancement

Exact arithmetic. The hypotheses `0 < w0` and "some harmonic with an amplitude and `sin (l w0) ≠ 0`" exclude division by
zero in the weight; the second holds for every spectrum that is not zero when `L w0 < π` (`C43_nonzero`).
-/

namespace Verif.Props
open Verif Verif.Spec Verif.Model Verif.Num Verif.Gen Arith

/-- Some harmonic is present and not at a multiple of half the sampling frequency. -/
def Audible (w0 : ℝ) (M : Nat → ℝ) (L : Nat) : Prop := ∃ l, 1 ≤ l ∧ l ≤ L ∧ M l ≠ 0 ∧ Real.sin (l * w0) ≠ 0

theorem C43_nonzero (w0 : ℝ) (M : Nat → ℝ) (L : Nat) (hw : 0 < w0) (hL : L * w0 < Real.pi) (h : ∃ l, 1 ≤ l ∧ l ≤ L ∧ M l ≠ 0) :
    Audible w0 M L := by
  obtain ⟨l, h1, h2, h3⟩ := h
  have h4 : (1 : ℝ) ≤ l := by exact_mod_cast h1
  have h5 : (l : ℝ) ≤ L := by exact_mod_cast h2
  exact ⟨l, h1, h2, h3, (Real.sin_pos_of_pos_of_lt_pi (by nlinarith) (by nlinarith)).ne'⟩

/-- No denominator in the enhancement is zero and no square root has a negative argument. -/
theorem C43_defined (w0 : ℝ) (M : Nat → ℝ) (L l : Nat) (hw : 0 < w0) (h : Audible w0 M L) :
    0 < energy M L ∧ 0 < w0 * energy M L * (energy M L ^ 2 - corr w0 M L ^ 2) ∧
    0 ≤ 96 / 100 * Real.pi * (energy M L ^ 2 + corr w0 M L ^ 2 - 2 * energy M L * corr w0 M L * Real.cos (l * w0)) ∧
    0 < energy (fun l => enhFactor w0 M L l * M l) L := by
  obtain ⟨h0, h1, h2⟩ := enh_radicand (c := Real.cos (l * w0)) hw (corr_lt h) (Real.abs_cos_le_one _)
  refine ⟨h0, h1, h2, ?_⟩
  have := energy_weighted w0 M L
  linarith

/-- The enhanced amplitudes: each is multiplied by its factor and a common gain; nothing else in the parameter set
changes, and the energy before enhancement is handed over. -/
theorem C43_exact (a : Nat) (cur : Parms ℝ) (t : Tls ℝ) (h0 : 0 ≤ cur.L) (hL : cur.L ≤ 56) (hw : 0 < cur.w0)
    (hA : Audible cur.w0 (amps cur.Ml) cur.L.toNat) :
    spectralAmpEnhance a cur t = .ok ({ cur with
      Ml := fun l => if 1 ≤ l.val ∧ (l.val : Int) ≤ cur.L then
          enhGain cur.w0 (amps cur.Ml) cur.L.toNat * (enhFactor cur.w0 (amps cur.Ml) cur.L.toNat l.val * cur.Ml l)
        else cur.Ml l }, setPreEnhRm0 a (energy (amps cur.Ml) cur.L.toNat) t) :=
  spectralAmpEnhance_real a cur t h0 hL hw (corr_lt hA)

/-- Enhancement keeps the energy and the sign of every amplitude; harmonics with `8 l ≤ L` receive only the common gain,
and the relative change of any other harmonic is between 0.5 and 1.2 times the common gain. -/
theorem C43_energy (a : Nat) (cur : Parms ℝ) (t : Tls ℝ) (h0 : 0 ≤ cur.L) (hL : cur.L ≤ 56) (hw : 0 < cur.w0)
    (hA : Audible cur.w0 (amps cur.Ml) cur.L.toNat) (r : Parms ℝ × Tls ℝ) (h : spectralAmpEnhance a cur t = .ok r) :
    energy (amps r.1.Ml) cur.L.toNat = energy (amps cur.Ml) cur.L.toNat ∧
    (∀ l : Fin 57, 0 ≤ cur.Ml l → 0 ≤ r.1.Ml l) ∧
    ∃ g : ℝ, 0 < g ∧ (∀ l : Fin 57, 1 ≤ l.val → 8 * (l.val : Int) ≤ cur.L → r.1.Ml l = g * cur.Ml l) ∧
      ∀ l : Fin 57, 1 ≤ l.val → (l.val : Int) ≤ cur.L → ∃ f : ℝ, 1 / 2 ≤ f ∧ f ≤ 6 / 5 ∧ r.1.Ml l = g * (f * cur.Ml l) := by
  rw [C43_exact a cur t h0 hL hw hA] at h
  obtain ⟨hE, _, _, hW⟩ := C43_defined cur.w0 (amps cur.Ml) cur.L.toNat 0 hw hA
  have hg : 0 < enhGain cur.w0 (amps cur.Ml) cur.L.toNat := Real.sqrt_pos.2 (div_pos hE hW)
  rw [← ok_inj h]
  refine ⟨?_, fun l hl => ?_, _, hg, fun l h1 h2 => ?_, fun l h1 h2 => ?_⟩
  · have e : energy (amps fun l : Fin 57 => if 1 ≤ l.val ∧ (l.val : Int) ≤ cur.L then
        enhGain cur.w0 (amps cur.Ml) cur.L.toNat * (enhFactor cur.w0 (amps cur.Ml) cur.L.toNat l.val * cur.Ml l)
        else cur.Ml l) cur.L.toNat = energy (fun l => enhGain cur.w0 (amps cur.Ml) cur.L.toNat *
          (fun l => enhFactor cur.w0 (amps cur.Ml) cur.L.toNat l * amps cur.Ml l) l) cur.L.toNat := by
      refine energy_congr fun l h1 h2 => ?_
      have hl : l < 57 := by omega
      beta_reduce
      rw [show amps _ l = _ from amps_fin _ ⟨l, hl⟩, show amps cur.Ml l = _ from amps_fin _ ⟨l, hl⟩]
      exact if_pos ⟨h1, by dsimp only; omega⟩
    dsimp only
    rw [e, energy_scale]
    unfold enhGain
    rw [Real.sq_sqrt (div_nonneg hE.le hW.le), div_mul_cancel₀ _ hW.ne']
  · dsimp only
    split
    · have := (enhFactor_bounds cur.w0 (amps cur.Ml) cur.L.toNat l.val).1
      exact mul_nonneg hg.le (mul_nonneg (by linarith) hl)
    · exact hl
  · have h3 : (l.val : Int) ≤ cur.L := by omega
    dsimp only
    rw [if_pos ⟨h1, h3⟩]
    unfold enhFactor
    rw [if_pos (by omega), one_mul]
  · have hb := enhFactor_bounds cur.w0 (amps cur.Ml) cur.L.toNat l.val
    exact ⟨_, hb.1, hb.2, if_pos ⟨h1, h2⟩⟩

/-- A spectrum that is zero stays zero, whatever the fundamental is. -/
theorem C43_zero (a : Nat) (cur : Parms ℝ) (t : Tls ℝ) (hL : cur.L ≤ 56)
    (hz : ∀ l : Fin 57, 1 ≤ l.val → (l.val : Int) ≤ cur.L → cur.Ml l = 0) :
    spectralAmpEnhance a cur t = .ok (cur, setPreEnhRm0 a 0 t) := by
  have hE : energy (amps cur.Ml) cur.L.toNat = 0 := by
    refine Finset.sum_eq_zero fun l hl => ?_
    rw [Finset.mem_Icc] at hl
    have h57 : l < 57 := by omega
    rw [show amps cur.Ml l = _ from amps_fin _ ⟨l, h57⟩, hz ⟨l, h57⟩ hl.1 (by dsimp only; omega)]
    norm_num
  unfold spectralAmpEnhance
  obtain ⟨ct, e, hct⟩ := cosTab_real cur.w0 hL
  rw [e, ok_bind, rm01_real cur.w0 hL cur.Ml ct hct, ok_bind]
  dsimp only
  have hW : ∀ r0 r1 : ℝ, enhWeights cur.w0 cur.L r0 r1 ct cur.Ml = .ok cur.Ml := by
    intro r0 r1
    rw [enhWeights_eq hL ct (fun l => Real.cos (l * cur.w0)) (fun l h1 h2 => hct l h1 h2)]
    refine congrArg _ (funext fun l => ?_)
    by_cases h : 1 ≤ l.val ∧ (l.val : Int) ≤ cur.L
    · rw [if_pos h, if_pos (by rw [RealArith.eq_r, lit0_r]; exact hz l h.1 h.2)]
    · rw [if_neg h]
  rw [hW, ok_bind, enhSum_real hL, ok_bind, hE, enhScale_real hL, ok_bind]
  have hM : (fun l : Fin 57 => if 1 ≤ l.val ∧ (l.val : Int) ≤ cur.L then enhGamma 0 0 * cur.Ml l else cur.Ml l) = cur.Ml := by
    funext l
    by_cases h : 1 ≤ l.val ∧ (l.val : Int) ≤ cur.L
    · rw [if_pos h, hz l h.1 h.2, mul_zero]
    · rw [if_neg h]
  rw [hM]

/-- The hypotheses hold for a spectrum with one harmonic at a quarter of the sampling frequency. -/
example : Audible (Real.pi / 2) (fun l => if l = 1 then 1 else 0) 9 :=
  ⟨1, le_refl _, by decide, by simp, by norm_num⟩

end Verif.Props
