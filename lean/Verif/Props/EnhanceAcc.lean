import Verif.Lemmas.EnhLoud
import Verif.Lemmas.EnhWith
import Verif.Lemmas.FinHist
import Verif.Props.Enhance

/-!
# C77: spectral amplitude enhancement in binary32

`C43_exact` gives the enhanced amplitudes in exact arithmetic: the amplitude times `enhFactor` times the common gain `enhGain`.
-/

namespace Verif.Props
open Verif Verif.Spec Verif.Model Verif.Num Verif.Gen Arith
variable {m : Libm}

/-- **The enhanced amplitudes in binary32** are within a twentieth of the exact ones, for amplitudes up to `2^18`. -/
theorem C77_amp (hm : TrigAcc m) (hcos : CosAcc m) (hsin : SinAcc m) (addr : Nat) (cur : Parms (IEEE m)) (t : Tls (IEEE m))
    (h : EnhanceOk (2 ^ 18) cur) : ∃ r, spectralAmpEnhance addr cur t = .ok r ∧ r.1 = { cur with Ml := r.1.Ml } ∧
      ∀ l : Fin 57, 1 ≤ l.val → (l.val : Int) ≤ cur.L → ∃ v : ℚ, Val (r.1.Ml l) v ∧ 0 ≤ v ∧
        |(v : ℝ) - enhGain (valuesOf cur).w0 (amps (valuesOf cur).Ml) cur.L.toNat *
            (enhFactor (valuesOf cur).w0 (amps (valuesOf cur).Ml) cur.L.toNat l.val * (valuesOf cur).Ml l)| ≤
          1 / 20 * (enhGain (valuesOf cur).w0 (amps (valuesOf cur).Ml) cur.L.toNat *
            (enhFactor (valuesOf cur).w0 (amps (valuesOf cur).Ml) cur.L.toNat l.val * (valuesOf cur).Ml l)) + 1 / 2 ^ 120 := by
  obtain ⟨_, _, _, ⟨_, L2⟩, _⟩ := h.pitch
  obtain ⟨r, hr, _⟩ := spectralAmpEnhance_fine addr cur t L2
  exact ⟨r, hr, enhanceWith_amp sumsNear_scalar hm hcos hsin h hr⟩

/-- **The energy is kept** to a hundred-thousandth, for amplitudes up to `2^27`; the energy before the enhancement, which the
adaptive smoothing takes over, is right to the same precision. -/
theorem C77_energy (hm : TrigAcc m) (addr : Nat) (cur : Parms (IEEE m)) (t : Tls (IEEE m)) (h : EnhanceOk (2 ^ 27) cur) :
    ∃ (r : Parms (IEEE m) × Tls (IEEE m)) (q : IEEE m) (v : ℚ), spectralAmpEnhance addr cur t = .ok r ∧ r.2 = setPreEnhRm0 addr q t ∧ Val q v ∧
      |energy (amps (valuesOf r.1).Ml) cur.L.toNat - energy (amps (valuesOf cur).Ml) cur.L.toNat| ≤
        energy (amps (valuesOf cur).Ml) cur.L.toNat / 100000 ∧
      |(v : ℝ) - energy (amps (valuesOf cur).Ml) cur.L.toNat| ≤ energy (amps (valuesOf cur).Ml) cur.L.toNat / 100000 + 1 / 2 ^ 130 := by
  obtain ⟨w, hw, ⟨w1, w2⟩, ⟨L1, L2⟩, hp⟩ := h.pitch
  obtain ⟨r, hr, _⟩ := spectralAmpEnhance_fine addr cur t L2
  obtain ⟨a, ha, hz⟩ := h.amps
  obtain ⟨v, hv, e⟩ := sqSum_near L2 fun l h1 h2 => ⟨(ha l h1 h2).1, (ha l h1 h2).2.1, (ha l h1 h2).2.2.trans (by norm_num)⟩
  refine ⟨r, _, v, hr, spectralAmpEnhance_rm0 addr cur t L2 r hr, hv, enhance_energy hm hw w1 w2 hp L1 L2 h.amps r hr, e.trans ?_⟩
  have : 0 ≤ energy (amps (valuesOf cur).Ml) cur.L.toNat := Finset.sum_nonneg fun _ _ => sq_nonneg _
  linarith

theorem pitchWithin_of {x : IEEE m} {L : Int} (h : Pitch x L) (L1 : 1 ≤ L) (L2 : L ≤ 56) : ∃ w : ℚ, Val x w ∧ PitchWithin w L := by
  obtain ⟨w, h1, h2, h3, h4⟩ := h
  exact ⟨w, h1, ⟨h2, h3.trans (by norm_num)⟩, ⟨L1, L2⟩, h4⟩

/-- **Every speech frame of the three decoders** has such a fundamental. -/
theorem C77_decoded (he : Exp2Acc m) (lax : Bool) (cur prev : Parms (IEEE m)) (t : Tls (IEEE m)) (hc : SetOk cur) (hp : SetOk prev) (d : Nat → Int) :
    (Bits 88 d → ∀ r, decodeImbe4400 lax d cur prev t = .ok r → r.bad = 0 → ∃ w : ℚ, Val r.cur.w0 w ∧ PitchWithin w r.cur.L) ∧
    (Bits 49 d → ∀ e r, decodeAmbe2450 lax d e cur prev t = .ok r → r.bad = 0 → ∃ w : ℚ, Val r.cur.w0 w ∧ PitchWithin w r.cur.L) ∧
    (Bits 49 d → ∀ r, decodeAmbe2400 lax d cur prev t = .ok r → r.bad = 0 → ∃ w : ℚ, Val r.cur.w0 w ∧ PitchWithin w r.cur.L) := by
  refine ⟨fun hd r h hb => ?_, fun hd e r h hb => ?_, fun hd r h hb => ?_⟩
  · obtain ⟨o, _⟩ := (decodeImbe4400_u (U := fun _ => True) (.inr trivial) hd t hc hp).toPost r h
    rcases imbeDecode_pitch hd lax cur prev t r h with ⟨k, _⟩ | ⟨_, k⟩
    · omega
    · exact pitchWithin_of k (by have := o.lo; omega) o.hi
  · obtain ⟨o, _⟩ := (decodeAmbe2450_u (U := fun _ => True) (.inr trivial) hd e t hc hp).toPost r h
    exact pitchWithin_of (ambe2450_decode_pitch hd lax e hp t r h hb) (by have := o.lo; omega) o.hi
  · obtain ⟨o, _⟩ := (decodeAmbe2400_u he (U := fun _ => True) (.inr trivial) hd t hc hp).toPost r h
    exact pitchWithin_of (ambe2400_decode_pitch he hd lax hp t r h hb) (by have := o.lo; omega) o.hi

/-- **In exact arithmetic the factors do not depend on the volume.** -/
theorem C77_scale (g w : ℝ) (hg : 0 < g) (hw : 0 < w) (M : Nat → ℝ) (hM : ∀ l, 0 ≤ M l) (L l : Nat) :
    enhFactor w (fun l => g * M l) L l = enhFactor w M L l := by
  unfold enhFactor
  rw [enhW_scale hg (hM l)]
  have h1 : 0 ≤ energy M L := Finset.sum_nonneg fun _ _ => sq_nonneg _
  have h2 : |corr w M L| ≤ energy M L := by
    unfold corr energy
    refine (Finset.abs_sum_le_sum_abs _ _).trans (Finset.sum_le_sum fun l _ => ?_)
    rw [abs_mul, abs_of_nonneg (sq_nonneg (M l))]
    exact mul_le_of_le_one_right (sq_nonneg _) (Real.abs_cos_le_one _)
  refine mul_nonneg (by positivity) (sub_nonneg.2 ?_)
  rw [← sq_abs (corr w M L)]
  exact pow_le_pow_left₀ (abs_nonneg _) h2 2

/-- **In binary32 they do.** With an amplitude of `2^25` or more the denominator of every weight is infinite and the weight zero:
the lowest eighth of the harmonics keeps its level relative to the rest, every other amplitude is halved. -/
theorem C77_loud (hm : TrigAcc m) (addr : Nat) (cur : Parms (IEEE m)) (t : Tls (IEEE m)) (h : EnhanceOk (2 ^ 27) cur)
    (k : Fin 57) (k1 : 1 ≤ k.val) (k2 : (k.val : Int) ≤ cur.L) (k3 : 2 ^ 25 ≤ (valuesOf cur).Ml k) :
    ∃ r, spectralAmpEnhance addr cur t = .ok r ∧ ∀ l : Fin 57, 1 ≤ l.val → (l.val : Int) ≤ cur.L → ∃ v : ℚ, Val (r.1.Ml l) v ∧ 0 ≤ v ∧
        |(v : ℝ) - Real.sqrt (energy (amps (valuesOf cur).Ml) cur.L.toNat / energy (fun l => halved cur.L.toNat l * amps (valuesOf cur).Ml l) cur.L.toNat) *
            (halved cur.L.toNat l.val * (valuesOf cur).Ml l)| ≤
          1 / 20 * (Real.sqrt (energy (amps (valuesOf cur).Ml) cur.L.toNat / energy (fun l => halved cur.L.toNat l * amps (valuesOf cur).Ml l) cur.L.toNat) *
            (halved cur.L.toNat l.val * (valuesOf cur).Ml l)) + 1 / 2 ^ 120 := by
  obtain ⟨_, _, _, ⟨_, L2⟩, _⟩ := h.pitch
  obtain ⟨r, hr, _⟩ := spectralAmpEnhance_fine addr cur t L2
  exact ⟨r, hr, enhanceWith_louder sumsNear_scalar hm h hr k k1 k2 k3⟩

/-! ## Concrete cases -/

/-- Twelve harmonics of equal amplitude. -/
def flat (v : IEEE m) : Parms (IEEE m) := { imbeInit 12 with w0 := lit 1 4, Ml := Arr.const 57 v }

theorem flat_ok {v : IEEE m} {q A : ℚ} (h : Val v q) (h1 : 1 / 1024 ≤ q) (h2 : q ≤ A) : EnhanceOk A (flat v) := by
  have w4 : Val (lit 1 4 : IEEE m) (1 / 4) := val_of_rng (show rngB (lit 1 4 : IEEE libm0) (1 / 4) (1 / 4) = true by decide +kernel)
  refine ⟨⟨1 / 4, w4, by norm_num, by show (1 : Int) ≤ 12 ∧ (12 : Int) ≤ 56; decide, pitch_lin (by norm_num) ?_⟩,
    fun _ => q, fun _ _ _ => ⟨h, by linarith, h2⟩, .inr ⟨1, le_rfl, ?_, h1⟩⟩
  · show (1 / 4 : ℚ) * ((12 : Int) : ℚ) ≤ _
    norm_num
  · show (1 : Int) ≤ 12
    decide

/-- The mean of `cos (l / 4)` over these harmonics is negative. -/
theorem flat_corr : corr (1 / 4) (fun _ => 1) 12 ≤ 0 := by
  have pair : ∀ x y : ℝ, x + y = 13 / 4 → |x - y| ≤ 11 / 4 → Real.cos x + Real.cos y ≤ 0 := by
    intro x y e d
    rw [Real.cos_add_cos, e]
    rw [abs_le] at d
    have p1 := Real.pi_lt_d2
    have p2 := Real.pi_gt_d2
    norm_num at p1 p2
    have c1 : Real.cos (13 / 4 / 2) ≤ 0 := Real.cos_nonpos_of_pi_div_two_le_of_le (by linarith) (by linarith)
    have c2 : 0 ≤ Real.cos ((x - y) / 2) := Real.cos_nonneg_of_neg_pi_div_two_le_of_le (by linarith) (by linarith)
    exact mul_nonpos_of_nonpos_of_nonneg (by linarith) c2
  have p1 := pair (1 * (1 / 4)) (12 * (1 / 4)) (by norm_num) (by norm_num [abs_le])
  have p2 := pair (2 * (1 / 4)) (11 * (1 / 4)) (by norm_num) (by norm_num [abs_le])
  have p3 := pair (3 * (1 / 4)) (10 * (1 / 4)) (by norm_num) (by norm_num [abs_le])
  have p4 := pair (4 * (1 / 4)) (9 * (1 / 4)) (by norm_num) (by norm_num [abs_le])
  have p5 := pair (5 * (1 / 4)) (8 * (1 / 4)) (by norm_num) (by norm_num [abs_le])
  have p6 := pair (6 * (1 / 4)) (7 * (1 / 4)) (by norm_num) (by norm_num [abs_le])
  unfold corr
  rw [show Finset.Icc 1 12 = {1, 2, 3, 4, 5, 6, 7, 8, 9, 10, 11, 12} from rfl]
  simp only [Finset.sum_insert, Finset.mem_insert, Finset.mem_singleton, Finset.sum_singleton, Nat.reduceEqDiff, or_self, not_false_eq_true,
    one_pow, one_mul, Nat.cast_ofNat, Nat.cast_one]
  norm_num at *
  linarith

/-- The exact factor of the second of these harmonics is at least 1. -/
theorem flat_factor : 1 ≤ enhFactor (1 / 4) (fun _ => 1) 12 2 := by
  have e : energy (fun _ => 1) 12 = 12 := by unfold energy; norm_num
  have c := flat_corr
  have c0 : |corr (1 / 4) (fun _ => 1) 12| < energy (fun _ => 1) 12 := corr_lt ⟨1, le_rfl, by norm_num, one_ne_zero,
    (Real.sin_pos_of_pos_of_lt_pi (by norm_num) (by have := Real.pi_gt_three; norm_num; linarith)).ne'⟩
  rw [e, abs_lt] at c0
  have p := Real.pi_gt_d2
  norm_num at p
  have c2 : 0 ≤ Real.cos ((2 : Nat) * (1 / 4)) := Real.cos_nonneg_of_neg_pi_div_two_le_of_le (by push_cast; linarith) (by push_cast; linarith)
  have w : 1 ≤ enhW (1 / 4) (fun _ => 1) 12 2 := by
    unfold enhW
    rw [e, Real.one_rpow, one_mul]
    generalize corr (1 / 4) (fun _ => 1) 12 = z at *
    generalize Real.cos ((2 : Nat) * (1 / 4)) = y at *
    refine Real.one_le_rpow ?_ (by norm_num)
    have h3 : z ^ 2 < 144 := by nlinarith
    rw [one_le_div (by nlinarith)]
    have h4 : 0 ≤ -(z * y) := by nlinarith
    have h5 : 0 ≤ z ^ 2 := sq_nonneg z
    have h6 : (0 : ℝ) ≤ 12 ^ 2 + z ^ 2 - 2 * 12 * z * y := by nlinarith
    have h7 := mul_le_mul_of_nonneg_right (show (3.14 : ℝ) ≤ Real.pi by norm_num; linarith) h6
    nlinarith
  unfold enhFactor
  rw [if_neg (by norm_num)]
  exact le_max_of_le_right (le_min (by norm_num) w)

/-- **The two disagree**: for twelve harmonics of amplitude `2^25` the exact formula makes the second no smaller than the first,
binary32 makes it little more than half as large. -/
theorem C77_witness (hm : TrigAcc m) (addr : Nat) (t : Tls (IEEE m)) : ∃ (cur : Parms (IEEE m)) (r : Parms (IEEE m) × Tls (IEEE m)) (v1 v2 : ℚ),
    EnhanceOk (2 ^ 25) cur ∧ spectralAmpEnhance addr cur t = .ok r ∧ Val (r.1.Ml 1) v1 ∧ Val (r.1.Ml 2) v2 ∧ 0 < v1 ∧ (v2 : ℝ) < 3 / 5 * v1 ∧
    enhFactor (valuesOf cur).w0 (amps (valuesOf cur).Ml) 12 1 * (valuesOf cur).Ml 1 ≤
      enhFactor (valuesOf cur).w0 (amps (valuesOf cur).Ml) 12 2 * (valuesOf cur).Ml 2 := by
  have hv : Val (lit (2 ^ 25) 1 : IEEE m) (2 ^ 25) :=
    val_of_rng (show rngB (lit (2 ^ 25) 1 : IEEE libm0) (2 ^ 25) (2 ^ 25) = true by decide +kernel)
  have w4 : Val (lit 1 4 : IEEE m) (1 / 4) := val_of_rng (show rngB (lit 1 4 : IEEE libm0) (1 / 4) (1 / 4) = true by decide +kernel)
  have hM : ∀ l, (valuesOf (flat (lit (2 ^ 25) 1 : IEEE m))).Ml l = 2 ^ 25 := fun l => by
    show number (lit (2 ^ 25) 1 : IEEE m) = 2 ^ 25
    rw [Val.number hv]
    norm_num
  have hw : (valuesOf (flat (lit (2 ^ 25) 1 : IEEE m))).w0 = 1 / 4 := by
    show number (lit 1 4 : IEEE m) = 1 / 4
    rw [Val.number w4]
    norm_num
  have hA : ∀ l, 1 ≤ l → l ≤ 12 → amps (valuesOf (flat (lit (2 ^ 25) 1 : IEEE m))).Ml l = 2 ^ 25 * (fun _ => (1 : ℝ)) l := fun l _ h2 => by
    rw [show amps (valuesOf (flat (lit (2 ^ 25) 1 : IEEE m))).Ml l = _ from amps_fin _ ⟨l, by omega⟩, hM]
    norm_num
  obtain ⟨r, hr, h⟩ := C77_loud hm addr (flat (lit (2 ^ 25) 1)) t (flat_ok hv (by norm_num) (by norm_num)) 1 (by decide) (by show (1 : Int) ≤ 12; decide) (hM 1).ge
  obtain ⟨v1, a1, b1, c1⟩ := h 1 (by decide) (by show (1 : Int) ≤ 12; decide)
  obtain ⟨v2, a2, b2, c2⟩ := h 2 (by decide) (by show (2 : Int) ≤ 12; decide)
  have eL : (flat (lit (2 ^ 25) 1 : IEEE m)).L.toNat = 12 := rfl
  have h1 : halved 12 (1 : Fin 57).val = 1 := if_pos (by decide)
  have h2 : halved 12 (2 : Fin 57).val = 1 / 2 := if_neg (by decide)
  rw [eL, hM, h1] at c1
  rw [eL, hM, h2] at c2
  have G1 : 1 ≤ Real.sqrt (energy (amps (valuesOf (flat (lit (2 ^ 25) 1 : IEEE m))).Ml) 12 /
      energy (fun l => halved 12 l * amps (valuesOf (flat (lit (2 ^ 25) 1 : IEEE m))).Ml l) 12) := by
    rw [Real.one_le_sqrt]
    have pos : 0 < energy (fun l => halved 12 l * amps (valuesOf (flat (lit (2 ^ 25) 1 : IEEE m))).Ml l) 12 := by
      unfold energy
      refine Finset.sum_pos (fun l hl => ?_) ⟨1, by simp⟩
      rw [Finset.mem_Icc] at hl
      dsimp only
      rw [hA l hl.1 hl.2]
      unfold halved
      split <;> positivity
    rw [one_le_div pos]
    unfold energy
    refine Finset.sum_le_sum fun l _ => ?_
    rw [mul_pow]
    refine mul_le_of_le_one_left (sq_nonneg _) ?_
    unfold halved
    split <;> norm_num
  generalize Real.sqrt (energy (amps (valuesOf (flat (lit (2 ^ 25) 1 : IEEE m))).Ml) 12 /
      energy (fun l => halved 12 l * amps (valuesOf (flat (lit (2 ^ 25) 1 : IEEE m))).Ml l) 12) = G at c1 c2 G1
  refine ⟨_, r, v1, v2, flat_ok hv (by norm_num) le_rfl, hr, a1, a2, ?_, ?_, ?_⟩
  · rw [abs_le] at c1
    have : (0 : ℝ) < v1 := by
      norm_num at c1
      linarith
    exact_mod_cast this
  · rw [abs_le] at c1 c2
    norm_num at c1 c2 ⊢
    linarith
  · rw [hM, hM, hw, enhFactor_congr hA le_rfl (by norm_num), enhFactor_congr hA (by norm_num) (by norm_num),
      C77_scale _ _ (by norm_num) (by norm_num) _ (fun _ => zero_le_one), C77_scale _ _ (by norm_num) (by norm_num) _ (fun _ => zero_le_one)]
    refine mul_le_mul_of_nonneg_right (le_trans ?_ flat_factor) (by norm_num)
    unfold enhFactor
    rw [if_pos (by norm_num)]

/-- Twelve harmonics of amplitude 1 meet the hypotheses of `C77_amp`. -/
example : EnhanceOk (2 ^ 18) (flat (lit 1 1 : IEEE m)) :=
  flat_ok (val_of_rng (show rngB (lit 1 1 : IEEE libm0) 1 1 = true by decide +kernel)) (by norm_num) (by norm_num)

end Verif.Props
