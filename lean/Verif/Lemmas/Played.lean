import Verif.Spec.Played
import Verif.Lemmas.Energy
import Verif.Lemmas.Enhance

/-!
# From the decoded amplitudes to those of the synthesis
-/

namespace Verif.Model
open Verif Verif.Gen Verif.Spec Verif.Num Arith

section
variable {F : Type} [Arith F]

theorem extendBands_same {lo hi : Int} {p : Parms F} {k : Fin 57} (hk : (k.val : Int) ≤ lo) (h0 : 0 ≤ lo) :
    Post (extendBands lo hi p) fun q => q.Ml k = p.Ml k ∧ q.Vl k = p.Vl k := by
  unfold extendBands
  refine loop_post' (fun q : Parms F => q.Ml k = p.Ml k ∧ q.Vl k = p.Vl k) ⟨rfl, rfl⟩ fun i q hq => ?_
  refine Post.bind Arr.wr_post fun M hM => Post.bind Arr.wr_post fun V hV => Post.pure ?_
  dsimp only at hV ⊢
  rw [hM.2.2, hV.2.2, Arr.set_ne (by omega), Arr.set_ne (by omega)]
  exact hq

theorem synthUnmuted_bands (E : Env F) (cur prev : Parms F) (t : Tls F) (k : Fin 57) (h : (k.val : Int) ≤ cur.L) :
    Post (synthUnmuted E cur prev t) fun r => r.cur.Ml k = cur.Ml k ∧ r.cur.Vl k = cur.Vl k := by
  unfold synthUnmuted
  refine Post.bind Post.true fun nr _ => ?_
  refine Post.bind Post.true fun nuv _ => ?_
  refine Post.bind (P := fun q : Parms F × Parms F × Int => q.1.Ml k = cur.Ml k ∧ q.1.Vl k = cur.Vl k) ?_ fun q hq => ?_
  · refine Post.ite (fun _ => ?_) fun _ => ?_
    · exact Post.bind Post.true fun p _ => Post.pure ⟨rfl, rfl⟩
    · exact Post.bind (extendBands_same (k := k) (by exact h) (by dsimp only; omega)) fun p hp => Post.pure hp
  obtain ⟨c, p, ml⟩ := q
  dsimp only at hq ⊢
  refine Post.bind (phaseUpdate_frame _ _ _ _ _ _) fun q hq' => ?_
  obtain ⟨c', p'⟩ := q
  dsimp only at hq' ⊢
  have e : c'.Ml k = cur.Ml k ∧ c'.Vl k = cur.Vl k := by rw [hq'.1]; exact hq
  refine Post.bind Post.true fun out _ => ?_
  refine Post.bind Post.true fun q _ => ?_
  obtain ⟨pl, t'⟩ := q
  dsimp only
  cases pl with
  | some P => exact Post.bind Post.true fun u _ => Post.bind Post.true fun _ _ => Post.pure e
  | none => exact Post.bind Post.true fun _ _ => Post.pure e

/-- A frame is enhanced, smoothed against `enh`, and the bands of the result are those of the synthesis. -/
theorem speak_bands (E : Env F) (C : Call F) (s : St F) : Post (speak E C s) fun o => ∃ e q, spectralAmpEnhance C.pc s.cur s.tls = .ok e ∧
    applySmoothing C.pc e.1 s.enh e.2 = .ok q ∧ o.2.enh.amplitudeThreshold = q.1.amplitudeThreshold ∧ o.2.enh.localEnergy = q.1.localEnergy ∧
    ∀ k : Fin 57, (k.val : Int) ≤ s.cur.L → o.2.enh.Ml k = q.1.Ml k ∧ o.2.enh.Vl k = q.1.Vl k := by
  intro o h
  unfold speak at h
  obtain ⟨⟨c, t⟩, h1, h⟩ := bind_ok h
  obtain ⟨r, h2, h⟩ := bind_ok h
  rw [← ok_inj h]
  have hc := (spectralAmpEnhance_frame _ _ _ _ h1).1
  unfold synthesizeSpeechf at h2
  obtain ⟨⟨c', t'⟩, h3, h2⟩ := bind_ok h2
  have hc' := (applySmoothing_frame _ _ _ _ _ h3).1
  refine ⟨(c, t), (c', t'), h1, h3, ?_⟩
  dsimp only at h2 hc hc' ⊢
  by_cases hm : synthMuted c' = true
  · rw [if_pos hm] at h2
    obtain ⟨x, _, h2⟩ := bind_ok h2
    rw [← ok_inj h2]
    exact ⟨rfl, rfl, fun _ _ => ⟨rfl, rfl⟩⟩
  · rw [if_neg hm] at h2
    have f := (synthUnmuted_frame _ _ _ _ _ h2).cur_eq
    refine ⟨by rw [f], by rw [f], fun k hk => synthUnmuted_bands E c' _ t' k ?_ r h2⟩
    rw [hc', hc]
    exact hk

end

/-! ## Limitation -/

theorem ampTotal_between {lo hi τ : ℝ} {L : Nat} {b g : Nat → ℝ}
    (h : ∀ l, 1 ≤ l → l ≤ L → lo * g l - τ ≤ b l ∧ b l ≤ hi * g l + τ) :
    lo * ampTotal g L - L * τ ≤ ampTotal b L ∧ ampTotal b L ≤ hi * ampTotal g L + L * τ := by
  unfold ampTotal
  have e : ∑ _l ∈ Finset.Icc 1 L, τ = L * τ := by
    rw [Finset.sum_const, Nat.card_Icc, nsmul_eq_mul]
    norm_num
  rw [Finset.mul_sum, Finset.mul_sum, ← e, ← Finset.sum_sub_distrib, ← Finset.sum_add_distrib]
  exact ⟨Finset.sum_le_sum fun l hl => (h l (Finset.mem_Icc.1 hl).1 (Finset.mem_Icc.1 hl).2).1,
    Finset.sum_le_sum fun l hl => (h l (Finset.mem_Icc.1 hl).1 (Finset.mem_Icc.1 hl).2).2⟩

/-- How far the limitation can bring amplitudes apart. -/
theorem limitTo_near {T lo hi τ η : ℝ} {L : Nat} {b g : Nat → ℝ} (T1 : 1 ≤ T) (l0 : lo ≤ 1) (h0 : 1 ≤ hi) (τ0 : 0 ≤ τ) (τ1 : L * τ ≤ η)
    (hb : ∀ l, 1 ≤ l → l ≤ L → 0 ≤ b l) (h : ∀ l, 1 ≤ l → l ≤ L → lo * g l - τ ≤ b l ∧ b l ≤ hi * g l + τ) {l : Nat} (h1 : 1 ≤ l) (h2 : l ≤ L) :
    lo * limitTo T g L l - τ ≤ (hi + η) * limitTo T b L l ∧ (lo - η) * limitTo T b L l ≤ hi * limitTo T g L l + τ := by
  obtain ⟨s1, s2⟩ := ampTotal_between h
  unfold limitTo
  have b0 := hb l h1 h2
  obtain ⟨b1, b2⟩ := h l h1 h2
  have η0 : 0 ≤ η := le_trans (mul_nonneg (Nat.cast_nonneg _) τ0) τ1
  generalize b l = x at *
  generalize g l = y at *
  generalize ampTotal b L = B at *
  generalize ampTotal g L = G at *
  obtain ⟨X, hX⟩ : ∃ X, X = max T G := ⟨_, rfl⟩
  obtain ⟨Y, hY⟩ : ∃ Y, Y = max T B := ⟨_, rfl⟩
  rw [← hX, ← hY]
  have X1 : T ≤ X := by rw [hX]; exact le_max_left _ _
  have X2 : G ≤ X := by rw [hX]; exact le_max_right _ _
  have Y1 : T ≤ Y := by rw [hY]; exact le_max_left _ _
  have Y2 : B ≤ Y := by rw [hY]; exact le_max_right _ _
  have X0 : 0 < X := by linarith
  have Y0 : 0 < Y := by linarith
  have k1 : Y ≤ (hi + η) * X := by
    have p := mul_nonneg η0 (show 0 ≤ X - 1 by linarith)
    rw [hY]
    refine max_le ?_ ?_
    · nlinarith
    · nlinarith
  have k2 : (lo - η) * X ≤ Y := by
    have p := mul_nonneg η0 (show 0 ≤ X - 1 by linarith)
    rcases max_cases T G with ⟨e, _⟩ | ⟨e, _⟩ <;> rw [e] at hX
    · nlinarith
    · rw [hX] at p ⊢
      nlinarith
  have u1 : T / X ≤ 1 := (div_le_one X0).2 X1
  have u0 : 0 ≤ T / X := div_nonneg (by linarith) X0.le
  have m1 : T / X ≤ (hi + η) * (T / Y) := by
    rw [div_le_iff₀ X0, mul_assoc, div_mul_eq_mul_div, mul_div_assoc', le_div_iff₀ Y0]
    nlinarith
  have m2 : (lo - η) * (T / Y) ≤ T / X := by
    rw [le_div_iff₀ X0, mul_assoc, div_mul_eq_mul_div, mul_div_assoc', div_le_iff₀ Y0]
    nlinarith
  constructor
  · have e1 := mul_le_mul_of_nonneg_right b1 u0
    have e2 := mul_le_mul_of_nonneg_left m1 b0
    nlinarith
  · have e1 := mul_le_mul_of_nonneg_right b2 u0
    have e2 := mul_le_mul_of_nonneg_left m2 b0
    nlinarith

/-! ## Stability of the enhancement -/

theorem num_split (E C c : ℝ) : E ^ 2 + C ^ 2 - 2 * E * C * c = ((E - C) ^ 2 * (1 + c) + (E + C) ^ 2 * (1 - c)) / 2 := by ring

theorem quarter_le {x y ν : ℝ} {n : Nat} (hx : 0 ≤ x) (hy : 0 ≤ y) (hν : 0 ≤ ν) (h : x ≤ ν ^ (4 * n) * y) : x ^ (1 / 4 : ℝ) ≤ ν ^ n * y ^ (1 / 4 : ℝ) := by
  refine (Real.rpow_le_rpow hx h (by norm_num)).trans_eq ?_
  rw [Real.mul_rpow (by positivity) hy]
  congr 1
  rw [← Real.rpow_natCast, ← Real.rpow_mul hν, ← Real.rpow_natCast]
  congr 1
  push_cast
  ring

theorem half_le {x y ν : ℝ} (hx : 0 ≤ x) (hy : 0 ≤ y) (hν : 0 ≤ ν) (h : x ≤ ν ^ 2 * y) : x ^ (1 / 2 : ℝ) ≤ ν * y ^ (1 / 2 : ℝ) := by
  refine (Real.rpow_le_rpow hx h (by norm_num)).trans_eq ?_
  rw [Real.mul_rpow (by positivity) hy]
  congr 1
  rw [← Real.sqrt_eq_rpow, Real.sqrt_sq hν]

theorem clamp_le {ν x y : ℝ} (hν : 1 ≤ ν) (h : x ≤ ν * y) (hy : 0 ≤ y) : max (1 / 2) (min (6 / 5) x) ≤ ν * max (1 / 2) (min (6 / 5) y) := by
  rw [mul_max_of_nonneg _ _ (by linarith), mul_min_of_nonneg _ _ (by linarith)]
  exact max_le_max (by linarith) (min_le_min (by linarith) h)

section
variable {w ν : ℝ} {M N : Nat → ℝ} {L : Nat}

theorem sumSq_between (c : Nat → ℝ) (hc : ∀ l, 0 ≤ c l) (hM : ∀ l, 1 ≤ l → l ≤ L → 0 ≤ M l) (h : ∀ l, 1 ≤ l → l ≤ L → M l ≤ N l ∧ N l ≤ ν ^ 2 * M l) :
    ∑ l ∈ Finset.Icc 1 L, M l ^ 2 * c l ≤ ∑ l ∈ Finset.Icc 1 L, N l ^ 2 * c l ∧
    ∑ l ∈ Finset.Icc 1 L, N l ^ 2 * c l ≤ ν ^ 4 * ∑ l ∈ Finset.Icc 1 L, M l ^ 2 * c l := by
  refine ⟨Finset.sum_le_sum fun l hl => ?_, ?_⟩
  · rw [Finset.mem_Icc] at hl
    exact mul_le_mul_of_nonneg_right (pow_le_pow_left₀ (hM l hl.1 hl.2) (h l hl.1 hl.2).1 2) (hc l)
  · rw [Finset.mul_sum]
    refine Finset.sum_le_sum fun l hl => ?_
    rw [Finset.mem_Icc] at hl
    have k := pow_le_pow_left₀ ((hM l hl.1 hl.2).trans (h l hl.1 hl.2).1) (h l hl.1 hl.2).2 2
    have := mul_le_mul_of_nonneg_right k (hc l)
    calc N l ^ 2 * c l ≤ (ν ^ 2 * M l) ^ 2 * c l := this
      _ = ν ^ 4 * (M l ^ 2 * c l) := by ring

theorem energy_sub_corr : energy M L - corr w M L = ∑ l ∈ Finset.Icc 1 L, M l ^ 2 * (1 - Real.cos (l * w)) := by
  unfold energy corr
  rw [← Finset.sum_sub_distrib]
  exact Finset.sum_congr rfl fun l _ => by ring

theorem energy_add_corr : energy M L + corr w M L = ∑ l ∈ Finset.Icc 1 L, M l ^ 2 * (1 + Real.cos (l * w)) := by
  unfold energy corr
  rw [← Finset.sum_add_distrib]
  exact Finset.sum_congr rfl fun l _ => by ring

theorem energy_one : energy M L = ∑ l ∈ Finset.Icc 1 L, M l ^ 2 * 1 := by
  unfold energy
  exact Finset.sum_congr rfl fun l _ => by ring

/-- The weights of close spectra are close. -/
theorem enhW_stable (hν : 1 ≤ ν) (hw : 0 < w) (hM : ∀ l, 1 ≤ l → l ≤ L → 0 ≤ M l) (h : ∀ l, 1 ≤ l → l ≤ L → M l ≤ N l ∧ N l ≤ ν ^ 2 * M l)
    (hc : |corr w M L| < energy M L) {l : Nat} (h1 : 1 ≤ l) (h2 : l ≤ L) :
    0 ≤ enhW w M L l ∧ 0 ≤ enhW w N L l ∧ enhW w N L l ≤ ν ^ 3 * enhW w M L l ∧ enhW w M L l ≤ ν ^ 3 * enhW w N L l := by
  have a0 := sumSq_between (fun _ => 1) (fun _ => zero_le_one) hM h
  have a1 := sumSq_between (fun l => 1 - Real.cos (l * w)) (fun l => by linarith [Real.cos_le_one (l * w)]) hM h
  have a2 := sumSq_between (fun l => 1 + Real.cos (l * w)) (fun l => by linarith [Real.neg_one_le_cos (l * w)]) hM h
  rw [← energy_one, ← energy_one] at a0
  rw [← energy_sub_corr, ← energy_sub_corr] at a1
  rw [← energy_add_corr, ← energy_add_corr] at a2
  rw [abs_lt] at hc
  have m0 := hM l h1 h2
  obtain ⟨m1, m2⟩ := h l h1 h2
  have ν0 : 0 ≤ ν := by linarith
  unfold enhW
  rw [num_split, num_split, show ∀ E C : ℝ, E ^ 2 - C ^ 2 = (E - C) * (E + C) from fun E C => by ring,
    show ∀ E C : ℝ, E ^ 2 - C ^ 2 = (E - C) * (E + C) from fun E C => by ring]
  have c1 := Real.cos_le_one (l * w)
  have c2 := Real.neg_one_le_cos (l * w)
  generalize Real.cos (l * w) = c at *
  have D0 : 0 < energy M L - corr w M L := by linarith
  have P0 : 0 < energy M L + corr w M L := by linarith
  have E0 : 0 < energy M L := by linarith
  generalize energy M L - corr w M L = D at *
  generalize energy M L + corr w M L = P at *
  generalize energy M L = E at *
  generalize energy N L - corr w N L = D' at *
  generalize energy N L + corr w N L = P' at *
  generalize energy N L = E' at *
  generalize M l = x at *
  generalize N l = y at *
  have D0' : 0 < D' := by linarith
  have P0' : 0 < P' := by linarith
  have E0' : 0 < E' := by linarith
  have pos : (0 : ℝ) < 96 / 100 * Real.pi := by positivity
  have n1 : 0 ≤ (D ^ 2 * (1 + c) + P ^ 2 * (1 - c)) / 2 := by
    have := mul_nonneg (sq_nonneg D) (show 0 ≤ 1 + c by linarith)
    have := mul_nonneg (sq_nonneg P) (show 0 ≤ 1 - c by linarith)
    linarith
  have n2 : (D ^ 2 * (1 + c) + P ^ 2 * (1 - c)) / 2 ≤ (D' ^ 2 * (1 + c) + P' ^ 2 * (1 - c)) / 2 := by
    have := mul_le_mul_of_nonneg_right (pow_le_pow_left₀ D0.le a1.1 2) (show 0 ≤ 1 + c by linarith)
    have := mul_le_mul_of_nonneg_right (pow_le_pow_left₀ P0.le a2.1 2) (show 0 ≤ 1 - c by linarith)
    linarith
  have n3 : (D' ^ 2 * (1 + c) + P' ^ 2 * (1 - c)) / 2 ≤ ν ^ 8 * ((D ^ 2 * (1 + c) + P ^ 2 * (1 - c)) / 2) := by
    have k1 := mul_le_mul_of_nonneg_right (pow_le_pow_left₀ D0'.le a1.2 2) (show 0 ≤ 1 + c by linarith)
    have k2 := mul_le_mul_of_nonneg_right (pow_le_pow_left₀ P0'.le a2.2 2) (show 0 ≤ 1 - c by linarith)
    rw [mul_pow, ← pow_mul] at k1 k2
    norm_num at k1 k2
    linarith
  generalize (D ^ 2 * (1 + c) + P ^ 2 * (1 - c)) / 2 = n at *
  generalize (D' ^ 2 * (1 + c) + P' ^ 2 * (1 - c)) / 2 = n' at *
  have d0 : 0 < w * E * (D * P) := by positivity
  have d1 : w * E * (D * P) ≤ w * E' * (D' * P') := by
    have := a0.1
    have := a1.1
    have := a2.1
    gcongr
  have d2 : w * E' * (D' * P') ≤ ν ^ 12 * (w * E * (D * P)) := by
    have e : ν ^ 12 * (w * E * (D * P)) = w * (ν ^ 4 * E) * ((ν ^ 4 * D) * (ν ^ 4 * P)) := by ring
    rw [e]
    have := a0.2
    have := a1.2
    have := a2.2
    gcongr
  have d0' := d0.trans_le d1
  generalize w * E * (D * P) = d at *
  generalize w * E' * (D' * P') = d' at *
  have q0 : 0 ≤ 96 / 100 * Real.pi * n / d := by positivity
  have q0' : 0 ≤ 96 / 100 * Real.pi * n' / d' := div_nonneg (mul_nonneg pos.le (n1.trans n2)) d0'.le
  have r1 : (96 / 100 * Real.pi * n' / d') ^ (1 / 4 : ℝ) ≤ ν ^ 2 * (96 / 100 * Real.pi * n / d) ^ (1 / 4 : ℝ) := by
    refine quarter_le q0' q0 ν0 ?_
    rw [mul_div_assoc', div_le_div_iff₀ d0' d0]
    have i1 := mul_le_mul_of_nonneg_left n3 pos.le
    calc 96 / 100 * Real.pi * n' * d ≤ 96 / 100 * Real.pi * (ν ^ 8 * n) * d' := mul_le_mul i1 d1 d0.le (by positivity)
      _ = ν ^ (4 * 2) * (96 / 100 * Real.pi * n) * d' := by ring
  have r2 : (96 / 100 * Real.pi * n / d) ^ (1 / 4 : ℝ) ≤ ν ^ 3 * (96 / 100 * Real.pi * n' / d') ^ (1 / 4 : ℝ) := by
    refine quarter_le q0 q0' ν0 ?_
    rw [mul_div_assoc', div_le_div_iff₀ d0 d0']
    have i1 := mul_le_mul_of_nonneg_left n2 pos.le
    calc 96 / 100 * Real.pi * n * d' ≤ 96 / 100 * Real.pi * n' * (ν ^ 12 * d) := mul_le_mul i1 d2 d0'.le (mul_nonneg pos.le (n1.trans n2))
      _ = ν ^ (4 * 3) * (96 / 100 * Real.pi * n') * d := by ring
  have s1 := half_le (m0.trans m1) m0 ν0 m2
  have s2 : x ^ (1 / 2 : ℝ) ≤ y ^ (1 / 2 : ℝ) := Real.rpow_le_rpow m0 m1 (by norm_num)
  have z1 := Real.rpow_nonneg q0 (1 / 4 : ℝ)
  have z2 := Real.rpow_nonneg q0' (1 / 4 : ℝ)
  have z3 := Real.rpow_nonneg m0 (1 / 2 : ℝ)
  have z4 := Real.rpow_nonneg (m0.trans m1) (1 / 2 : ℝ)
  generalize (96 / 100 * Real.pi * n / d) ^ (1 / 4 : ℝ) = q at *
  generalize (96 / 100 * Real.pi * n' / d') ^ (1 / 4 : ℝ) = q' at *
  generalize x ^ (1 / 2 : ℝ) = u at *
  generalize y ^ (1 / 2 : ℝ) = v at *
  refine ⟨mul_nonneg z3 z1, mul_nonneg z4 z2, ?_, ?_⟩
  · calc v * q' ≤ (ν * u) * (ν ^ 2 * q) := mul_le_mul s1 r1 z2 (by positivity)
      _ = ν ^ 3 * (u * q) := by ring
  · calc u * q ≤ v * (ν ^ 3 * q') := mul_le_mul s2 r2 z1 z4
      _ = ν ^ 3 * (v * q') := by ring

theorem enhFactor_stable (hν : 1 ≤ ν) (hw : 0 < w) (hM : ∀ l, 1 ≤ l → l ≤ L → 0 ≤ M l) (h : ∀ l, 1 ≤ l → l ≤ L → M l ≤ N l ∧ N l ≤ ν ^ 2 * M l)
    (hc : |corr w M L| < energy M L) {l : Nat} (h1 : 1 ≤ l) (h2 : l ≤ L) :
    enhFactor w N L l ≤ ν ^ 3 * enhFactor w M L l ∧ enhFactor w M L l ≤ ν ^ 3 * enhFactor w N L l := by
  obtain ⟨a, b, c, d⟩ := enhW_stable hν hw hM h hc h1 h2
  have n3 : 1 ≤ ν ^ 3 := one_le_pow₀ hν
  unfold enhFactor
  split
  · exact ⟨by linarith, by linarith⟩
  · exact ⟨clamp_le n3 c a, clamp_le n3 d b⟩

/-- **Close spectra are close after the enhancement.** -/
theorem enhanced_stable (hν : 1 ≤ ν) (hw : 0 < w) (hM : ∀ l, 1 ≤ l → l ≤ L → 0 ≤ M l) (h : ∀ l, 1 ≤ l → l ≤ L → M l ≤ N l ∧ N l ≤ ν ^ 2 * M l)
    (hc : |corr w M L| < energy M L) {l : Nat} (h1 : 1 ≤ l) (h2 : l ≤ L) :
    0 ≤ enhanced w M L l ∧ enhanced w M L l ≤ ν ^ 8 * enhanced w N L l ∧ enhanced w N L l ≤ ν ^ 10 * enhanced w M L l := by
  have ν0 : 0 ≤ ν := by linarith
  have E0 : 0 < energy M L := lt_of_le_of_lt (abs_nonneg _) hc
  have a0 := sumSq_between (fun _ => 1) (fun _ => zero_le_one) hM h
  rw [← energy_one, ← energy_one] at a0
  have hf := fun {l} => enhFactor_stable (l := l) hν hw hM h hc
  have f0 : ∀ (X : Nat → ℝ) l, 0 ≤ enhFactor w X L l := fun X l => le_trans (by norm_num) (enhFactor_bounds w X L l).1
  have F1 : energy (fun l => enhFactor w N L l * N l) L ≤ ν ^ 10 * energy (fun l => enhFactor w M L l * M l) L := by
    unfold energy
    rw [Finset.mul_sum]
    refine Finset.sum_le_sum fun k hk => ?_
    rw [Finset.mem_Icc] at hk
    have m0 := hM k hk.1 hk.2
    have := mul_le_mul (hf hk.1 hk.2).1 (h k hk.1 hk.2).2 (m0.trans (h k hk.1 hk.2).1) (mul_nonneg (by positivity) (f0 M k))
    calc (enhFactor w N L k * N k) ^ 2 ≤ (ν ^ 3 * enhFactor w M L k * (ν ^ 2 * M k)) ^ 2 :=
          pow_le_pow_left₀ (mul_nonneg (f0 N k) (m0.trans (h k hk.1 hk.2).1)) this 2
      _ = ν ^ 10 * (enhFactor w M L k * M k) ^ 2 := by ring
  have F2 : energy (fun l => enhFactor w M L l * M l) L ≤ ν ^ 6 * energy (fun l => enhFactor w N L l * N l) L := by
    unfold energy
    rw [Finset.mul_sum]
    refine Finset.sum_le_sum fun k hk => ?_
    rw [Finset.mem_Icc] at hk
    have m0 := hM k hk.1 hk.2
    have := mul_le_mul (hf hk.1 hk.2).2 (h k hk.1 hk.2).1 m0 (mul_nonneg (by positivity) (f0 N k))
    calc (enhFactor w M L k * M k) ^ 2 ≤ (ν ^ 3 * enhFactor w N L k * N k) ^ 2 := pow_le_pow_left₀ (mul_nonneg (f0 M k) m0) this 2
      _ = ν ^ 6 * (enhFactor w N L k * N k) ^ 2 := by ring
  have F0 : 0 < energy (fun l => enhFactor w M L l * M l) L := by
    have : energy M L / 4 ≤ energy (fun l => enhFactor w M L l * M l) L := by
      unfold energy
      rw [Finset.sum_div]
      refine Finset.sum_le_sum fun k hk => ?_
      have := pow_le_pow_left₀ (by norm_num) (enhFactor_bounds w M L k).1 2
      rw [mul_pow]
      nlinarith [sq_nonneg (M k)]
    linarith
  have F0' : 0 < energy (fun l => enhFactor w N L l * N l) L := by
    by_contra k
    have := mul_nonpos_of_nonneg_of_nonpos (show 0 ≤ ν ^ 6 by positivity) (not_lt.1 k)
    linarith
  have G1 : enhGain w N L ≤ ν ^ 5 * enhGain w M L := by
    unfold enhGain
    rw [← Real.sqrt_sq (show 0 ≤ ν ^ 5 by positivity), ← Real.sqrt_mul (by positivity)]
    refine Real.sqrt_le_sqrt ?_
    rw [mul_div_assoc', div_le_div_iff₀ F0' F0]
    calc energy N L * energy (fun l => enhFactor w M L l * M l) L ≤ (ν ^ 4 * energy M L) * (ν ^ 6 * energy (fun l => enhFactor w N L l * N l) L) :=
          mul_le_mul a0.2 F2 F0.le (by positivity)
      _ = (ν ^ 5) ^ 2 * energy M L * energy (fun l => enhFactor w N L l * N l) L := by ring
  have G2 : enhGain w M L ≤ ν ^ 5 * enhGain w N L := by
    unfold enhGain
    rw [← Real.sqrt_sq (show 0 ≤ ν ^ 5 by positivity), ← Real.sqrt_mul (by positivity)]
    refine Real.sqrt_le_sqrt ?_
    rw [mul_div_assoc', div_le_div_iff₀ F0 F0']
    calc energy M L * energy (fun l => enhFactor w N L l * N l) L ≤ energy N L * (ν ^ 10 * energy (fun l => enhFactor w M L l * M l) L) :=
          mul_le_mul a0.1 F1 F0'.le (E0.le.trans a0.1)
      _ = (ν ^ 5) ^ 2 * energy N L * energy (fun l => enhFactor w M L l * M l) L := by ring
  have g0 : 0 ≤ enhGain w M L := Real.sqrt_nonneg _
  have g0' : 0 ≤ enhGain w N L := Real.sqrt_nonneg _
  have m0 := hM l h1 h2
  obtain ⟨m1, m2⟩ := h l h1 h2
  obtain ⟨e1, e2⟩ := hf h1 h2
  have u0 := f0 M l
  have u0' := f0 N l
  unfold enhanced
  refine ⟨mul_nonneg g0 (mul_nonneg u0 m0), ?_, ?_⟩
  · calc enhGain w M L * (enhFactor w M L l * M l) ≤ (ν ^ 5 * enhGain w N L) * ((ν ^ 3 * enhFactor w N L l) * N l) := by
          refine mul_le_mul G2 (mul_le_mul e2 m1 m0 (by positivity)) (mul_nonneg u0 m0) (by positivity)
      _ = ν ^ 8 * (enhGain w N L * (enhFactor w N L l * N l)) := by ring
  · calc enhGain w N L * (enhFactor w N L l * N l) ≤ (ν ^ 5 * enhGain w M L) * ((ν ^ 3 * enhFactor w M L l) * (ν ^ 2 * M l)) := by
          refine mul_le_mul G1 (mul_le_mul e1 m2 (m0.trans m1) (by positivity)) (mul_nonneg u0' (m0.trans m1)) (by positivity)
      _ = ν ^ 10 * (enhGain w M L * (enhFactor w M L l * M l)) := by ring

end

end Verif.Model
