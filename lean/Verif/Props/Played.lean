import Verif.Lemmas.Played
import Verif.Props.SmoothAcc
import Verif.Props.Track

/-!
# C79: from the received bits to the amplitudes that are played
-/

namespace Verif.Props
open Verif Verif.Spec Verif.Model Verif.Num Verif.Gen Arith
variable {m : Libm}

theorem ampTotal_congr {M N : Nat → ℝ} {L : Nat} (h : ∀ l, 1 ≤ l → l ≤ L → M l = N l) : ampTotal M L = ampTotal N L :=
  Finset.sum_congr rfl fun l hl => h l (Finset.mem_Icc.1 hl).1 (Finset.mem_Icc.1 hl).2

theorem limitTo_congr {T : ℝ} {M N : Nat → ℝ} {L : Nat} (h : ∀ l, 1 ≤ l → l ≤ L → M l = N l) {l : Nat} (h1 : 1 ≤ l) (h2 : l ≤ L) :
    limitTo T M L l = limitTo T N L l := by
  unfold limitTo
  rw [ampTotal_congr h, h l h1 h2]

theorem ampSum_real (Ml : Arr 57 ℝ) (L : Int) : ampSum Ml L = ampTotal (amps Ml) L.toNat := by
  unfold ampSum ampTotal amps
  rw [← zero_add (∑ l ∈ _, _), ← foldl_range_sum _ (fun l => Ml.getD l 0), ← lit0_r]
  rfl

/-- **In exact arithmetic** the amplitudes that a speech frame is synthesised with are the enhanced ones, limited to the new
threshold. -/
theorem C79_exact (E : Env ℝ) (C : Call ℝ) (s : St ℝ) (o : Arr 160 ℝ × St ℝ) (h : speak E C s = .ok o) (h0 : 0 ≤ s.cur.L) (hL : s.cur.L ≤ 56)
    (hw : 0 < s.cur.w0) (hA : Audible s.cur.w0 (amps s.cur.Ml) s.cur.L.toNat) (hT : 1 ≤ o.2.enh.amplitudeThreshold)
    (l : Fin 57) (l1 : 1 ≤ l.val) (l2 : (l.val : Int) ≤ s.cur.L) :
    o.2.enh.Ml l = played s.cur.w0 o.2.enh.amplitudeThreshold (amps s.cur.Ml) s.cur.L.toNat l.val := by
  obtain ⟨e, q, h1, h2, hq, _, h3⟩ := speak_bands E C s o h
  rw [C43_exact _ _ _ h0 hL hw hA] at h1
  have h1 := ok_inj h1
  have T0 : (0 : ℝ) < q.1.amplitudeThreshold := by rw [← hq]; exact_mod_cast lt_of_lt_of_le one_pos hT
  have hLe : e.1.L = s.cur.L := by rw [← h1]
  have hE : ∀ k, 1 ≤ k → k ≤ s.cur.L.toNat → amps e.1.Ml k = enhanced s.cur.w0 (amps s.cur.Ml) s.cur.L.toNat k := fun k k1 k2 => by
    have k3 : k < 57 := by omega
    rw [show amps e.1.Ml k = _ from amps_fin _ ⟨k, k3⟩, ← h1]
    dsimp only
    rw [if_pos ⟨k1, by omega⟩]
    unfold enhanced
    rw [show amps s.cur.Ml k = _ from amps_fin _ ⟨k, by omega⟩]
  rw [(h3 l l2).1, hq]
  unfold played
  rw [← limitTo_congr hE l1 (by omega)]
  rw [applySmoothing_eq _ _ _ _ (by rw [hLe]; exact hL)] at h2
  obtain ⟨tm, _, h2⟩ := bind_ok h2
  rw [← ok_inj h2] at T0 ⊢
  unfold smoothed at T0 ⊢
  dsimp only at T0 ⊢
  rw [ampSum_real, hLe]
  unfold limitTo
  rw [show amps e.1.Ml l.val = e.1.Ml l from amps_fin _ l]
  have e0 : (ofInt tm : ℝ) = (tm : ℝ) := rfl
  generalize ampTotal (amps e.1.Ml) s.cur.L.toNat = S at *
  by_cases c : (tm : ℝ) < S
  · rw [if_pos ⟨⟨l1, l2⟩, (RealArith.lt_r _ _).2 c, (RealArith.lt_r _ _).2 (by rw [lit0_r]; linarith)⟩, max_eq_right c.le]
    rfl
  · rw [if_neg fun k => c ((RealArith.lt_r _ _).1 k.2.1), max_eq_left (not_lt.1 c), div_self T0.ne', mul_one]

/-- The limitation of amplitudes that are the enhanced ones up to a twentieth. -/
theorem played_of {a : Nat} {cur enh p : Parms (IEEE m)} {e q : Parms (IEEE m) × Tls (IEEE m)} (h2 : applySmoothing a e.1 enh e.2 = .ok q)
    (hf : e.1 = { cur with Ml := e.1.Ml }) (L2 : cur.L ≤ 56) (am : Amps (2 ^ 32) (1 / 2 ^ 16) e.1)
    (hv : ∀ l : Fin 57, 1 ≤ l.val → (l.val : Int) ≤ cur.L → ∃ v : ℚ, Val (e.1.Ml l) v ∧ 0 ≤ v ∧
        |(v : ℝ) - enhGain (valuesOf cur).w0 (amps (valuesOf cur).Ml) cur.L.toNat *
            (enhFactor (valuesOf cur).w0 (amps (valuesOf cur).Ml) cur.L.toNat l.val * (valuesOf cur).Ml l)| ≤
          1 / 20 * (enhGain (valuesOf cur).w0 (amps (valuesOf cur).Ml) cur.L.toNat *
            (enhFactor (valuesOf cur).w0 (amps (valuesOf cur).Ml) cur.L.toNat l.val * (valuesOf cur).Ml l)) + 1 / 2 ^ 120)
    (hq : p.amplitudeThreshold = q.1.amplitudeThreshold) (h3 : ∀ k : Fin 57, (k.val : Int) ≤ cur.L → p.Ml k = q.1.Ml k ∧ p.Vl k = q.1.Vl k)
    (hT : 1 ≤ p.amplitudeThreshold) (l : Fin 57) (l1 : 1 ≤ l.val) (l2 : (l.val : Int) ≤ cur.L) :
    ∃ v : ℚ, Val (p.Ml l) v ∧ 0 ≤ v ∧
      |(v : ℝ) - played (valuesOf cur).w0 p.amplitudeThreshold (amps (valuesOf cur).Ml) cur.L.toNat l.val| ≤
        1 / 9 * played (valuesOf cur).w0 p.amplitudeThreshold (amps (valuesOf cur).Ml) cur.L.toNat l.val + 1 / 2 ^ 100 := by
  have hLe : e.1.L = cur.L := by rw [hf]
  have ato : AmpsTo (2 ^ 40) e.1 := by
    obtain ⟨a, ha, _⟩ := am
    exact ⟨by rw [hLe]; exact L2, fun l h1 h2 => ⟨a l.val, (ha l h1 h2).1, (ha l h1 h2).2.1, (ha l h1 h2).2.2.trans (by norm_num)⟩⟩
  obtain ⟨v, v1, v0, v2⟩ := C78_scale a e.1 enh e.2 ato q h2 (by rw [← hq]; exact hT) l l1 (by rw [hLe]; exact l2)
  rw [← (h3 l l2).1] at v1
  refine ⟨v, v1, v0, ?_⟩
  rw [← hq, hLe] at v2
  have T1 : (1 : ℝ) ≤ p.amplitudeThreshold := by exact_mod_cast hT
  have near : ∀ k, 1 ≤ k → k ≤ cur.L.toNat → 0 ≤ amps (valuesOf e.1).Ml k ∧
      (95 / 100 * enhanced (valuesOf cur).w0 (amps (valuesOf cur).Ml) cur.L.toNat k - 1 / 2 ^ 120 ≤ amps (valuesOf e.1).Ml k ∧
      amps (valuesOf e.1).Ml k ≤ 105 / 100 * enhanced (valuesOf cur).w0 (amps (valuesOf cur).Ml) cur.L.toNat k + 1 / 2 ^ 120) := fun k k1 k2 => by
    obtain ⟨x, x1, x0, x2⟩ := hv ⟨k, by omega⟩ k1 (by show (k : Int) ≤ _; omega)
    rw [show amps (valuesOf e.1).Ml k = _ from amps_fin _ ⟨k, by omega⟩, show (valuesOf e.1).Ml ⟨k, by omega⟩ = _ from Val.number x1]
    unfold enhanced
    rw [show amps (valuesOf cur).Ml k = _ from amps_fin _ ⟨k, by omega⟩]
    dsimp only at x2
    have x0' : (0 : ℝ) ≤ x := by exact_mod_cast x0
    rw [abs_le] at x2
    refine ⟨x0', ?_, ?_⟩ <;> linarith [x2.1, x2.2]
  have η : ((cur.L.toNat : Nat) : ℝ) * (1 / 2 ^ 120) ≤ 1 / 10 ^ 9 := by
    have : ((cur.L.toNat : Nat) : ℝ) ≤ 56 := by
      have : cur.L.toNat ≤ 56 := by omega
      exact_mod_cast this
    norm_num
    linarith
  obtain ⟨k1, k2⟩ := limitTo_near (T := p.amplitudeThreshold) (lo := 95 / 100) (hi := 105 / 100) T1 (by norm_num) (by norm_num) (by positivity) η
    (fun k k1 k2 => (near k k1 k2).1) (fun k k1 k2 => (near k k1 k2).2) l1 (show l.val ≤ cur.L.toNat by omega)
  have e1 : limitTo p.amplitudeThreshold (amps (valuesOf e.1).Ml) cur.L.toNat l.val = (valuesOf e.1).Ml l * (p.amplitudeThreshold /
      max (p.amplitudeThreshold : ℝ) (ampTotal (amps (valuesOf e.1).Ml) cur.L.toNat)) := by
    unfold limitTo
    rw [show amps (valuesOf e.1).Ml l.val = _ from amps_fin _ l]
  rw [← e1] at v2
  unfold played
  have l0 : 0 ≤ limitTo p.amplitudeThreshold (amps (valuesOf e.1).Ml) cur.L.toNat l.val := by
    unfold limitTo
    exact mul_nonneg (near l.val l1 (by omega)).1 (div_nonneg (by linarith) (le_trans (by linarith) (le_max_left _ _)))
  generalize limitTo (p.amplitudeThreshold : ℝ) (amps (valuesOf e.1).Ml) cur.L.toNat l.val = x at *
  generalize limitTo (p.amplitudeThreshold : ℝ) (enhanced (valuesOf cur).w0 (amps (valuesOf cur).Ml) cur.L.toNat) cur.L.toNat l.val = y at *
  have v3 := abs_le.1 v2
  rw [abs_le]
  norm_num at k1 k2 v3 ⊢
  constructor <;> linarith

theorem corr_lt_of_pitch {w : ℚ} {L : Int} (hp : PitchWithin w L) {M : Nat → ℝ} {k : Nat} (k1 : 1 ≤ k) (k2 : k ≤ L.toNat) (hk : M k ≠ 0) :
    |corr w M L.toNat| < energy M L.toNat := by
  refine corr_lt ⟨k, k1, k2, hk, fun h => ?_⟩
  have c := hp.apart k k1 (by omega)
  have := Real.sin_sq_add_cos_sq (k * (w : ℝ))
  rw [h, ← sq_abs (Real.cos _)] at this
  nlinarith [abs_nonneg (Real.cos (k * (w : ℝ)))]

theorem enhanced_scale {g w : ℝ} (hg : 0 < g) (hw : 0 < w) (M : Nat → ℝ) (hM : ∀ l, 0 ≤ M l) (L l : Nat) :
    enhanced w (fun l => g * M l) L l = g * enhanced w M L l := by
  have f := fun l => C77_scale g w hg hw M hM L l
  have e1 : energy (fun l => g * M l) L = g ^ 2 * energy M L := by
    unfold energy
    rw [Finset.mul_sum]
    exact Finset.sum_congr rfl fun l _ => by ring
  have e2 : energy (fun l => enhFactor w (fun l => g * M l) L l * (g * M l)) L = g ^ 2 * energy (fun l => enhFactor w M L l * M l) L := by
    unfold energy
    rw [Finset.mul_sum]
    exact Finset.sum_congr rfl fun l _ => by dsimp only; rw [f]; ring
  unfold enhanced enhGain
  rw [e1, e2, f, mul_div_mul_left _ _ (pow_ne_zero 2 hg.ne')]
  ring

theorem two_pow_le {x : ℝ} {a b : Nat} (hb : 0 < b) (hx : 0 ≤ x) (h : (2 : ℝ) ^ a ≤ x ^ b) : (2 : ℝ) ^ ((a : ℝ) / b) ≤ x := by
  have b0 : (0 : ℝ) < b := by exact_mod_cast hb
  calc (2 : ℝ) ^ ((a : ℝ) / b) = ((2 : ℝ) ^ a) ^ (1 / b : ℝ) := by
        rw [← Real.rpow_natCast, ← Real.rpow_mul (by norm_num)]
        congr 1
        ring
    _ ≤ (x ^ b) ^ (1 / b : ℝ) := Real.rpow_le_rpow (by positivity) h (by positivity)
    _ = x := by
        rw [← Real.rpow_natCast, ← Real.rpow_mul hx, mul_one_div_cancel b0.ne', Real.rpow_one]

theorem le_two_pow {x : ℝ} {a b : Nat} (hb : 0 < b) (hx : 0 ≤ x) (h : x ^ b * (2 : ℝ) ^ a ≤ 1) : x ≤ (2 : ℝ) ^ (-((a : ℝ) / b)) := by
  rw [Real.rpow_neg (by norm_num)]
  rcases hx.eq_or_lt with e | e
  · rw [← e]
    positivity
  rw [le_inv_comm₀ e (by positivity)]
  refine two_pow_le hb (by positivity) ?_
  rw [inv_pow, le_inv_comm₀ (by positivity) (by positivity), ← one_div, le_div_iff₀ (by positivity)]
  exact h

/-- **In binary32** they are within a ninth of that, for decoded amplitudes up to `2^18`. -/
theorem C79_played (hm : TrigAcc m) (hcos : CosAcc m) (hsin : SinAcc m) (E : Env (IEEE m)) (C : Call (IEEE m)) (s : St (IEEE m))
    (o : Arr 160 (IEEE m) × St (IEEE m)) (h : speak E C s = .ok o) (hs : EnhanceOk (2 ^ 18) s.cur) (hT : 1 ≤ o.2.enh.amplitudeThreshold)
    (l : Fin 57) (l1 : 1 ≤ l.val) (l2 : (l.val : Int) ≤ s.cur.L) :
    ∃ v : ℚ, Val (o.2.enh.Ml l) v ∧ 0 ≤ v ∧
      |(v : ℝ) - played (valuesOf s.cur).w0 o.2.enh.amplitudeThreshold (amps (valuesOf s.cur).Ml) s.cur.L.toNat l.val| ≤
        1 / 9 * played (valuesOf s.cur).w0 o.2.enh.amplitudeThreshold (amps (valuesOf s.cur).Ml) s.cur.L.toNat l.val + 1 / 2 ^ 100 := by
  obtain ⟨e, q, h1, h2, hq, _, h3⟩ := speak_bands E C s o h
  obtain ⟨w, hw, ⟨w1, w2⟩, ⟨L1, L2⟩, hp⟩ := hs.pitch
  obtain ⟨r, hr, hf, hv⟩ := C77_amp hm hcos hsin C.pc s.cur s.tls hs
  rw [h1] at hr
  have hr := ok_inj hr
  rw [← hr] at hf hv
  have am : Amps (2 ^ 32) (1 / 2 ^ 16) e.1 := enhance_fin hm hw w1 w2 hp L1 L2 (by
    obtain ⟨a, ha, hz⟩ := hs.amps
    exact ⟨a, fun l h1 h2 => ⟨(ha l h1 h2).1, (ha l h1 h2).2.1, (ha l h1 h2).2.2.trans (by norm_num)⟩, hz⟩) e h1
  exact played_of h2 hf L2 am hv hq h3 hT l l1 l2

/-- **Spectra that are close in every band are close after the enhancement**, in exact arithmetic: if the log amplitudes differ by at
most 0.051, and these differences by at most 0.06, the enhanced amplitudes lie between 0.816 and 1.225 times the others. -/
theorem C79_stable {w : ℚ} {L : Int} (hp : PitchWithin w L) (M N x : Nat → ℝ) (hM : ∀ l, 0 < M l)
    (h : ∀ l, 1 ≤ l → l ≤ L.toNat → |N l - (2 : ℝ) ^ x l * M l| ≤ (2 : ℝ) ^ x l * M l / 65536)
    (h1 : ∀ l, 1 ≤ l → l ≤ L.toNat → |x l| ≤ 51 / 1000) (h2 : ∀ l k, 1 ≤ l → l ≤ L.toNat → 1 ≤ k → k ≤ L.toNat → x l - x k ≤ 6 / 100)
    (l : Nat) (l1 : 1 ≤ l) (l2 : l ≤ L.toNat) :
    816 / 1000 * enhanced w M L.toNat l ≤ enhanced w N L.toNat l ∧ enhanced w N L.toNat l ≤ 1225 / 1000 * enhanced w M L.toNat l := by
  have w0 : (0 : ℝ) < w := by
    have : 0 < w := lt_of_lt_of_le (by norm_num) hp.range.1
    exact_mod_cast this
  have ne : (Finset.Icc 1 L.toNat).Nonempty := ⟨l, Finset.mem_Icc.2 ⟨l1, l2⟩⟩
  obtain ⟨i, hi, mi⟩ := Finset.exists_min_image _ x ne
  obtain ⟨j, hj, mj⟩ := Finset.exists_max_image _ x ne
  rw [Finset.mem_Icc] at hi hj
  have ν2 : (2 : ℝ) ^ ((6 : ℝ) / 100) ≤ 10425 / 10000 := by
    have := two_pow_le (x := 10425 / 10000) (a := 6) (b := 100) (by norm_num) (by norm_num) (by norm_num)
    exact_mod_cast this
  have lo : 9650 / 10000 ≤ (2 : ℝ) ^ (-((51 : ℝ) / 1000)) := by
    have := le_two_pow (x := 9650 / 10000) (a := 2) (b := 39) (by norm_num) (by norm_num) (by norm_num)
    exact this.trans (Real.rpow_le_rpow_of_exponent_le (by norm_num) (by norm_num))
  have up : (2 : ℝ) ^ ((51 : ℝ) / 1000) ≤ 10362 / 10000 := by
    have := two_pow_le (x := 10362 / 10000) (a := 2) (b := 39) (by norm_num) (by norm_num) (by norm_num)
    exact (Real.rpow_le_rpow_of_exponent_le (by norm_num) (by norm_num)).trans this
  have pow_step : ∀ {a b : ℝ}, a - b ≤ 6 / 100 → (2 : ℝ) ^ a ≤ 10425 / 10000 * (2 : ℝ) ^ b := fun {a b} k => by
    calc (2 : ℝ) ^ a ≤ (2 : ℝ) ^ ((6 : ℝ) / 100 + b) := Real.rpow_le_rpow_of_exponent_le (by norm_num) (by linarith)
      _ = (2 : ℝ) ^ ((6 : ℝ) / 100) * (2 : ℝ) ^ b := Real.rpow_add (by norm_num) _ _
      _ ≤ _ := mul_le_mul_of_nonneg_right ν2 (by positivity)
  have pi0 : (0 : ℝ) < 2 ^ x i := by positivity
  have pj0 : (0 : ℝ) < 2 ^ x j := by positivity
  have il : 9650 / 10000 ≤ (2 : ℝ) ^ x i := lo.trans (Real.rpow_le_rpow_of_exponent_le (by norm_num) (abs_le.1 (h1 i hi.1 hi.2)).1)
  have ju : (2 : ℝ) ^ x j ≤ 10362 / 10000 := (Real.rpow_le_rpow_of_exponent_le (by norm_num) (abs_le.1 (h1 j hj.1 hj.2)).2).trans up
  have cM : |corr w M L.toNat| < energy M L.toNat := corr_lt_of_pitch hp l1 l2 (hM l).ne'
  have N0 : 0 < N l := by
    have := (abs_le.1 (h l l1 l2)).1
    have : 0 < (2 : ℝ) ^ x l * M l := mul_pos (by positivity) (hM l)
    linarith
  have cN : |corr w N L.toNat| < energy N L.toNat := corr_lt_of_pitch hp l1 l2 N0.ne'
  constructor
  · -- `c M ≤ N ≤ ν² c M`
    obtain ⟨c, hc⟩ : ∃ c : ℝ, c = (2 : ℝ) ^ x i * (65535 / 65536) := ⟨_, rfl⟩
    have c0 : 0 < c := by rw [hc]; positivity
    have c1 : 9649 / 10000 ≤ c := by rw [hc]; nlinarith
    have key := (enhanced_stable (ν := 10211 / 10000) (M := fun l => c * M l) (N := N) (w := w) (L := L.toNat) (by norm_num) w0
      (fun k _ _ => (mul_pos c0 (hM k)).le) (fun k k1 k2 => by
        have a := abs_le.1 (h k k1 k2)
        have b := mi k (Finset.mem_Icc.2 ⟨k1, k2⟩)
        have b1 : (2 : ℝ) ^ x i ≤ (2 : ℝ) ^ x k := Real.rpow_le_rpow_of_exponent_le (by norm_num) b
        have b2 := pow_step (h2 k i k1 k2 hi.1 hi.2)
        have m0 := hM k
        have d1 := mul_le_mul_of_nonneg_right b1 m0.le
        have d2 := mul_le_mul_of_nonneg_right b2 m0.le
        have d3 := mul_pos pi0 m0
        rw [hc]
        generalize (2 : ℝ) ^ x k * M k = y at *
        constructor <;> norm_num at d2 ⊢ <;> nlinarith) (corr_lt_of_pitch hp l1 l2 (mul_pos c0 (hM l)).ne') l1 l2).2.1
    rw [enhanced_scale c0 w0 M (fun k => (hM k).le)] at key
    have e0 : 0 ≤ enhanced w M L.toNat l := (enhanced_stable (ν := 1) (M := M) (N := M) (w := w) (L := L.toNat) le_rfl w0 (fun k _ _ => (hM k).le)
      (fun k _ _ => by norm_num) cM l1 l2).1
    norm_num at key
    nlinarith
  · -- `N ≤ c M ≤ ν² N`
    obtain ⟨c, hc⟩ : ∃ c : ℝ, c = (2 : ℝ) ^ x j * (65537 / 65536) := ⟨_, rfl⟩
    have c0 : 0 < c := by rw [hc]; positivity
    have c1 : c ≤ 10363 / 10000 := by rw [hc]; nlinarith
    have key := (enhanced_stable (ν := 10211 / 10000) (M := N) (N := fun l => c * M l) (w := w) (L := L.toNat) (by norm_num) w0
      (fun k k1 k2 => by
        have a := (abs_le.1 (h k k1 k2)).1
        have : 0 < (2 : ℝ) ^ x k * M k := mul_pos (by positivity) (hM k)
        linarith) (fun k k1 k2 => by
        have a := abs_le.1 (h k k1 k2)
        have b := mj k (Finset.mem_Icc.2 ⟨k1, k2⟩)
        have b1 : (2 : ℝ) ^ x k ≤ (2 : ℝ) ^ x j := Real.rpow_le_rpow_of_exponent_le (by norm_num) b
        have b2 := pow_step (h2 j k hj.1 hj.2 k1 k2)
        have m0 := hM k
        have d1 := mul_le_mul_of_nonneg_right b1 m0.le
        have d2 := mul_le_mul_of_nonneg_right b2 m0.le
        have d3 := mul_pos pj0 m0
        have d4 : 0 < (2 : ℝ) ^ x k * M k := mul_pos (by positivity) m0
        rw [hc]
        rw [mul_assoc] at d2
        generalize (2 : ℝ) ^ x k * M k = y at *
        constructor <;> norm_num at d2 ⊢ <;> nlinarith) cN l1 l2).2.1
    rw [enhanced_scale c0 w0 M (fun k => (hM k).le)] at key
    have e0 : 0 ≤ enhanced w M L.toNat l := (enhanced_stable (ν := 1) (M := M) (N := M) (w := w) (L := L.toNat) le_rfl w0 (fun k _ _ => (hM k).le)
      (fun k _ _ => by norm_num) cM l1 l2).1
    norm_num at key
    nlinarith

/-! ## From the received bits -/

/-- What every IMBE decoder keeps as long as no frame reports more than 20 errors. -/
structure ImbePlay (s : St (IEEE m)) : Prop where
  pitch : Pitch s.prev.w0 s.prev.L
  errs : s.prev.errorCountTotal ≤ 20
  thr : 20480 ≤ s.enh.amplitudeThreshold

theorem ImbePlay.step {E : Env (IEEE m)} {op : ImbeOp (IEEE m)} (hd : Bits 88 op.d) (h20 : op.errs2 ≤ 20) {s : St (IEEE m)} (h : ImbePlay s)
    {o : Out (IEEE m)} (ho : op.run E s = .ok o) : ImbePlay o.st := by
  obtain ⟨s', e1, e2, _, e⟩ := ImbeOp.run_eq E op s
  rw [e] at ho
  obtain ⟨r, cur, sp, P⟩ := processImbe4400_parts ho
  obtain ⟨hF, -, -⟩ := decodeImbe4400_frame _ _ _ _ _ r P.decode
  have hp := imbeDecode_pitch hd _ _ _ _ r P.decode
  have pw : r.prev.w0 = s.prev.w0 ∧ r.prev.L = s.prev.L ∧ r.prev.errorCountTotal = s.prev.errorCountTotal := by
    rw [hF.prev_eq, e1]; exact ⟨rfl, rfl, rfl⟩
  have ce : r.cur.errorCountTotal = op.errs2 := by rw [hF.cur_eq, imbePrepare_cur]
  have key : Pitch cur.w0 cur.L ∧ cur.errorCountTotal ≤ 20 := by
    have hr := P.repeated
    unfold imbeRepeat at hr
    by_cases c : imbeRepeatRequired r.bad (op.counts.map (·.1)) op.errs2 r.cur.errorRate = true
    · rw [if_pos c] at hr
      split at hr
      · rw [imbeReset_ieee] at hr
        cases hr
        exact ⟨imbeDefault_pitch, by show r.cur.errorCountTotal ≤ 20; rw [ce]; exact h20⟩
      · rw [repeatLast_inv hr]
        dsimp only
        rw [pw.1, pw.2.1, pw.2.2]
        exact ⟨h.pitch, h.errs⟩
    · rw [if_neg c] at hr
      cases hr
      refine ⟨?_, by show r.cur.errorCountTotal ≤ 20; rw [ce]; exact h20⟩
      rcases hp with ⟨e, _⟩ | ⟨_, e⟩
      · rw [e] at c
        exact absurd rfl c
      · exact e
  have hsp := (speak_frame E op.call _ sp P.spoken).prev_eq
  obtain ⟨ht, _⟩ := speak_threshold E op.call _ sp P.spoken
  rw [hsp] at ht
  have h3 := h.thr
  rw [← e2] at h3
  refine ⟨by rw [P.st, hsp]; exact key.1, by rw [P.st, hsp]; exact key.2, ?_⟩
  rw [P.st]
  rcases ht with ⟨_, t⟩ | ⟨_, t⟩
  · omega
  · have := key.2
    dsimp only at t
    split at t <;> omega

theorem imbePlay_run {E : Env (IEEE m)} {ops : List (ImbeOp (IEEE m))} : ∀ {s s' : St (IEEE m)}, (∀ op ∈ ops, Bits 88 op.d ∧ op.errs2 ≤ 20) →
    ImbePlay s → runOps (ImbeOp.run E) ops s = .ok s' → ImbePlay s' := by
  induction ops with
  | nil => intro s s' _ hs h; cases h; exact hs
  | cons op ops ih =>
    intro s s' hd hs h
    obtain ⟨o, h1, h2⟩ := bind_ok h
    exact ih (fun x hx => hd x (List.mem_cons_of_mem _ hx)) (hs.step (hd op (by simp)).1 (hd op (by simp)).2 h1) h2

/-- The decoded amplitudes as multiples `2 ^ x` of the exact spectrum. -/
theorem decoded_near (hm : LibmAcc m) (E : Env (IEEE m)) (s0 s s' : St (IEEE m)) (ht : s0.tls = Tls.start)
    (hi : initMbeState s0 = .ok s) (ops : List (ImbeOp (IEEE m))) (hd : ∀ op ∈ ops, Bits 88 op.d)
    (h : runOps (ImbeOp.run E) ops s = .ok s') (p : Parms ℝ) (hx : Quiet (track p ops)) : s'.prev.L = (track p ops).L ∧ ∃ x : Nat → ℝ,
    (∀ l : Fin 57, 1 ≤ l.val → (l.val : Int) ≤ s'.prev.L → ∃ r : ℚ, Val (s'.prev.Ml l) r ∧
      |(r : ℝ) - (2 : ℝ) ^ x l * ampsOf (track p ops) l| ≤ (2 : ℝ) ^ x l * ampsOf (track p ops) l / 65536 ∧ |x l| ≤ 51 / 1000) ∧
    ∀ l k : Fin 57, 1 ≤ l.val → (l.val : Int) ≤ s'.prev.L → 1 ≤ k.val → (k.val : Int) ≤ s'.prev.L → x l - x k ≤ 6 / 100 := by
  obtain ⟨eL, key⟩ := C69_log_amplitudes hm E s0 s s' ht hi ops hd h p
  have dif := C69_differences hm E s0 s s' ht hi ops hd h p
  rw [initMbeState_ieee] at hi
  cases hi
  refine ⟨eL, fun l => amps (valuesOf s'.prev).log2Ml l - amps (track p ops).log2Ml l, fun l l1 l2 => ?_, fun l k l1 l2 k1 k2 => ?_⟩
  · obtain ⟨q, vq, e, _⟩ := key l l1 (by rw [← eL]; exact l2)
    obtain ⟨b1, b2⟩ := hx.1 l l1 (by rw [← eL]; exact l2)
    have e' := abs_le.mp e
    have e1 : (2 : ℝ) ^ (amps (valuesOf s'.prev).log2Ml l - amps (track p ops).log2Ml l) * ampsOf (track p ops) l = (2 : ℝ) ^ (q : ℝ) := by
      unfold ampsOf
      rw [← Real.rpow_add (by norm_num), sub_add_cancel, amps_fin, show (valuesOf s'.prev).log2Ml l = _ from Val.number vq]
    have e2 : amps (valuesOf s'.prev).log2Ml l - amps (track p ops).log2Ml l = q - (track p ops).log2Ml l := by
      rw [amps_fin, amps_fin, show (valuesOf s'.prev).log2Ml l = _ from Val.number vq]
    dsimp only
    rw [e1, e2]
    rcases amp_run hd amp_init h l l1 l2 with ha | ⟨ha, hb⟩
    · have q1 : (-16 : ℚ) ≤ q := by
        have : (-16 : ℝ) ≤ q := by linarith
        exact_mod_cast this
      have q2 : q ≤ 64 := by
        have : (q : ℝ) ≤ 64 := by linarith
        exact_mod_cast this
      obtain ⟨r, vr, er⟩ := hm.exp2 _ q vq q1 q2
      exact ⟨r, by rw [ha]; exact vr, er, e⟩
    · have q0 : q = 0 := (Val.fq_eq vq).symm.trans (Val.fq_eq hb)
      refine ⟨1, ha, ?_, e⟩
      rw [q0]
      norm_num
  · obtain ⟨a, va, _⟩ := key l l1 (by rw [← eL]; exact l2)
    obtain ⟨b, vb, _⟩ := key k k1 (by rw [← eL]; exact k2)
    have := (abs_le.1 (dif l k (by rw [← eL]; exact l2) (by rw [← eL]; exact k2) a b va vb)).2
    dsimp only
    rw [amps_fin, amps_fin, amps_fin, amps_fin, show (valuesOf s'.prev).log2Ml l = _ from Val.number va,
      show (valuesOf s'.prev).log2Ml k = _ from Val.number vb]
    linarith

/-- The decoded frame is one on which the enhancement is accurate, and what exact enhancement would play for it is what exact
arithmetic would play for the whole history, but for the errors of the log amplitudes. -/
theorem imbe_ready (hm : LibmAcc m) (E : Env (IEEE m)) (s0 s s' : St (IEEE m))
    (ht : s0.tls = Tls.start) (hi : initMbeState s0 = .ok s) (bs : List (ImbeOp (IEEE m))) (op : ImbeOp (IEEE m))
    (hd : ∀ x ∈ bs ++ [op], Bits 88 x.d ∧ x.errs2 ≤ 20) (h : runOps (ImbeOp.run E) bs s = .ok s') (o : Out (IEEE m)) (ho : op.run E s' = .ok o)
    (p : Parms ℝ) (hx : Quiet (track p (bs ++ [op]))) :
    o.st.prev.L = (track p (bs ++ [op])).L ∧ 20480 ≤ o.st.enh.amplitudeThreshold ∧ EnhanceOk (2 ^ 18) o.st.prev ∧
    ∀ l : Fin 57, 1 ≤ l.val → (l.val : Int) ≤ o.st.prev.L →
      666 / 1000 * played (valuesOf o.st.prev).w0 o.st.enh.amplitudeThreshold (ampsOf (track p (bs ++ [op]))) o.st.prev.L.toNat l.val ≤
        played (valuesOf o.st.prev).w0 o.st.enh.amplitudeThreshold (amps (valuesOf o.st.prev).Ml) o.st.prev.L.toNat l.val ∧
      played (valuesOf o.st.prev).w0 o.st.enh.amplitudeThreshold (amps (valuesOf o.st.prev).Ml) o.st.prev.L.toNat l.val ≤
        1502 / 1000 * played (valuesOf o.st.prev).w0 o.st.enh.amplitudeThreshold (ampsOf (track p (bs ++ [op]))) o.st.prev.L.toNat l.val := by
  have hrun : runOps (ImbeOp.run E) (bs ++ [op]) s = .ok o.st := by
    rw [runOps_append, h, ok_bind]
    show (op.run E s' >>= fun o => runOps (ImbeOp.run E) [] o.st) = _
    rw [ho]
    rfl
  obtain ⟨eL, x, hv, hdif⟩ := decoded_near hm E s0 s o.st ht hi (bs ++ [op]) (fun x hx => (hd x hx).1) hrun p hx
  have hc : CacheOk E s.tls := fresh_cacheOk ⟨s0, ht, .inl hi⟩
  have pl : ImbePlay o.st := by
    refine imbePlay_run (s := s) hd ?_ hrun
    rw [initMbeState_ieee] at hi
    cases hi
    exact ⟨imbeDefault_pitch, show (0 : Int) ≤ 20 by decide, le_refl _⟩
  have Lb : 1 ≤ o.st.prev.L ∧ o.st.prev.L ≤ 56 := by
    rw [initMbeState_ieee] at hi
    cases hi
    have T := track_run hm (fun x hx => (hd x hx).1) (x := (ImbeAbs.init, { p with L := 39, log2Ml := Arr.const 57 0 })) (track_init hc p) hrun
    have t1 := T.close.set.lo
    have t2 := T.close.set.hi
    rw [eL]
    unfold track
    exact ⟨by omega, by omega⟩
  obtain ⟨w, hw, hp⟩ := pitchWithin_of pl.pitch Lb.1 Lb.2
  have S0 : ∀ k, 0 < ampsOf (track p (bs ++ [op])) k := fun k => by unfold ampsOf; positivity
  generalize hS : ampsOf (track p (bs ++ [op])) = S at *
  have sv : ∀ k : Fin 57, S k = (2 : ℝ) ^ ((track p (bs ++ [op])).log2Ml k) := fun k => by rw [← hS]; unfold ampsOf; rw [amps_fin]
  -- the values of the decoded amplitudes
  have near : ∀ k, 1 ≤ k → k ≤ o.st.prev.L.toNat → |amps (valuesOf o.st.prev).Ml k - (2 : ℝ) ^ x k * S k| ≤ (2 : ℝ) ^ x k * S k / 65536 ∧ |x k| ≤ 51 / 1000 := fun k k1 k2 => by
    have k3 : k < 57 := by omega
    obtain ⟨r, vr, e1, e2⟩ := hv ⟨k, k3⟩ k1 (by show (k : Int) ≤ _; omega)
    rw [show amps (valuesOf o.st.prev).Ml k = _ from amps_fin _ ⟨k, k3⟩, show (valuesOf o.st.prev).Ml ⟨k, k3⟩ = _ from Val.number vr]
    exact ⟨e1, e2⟩
  have st := C79_stable hp S (amps (valuesOf o.st.prev).Ml) x S0 (fun k k1 k2 => (near k k1 k2).1) (fun k k1 k2 => (near k k1 k2).2)
    (fun i k i1 i2 k1 k2 => by
      have i3 : i < 57 := by omega
      have k3 : k < 57 := by omega
      exact hdif ⟨i, i3⟩ ⟨k, k3⟩ i1 (by show (i : Int) ≤ _; omega) k1 (by show (k : Int) ≤ _; omega))
  have ew : (valuesOf o.st.prev).w0 = (w : ℝ) := Val.number hw
  have EN0 : ∀ k, 1 ≤ k → k ≤ o.st.prev.L.toNat → 0 ≤ enhanced w (amps (valuesOf o.st.prev).Ml) o.st.prev.L.toNat k := fun k k1 k2 => by
    have w0 : (0 : ℝ) < w := by
      have : 0 < w := lt_of_lt_of_le (by norm_num) hp.range.1
      exact_mod_cast this
    have := (enhanced_stable (ν := 1) (M := S) (N := S) (w := w) (L := o.st.prev.L.toNat) le_rfl w0 (fun k _ _ => (S0 k).le)
      (fun k _ _ => by norm_num) (corr_lt_of_pitch hp k1 k2 (S0 k).ne') k1 k2).1
    linarith [(st k k1 k2).1]
  have T1 : (1 : ℝ) ≤ o.st.enh.amplitudeThreshold := by
    have : (1 : Int) ≤ o.st.enh.amplitudeThreshold := le_trans (by norm_num) pl.thr
    exact_mod_cast this
  -- the binary32 part
  have up : (2 : ℝ) ^ (17.9 : ℝ) * 1.0363 ≤ 2 ^ 18 := by
    have h1 : (2 : ℝ) ^ (17.9 : ℝ) = (2 : ℝ) ^ (18 : ℝ) * (2 : ℝ) ^ (-(0.1 : ℝ)) := by
      rw [← Real.rpow_add (by norm_num)]; norm_num
    have h2 : (2 : ℝ) ^ (18 : ℝ) = 2 ^ 18 := by rw [← Real.rpow_natCast]; norm_num
    have h3 : (2 : ℝ) ^ (-(0.1 : ℝ)) ≤ 1 / 1.07 := by
      have := two_pow_le (x := 1.08) (a := 1) (b := 10) (by norm_num) (by norm_num) (by norm_num)
      rw [Real.rpow_neg (by norm_num), ← one_div]
      refine one_div_le_one_div_of_le (by norm_num) ?_
      have k := Real.rpow_le_rpow (z := (1 : ℝ) / 10) (by norm_num) (show (1.07 : ℝ) ^ (10 : ℕ) ≤ 2 by norm_num) (by norm_num)
      have k5 : ((1.07 : ℝ) ^ (10 : ℕ)) ^ ((1 : ℝ) / 10) = 1.07 := by
        have := Real.pow_rpow_inv_natCast (show (0 : ℝ) ≤ 1.07 by norm_num) (show (10 : ℕ) ≠ 0 by decide)
        rw [← this]
        norm_num
      rw [k5, show (1 : ℝ) / 10 = 0.1 by norm_num] at k
      exact k
    rw [h1, h2]
    norm_num at h3 ⊢
    linarith
  have dn : (1 / 1024 : ℝ) ≤ (2 : ℝ) ^ (-9.9 : ℝ) * 0.9649 := by
    have h1 : (2 : ℝ) ^ (-9.9 : ℝ) = (2 : ℝ) ^ (-10 : ℝ) * (2 : ℝ) ^ (0.1 : ℝ) := by
      rw [← Real.rpow_add (by norm_num)]; norm_num
    have h2 : (2 : ℝ) ^ (-10 : ℝ) = 1 / 1024 := by rw [Real.rpow_neg (by norm_num)]; norm_num
    have k := Real.rpow_le_rpow (z := (1 : ℝ) / 10) (by norm_num) (show (1.07 : ℝ) ^ (10 : ℕ) ≤ 2 by norm_num) (by norm_num)
    have k5 : ((1.07 : ℝ) ^ (10 : ℕ)) ^ ((1 : ℝ) / 10) = 1.07 := by
      have := Real.pow_rpow_inv_natCast (show (0 : ℝ) ≤ 1.07 by norm_num) (show (10 : ℕ) ≠ 0 by decide)
      rw [← this]
      norm_num
    rw [k5, show (1 : ℝ) / 10 = 0.1 by norm_num] at k
    rw [h1, h2]
    norm_num at k ⊢
    linarith
  have sz : ∀ k, 1 ≤ k → k ≤ o.st.prev.L.toNat → 0.9649 * S k ≤ amps (valuesOf o.st.prev).Ml k ∧ amps (valuesOf o.st.prev).Ml k ≤ 1.0363 * S k := fun k k1 k2 => by
    obtain ⟨e1, e2⟩ := near k k1 k2
    have a := abs_le.1 e1
    have b := abs_le.1 e2
    have lo : 9650 / 10000 ≤ (2 : ℝ) ^ x k := by
      have := le_two_pow (x := 9650 / 10000) (a := 2) (b := 39) (by norm_num) (by norm_num) (by norm_num)
      exact this.trans (Real.rpow_le_rpow_of_exponent_le (by norm_num) (by norm_num; linarith [b.1]))
    have hi : (2 : ℝ) ^ x k ≤ 10362 / 10000 := by
      have := two_pow_le (x := 10362 / 10000) (a := 2) (b := 39) (by norm_num) (by norm_num) (by norm_num)
      exact (Real.rpow_le_rpow_of_exponent_le (by norm_num) (by norm_num; linarith [b.2])).trans this
    have s0 := S0 k
    constructor <;> nlinarith
  have am : EnhanceOk (2 ^ 18) o.st.prev := by
    refine ⟨⟨w, hw, hp⟩, fun k => if c : k < 57 then fq (o.st.prev.Ml ⟨k, c⟩) else 0, fun k k1 k2 => ?_, .inr ?_⟩
    · obtain ⟨r, vr, -⟩ := hv k k1 k2
      dsimp only
      rw [dif_pos k.isLt, Val.fq_eq vr]
      have sk := sz k.val k1 (by omega)
      rw [amps_fin, show (valuesOf o.st.prev).Ml k = _ from Val.number vr] at sk
      have b := (hx.1 k k1 (by rw [← eL]; exact k2)).2
      have : S k ≤ (2 : ℝ) ^ (17.9 : ℝ) := by rw [sv]; exact Real.rpow_le_rpow_of_exponent_le (by norm_num) b
      have s0 := S0 k
      refine ⟨vr, ?_, ?_⟩
      · have : (0 : ℝ) ≤ r := by linarith [sk.1]
        exact_mod_cast this
      · have : (r : ℝ) ≤ 2 ^ 18 := by linarith [sk.2]
        exact_mod_cast this
    · obtain ⟨k, k1, k2, k3⟩ := hx.2
      rw [← eL] at k2
      obtain ⟨r, vr, -⟩ := hv k k1 k2
      refine ⟨k.val, k1, k2, ?_⟩
      dsimp only
      rw [dif_pos k.isLt, Val.fq_eq vr]
      have sk := sz k.val k1 (by omega)
      rw [amps_fin, show (valuesOf o.st.prev).Ml k = _ from Val.number vr] at sk
      have : (2 : ℝ) ^ (-9.9 : ℝ) ≤ S k := by rw [sv]; exact Real.rpow_le_rpow_of_exponent_le (by norm_num) k3
      have h' : ((1 / 1024 : ℚ) : ℝ) ≤ r := by push_cast; linarith [sk.1]
      exact_mod_cast h'
  refine ⟨eL, pl.thr, am, fun l l1 l2 => ?_⟩
  obtain ⟨m1, m2⟩ := limitTo_near (T := o.st.enh.amplitudeThreshold) (lo := 816 / 1000) (hi := 1225 / 1000) (τ := 0) (η := 0) T1 (by norm_num) (by norm_num) le_rfl
    (by norm_num) EN0 (g := enhanced w S o.st.prev.L.toNat) (fun k k1 k2 => by
      rw [sub_zero, add_zero]
      exact st k k1 k2) l1 (show l.val ≤ o.st.prev.L.toNat by omega)
  unfold played
  rw [ew]
  generalize limitTo (o.st.enh.amplitudeThreshold : ℝ) (enhanced w (amps (valuesOf o.st.prev).Ml) o.st.prev.L.toNat) o.st.prev.L.toNat l.val = y at *
  generalize limitTo (o.st.enh.amplitudeThreshold : ℝ) (enhanced w S o.st.prev.L.toNat) o.st.prev.L.toNat l.val = z at *
  norm_num at m1 m2 ⊢
  constructor <;> linarith

/-- **From the bits to the amplitudes that are played**: after any number of IMBE frames with at most 20 errors each, the binary32
amplitudes that the last frame is synthesised with lie between 59 and 167 percent of those that exact arithmetic, from the exact log
amplitudes of the whole history, would play. The errors of the history do not accumulate. -/
theorem C79_imbe (hm : LibmAcc m) (htr : TrigAcc m) (hcos : CosAcc m) (hsin : SinAcc m) (E : Env (IEEE m)) (s0 s s' : St (IEEE m))
    (ht : s0.tls = Tls.start) (hi : initMbeState s0 = .ok s) (bs : List (ImbeOp (IEEE m))) (op : ImbeOp (IEEE m))
    (hd : ∀ x ∈ bs ++ [op], Bits 88 x.d ∧ x.errs2 ≤ 20) (h : runOps (ImbeOp.run E) bs s = .ok s') (o : Out (IEEE m)) (ho : op.run E s' = .ok o)
    (p : Parms ℝ) (hx : Quiet (track p (bs ++ [op]))) :
    o.st.prev.L = (track p (bs ++ [op])).L ∧ 20480 ≤ o.st.enh.amplitudeThreshold ∧
    ∀ l : Fin 57, 1 ≤ l.val → (l.val : Int) ≤ o.st.prev.L → ∃ v : ℚ, Val (o.st.enh.Ml l) v ∧
      59 / 100 * played (valuesOf o.st.prev).w0 o.st.enh.amplitudeThreshold (ampsOf (track p (bs ++ [op]))) o.st.prev.L.toNat l.val - 1 / 2 ^ 100 ≤ v ∧
      v ≤ 167 / 100 * played (valuesOf o.st.prev).w0 o.st.enh.amplitudeThreshold (ampsOf (track p (bs ++ [op]))) o.st.prev.L.toNat l.val + 1 / 2 ^ 100 := by
  obtain ⟨eL, thr, am, near⟩ := imbe_ready hm E s0 s s' ht hi bs op hd h o ho p hx
  refine ⟨eL, thr, fun l l1 l2 => ?_⟩
  obtain ⟨m1, m2⟩ := near l l1 l2
  obtain ⟨s2, _, _, _, e⟩ := ImbeOp.run_eq E op s'
  rw [e] at ho
  obtain ⟨r, cur, sp, P⟩ := processImbe4400_parts ho
  have hsp := (speak_frame _ _ _ _ P.spoken).prev_eq
  have e0 : cur = o.st.prev := by rw [P.st, hsp]
  obtain ⟨v, v1, v0, v2⟩ := C79_played htr hcos hsin E op.call _ sp P.spoken (by show EnhanceOk (2 ^ 18) cur; rw [e0]; exact am)
    (by rw [← P.st]; exact le_trans (by norm_num) thr) l l1 (by show (l.val : Int) ≤ cur.L; rw [e0]; exact l2)
  dsimp only at v2
  rw [← P.st, e0] at v2
  rw [← P.st] at v1
  refine ⟨v, v1, ?_⟩
  generalize played (valuesOf o.st.prev).w0 o.st.enh.amplitudeThreshold (amps (valuesOf o.st.prev).Ml) o.st.prev.L.toNat l.val = y at *
  generalize played (valuesOf o.st.prev).w0 o.st.enh.amplitudeThreshold (ampsOf (track p (bs ++ [op]))) o.st.prev.L.toNat l.val = z at *
  have v3 := abs_le.1 v2
  norm_num at m1 m2 v3 ⊢
  constructor <;> linarith

/-! ## Concrete cases -/

/-- A frame over the real numbers: 39 amplitudes of 1000 at a fundamental of 1/14, on a new decoder. -/
example : ∃ o : Arr 160 ℝ × St ℝ, speak ⟨id, id, true, true⟩ ⟨16, 1, 2, Arr.const 160 (0 : ℝ), 3⟩
      ⟨{ imbeInit 39 with w0 := 1 / 14, Ml := Arr.const 57 1000 }, imbeInit 39, imbeInit 39, Tls.start⟩ = .ok o ∧
    o.2.enh.Ml 7 = played (1 / 14) 20480 (amps (Arr.const 57 1000)) 39 7 := by
  have hi := imbeInit_ok (F := ℝ)
  have hc : SetOk ({ imbeInit 39 with w0 := 1 / 14, Ml := Arr.const 57 1000 } : Parms ℝ) :=
    ⟨hi.lo, hi.hi, hi.vl, show |(1 / 14 : ℝ)| ≤ 32768 by rw [abs_of_pos (by norm_num)]; norm_num, hi.seed⟩
  obtain ⟨o, ho, -⟩ := OkU.toOk (speak_ok (U := fun _ => False) ⟨id, id, true, true⟩ ⟨16, 1, 2, Arr.const 160 (0 : ℝ), 3⟩
    (s := ⟨{ imbeInit 39 with w0 := 1 / 14, Ml := Arr.const 57 1000 }, imbeInit 39, imbeInit 39, Tls.start⟩) hc hi (by decide)
    (.inl ⟨le_refl (0 : Int), show (0 : Int) ≤ 7000000 by decide, show (20480 : Int) ≤ 2147477647 by decide⟩) ⟨rfl, le_refl (0 : Int), show (0 : Int) ≤ 4 by decide⟩)
  have ht : o.2.enh.amplitudeThreshold = 20480 := by
    obtain ⟨ht, _⟩ := speak_threshold _ _ _ _ ho
    rw [(speak_frame _ _ _ _ ho).prev_eq] at ht
    rcases ht with ⟨_, t⟩ | ⟨k, _⟩
    · exact t
    · exact absurd ⟨(RealArith.le_r _ _).2 (by show (lit 0 1 : ℝ) ≤ lit 5 1000; rw [lit0_r, RealArith.lit_r _ _ (by decide)]; norm_num), show (0 : Int) ≤ 6 by decide⟩ k
  refine ⟨o, ho, ?_⟩
  have := C79_exact _ _ _ o ho (show (0 : Int) ≤ 39 by decide) (show (39 : Int) ≤ 56 by decide) (show (0 : ℝ) < 1 / 14 by norm_num)
    (C43_nonzero _ _ _ (show (0 : ℝ) < 1 / 14 by norm_num) (by
      show ((39 : Nat) : ℝ) * (1 / 14) < _
      have := Real.pi_gt_three
      norm_num
      linarith) ⟨1, le_rfl, show 1 ≤ 39 by decide, by show (1000 : ℝ) ≠ 0; norm_num⟩) (by rw [ht]; decide) 7 (by decide) (show (7 : Int) ≤ 39 by decide)
  rw [ht] at this
  exact_mod_cast this

/-- Two frames that cannot be decoded, on a new decoder: the amplitudes played are those of a flat spectrum. -/
example (hm : LibmAcc m) (htr : TrigAcc m) (hcos : CosAcc m) (hsin : SinAcc m) : ∃ (s' : St (IEEE m)) (o : Out (IEEE m)) (v : ℚ),
    runOps (ImbeOp.run sampleEnv) [badImbe] freshImbe = .ok s' ∧ (badImbe (m := m)).run sampleEnv s' = .ok o ∧ o.st.prev.L = 39 ∧
    Val (o.st.enh.Ml 7) v ∧ v ≤ 167 / 100 * played (valuesOf o.st.prev).w0 o.st.enh.amplitudeThreshold (fun _ => 1) 39 7 + 1 / 2 ^ 100 := by
  obtain ⟨s, hs⟩ := imbe_runs (exp2Acc_of hm) [badImbe, badImbe] (by simp) (by simp)
  obtain ⟨o1, h1, hs⟩ := bind_ok hs
  obtain ⟨o, ho, hs⟩ := bind_ok hs
  have hrun : runOps (ImbeOp.run sampleEnv) [badImbe] freshImbe = .ok o1.st := by
    show ((badImbe (m := m)).run sampleEnv freshImbe >>= fun o => runOps (ImbeOp.run sampleEnv) [] o.st) = _
    rw [h1]
    rfl
  have b : ∀ a : ImbeAbs (IEEE m), a.isRepeat badImbe = true := fun a => badImbe_repeat a.rate a.streak
  have tr : track (valuesOf (imbeInit 39 : Parms (IEEE m))) ([badImbe (m := m)] ++ [badImbe]) =
      { valuesOf (imbeInit 39 : Parms (IEEE m)) with L := 39, log2Ml := Arr.const 57 0 } := by
    simp [track, trackNext, b, ImbeAbs.next, ImbeAbs.init]
  obtain ⟨eL, _, key⟩ := C79_imbe hm htr hcos hsin sampleEnv freshImbe freshImbe o1.st rfl (initMbeState_ieee _) [badImbe] badImbe
    (fun x hx => by
      have : x = badImbe := by simpa using hx
      rw [this]
      exact ⟨ones_bits 88, show (0 : Int) ≤ 20 by decide⟩) hrun o ho (valuesOf (imbeInit 39 : Parms (IEEE m))) (by
      rw [tr]
      exact ⟨fun l _ _ => by show (-15.9 : ℝ) ≤ 0 ∧ (0 : ℝ) ≤ 17.9; norm_num,
        ⟨1, by decide⟩, le_refl 1, by show (1 : Int) ≤ 39; decide, by show (-9.9 : ℝ) ≤ 0; norm_num⟩)
  rw [tr] at eL key
  have eL : o.st.prev.L = 39 := eL
  obtain ⟨v, hv, _, h2⟩ := key 7 (by decide) (by rw [eL]; decide)
  refine ⟨o1.st, o, v, hrun, ho, eL, hv, ?_⟩
  have e1 : ampsOf { valuesOf (imbeInit 39 : Parms (IEEE m)) with L := 39, log2Ml := Arr.const 57 0 } = fun _ => 1 := by
    funext l
    unfold ampsOf amps
    have : (Arr.const 57 (0 : ℝ)).getD l 0 = 0 := by unfold Arr.getD Arr.const; split <;> rfl
    rw [this, Real.rpow_zero]
  rw [e1, eL] at h2
  exact h2

end Verif.Props
