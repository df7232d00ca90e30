import Verif.Lemmas.EnhSimdSum
import Verif.Lemmas.EnhWith
import Verif.Lemmas.SimdSafeStep
import Verif.Props.Played

/-!
# C81: spectral amplitude enhancement of the vector build in binary32

The vector build takes the two energies in four lanes, which rounds differently. Everything that `C77_amp`, `C77_energy`,
`C77_loud` and `C79_played` say about the scalar build holds for it, with the same bounds.
-/

namespace Verif.Props
open Verif Verif.Spec Verif.Model Verif.Num Verif.Gen Arith
variable {m : Libm}

theorem enhanceSimd_runs (isa : Isa) (addr : Nat) (cur : Parms (IEEE m)) (t : Tls (IEEE m)) (L2 : cur.L ≤ 56) :
    ∃ r, spectralAmpEnhanceSimd isa addr cur t = .ok r ∧ enhanceWith (rm01Simd isa) (enhSumSimd isa) addr cur t = .ok r := by
  obtain ⟨r, hr, _⟩ := spectralAmpEnhanceSimd_fine isa addr cur t L2
  exact ⟨r, hr, by rw [← spectralAmpEnhanceSimd_with isa addr cur t L2]; exact hr⟩

/-- **The enhanced amplitudes of the vector build** are within a twentieth of the exact ones, for amplitudes up to `2^18`. -/
theorem C81_amp (hm : TrigAcc m) (hcos : CosAcc m) (hsin : SinAcc m) (isa : Isa) (addr : Nat) (cur : Parms (IEEE m)) (t : Tls (IEEE m))
    (h : EnhanceOk (2 ^ 18) cur) : ∃ r, spectralAmpEnhanceSimd isa addr cur t = .ok r ∧ r.1 = { cur with Ml := r.1.Ml } ∧
      ∀ l : Fin 57, 1 ≤ l.val → (l.val : Int) ≤ cur.L → ∃ v : ℚ, Val (r.1.Ml l) v ∧ 0 ≤ v ∧
        |(v : ℝ) - enhGain (valuesOf cur).w0 (amps (valuesOf cur).Ml) cur.L.toNat *
            (enhFactor (valuesOf cur).w0 (amps (valuesOf cur).Ml) cur.L.toNat l.val * (valuesOf cur).Ml l)| ≤
          1 / 20 * (enhGain (valuesOf cur).w0 (amps (valuesOf cur).Ml) cur.L.toNat *
            (enhFactor (valuesOf cur).w0 (amps (valuesOf cur).Ml) cur.L.toNat l.val * (valuesOf cur).Ml l)) + 1 / 2 ^ 120 := by
  obtain ⟨_, _, _, ⟨_, L2⟩, _⟩ := h.pitch
  obtain ⟨r, hr, hw⟩ := enhanceSimd_runs isa addr cur t L2
  exact ⟨r, hr, enhanceWith_amp (sumsNear_simd isa) hm hcos hsin h hw⟩

/-- **The energy is kept** to a hundred-thousandth, for amplitudes up to `2^27`; the energy before the enhancement, which the
adaptive smoothing takes over, is right to the same precision. -/
theorem C81_energy (hm : TrigAcc m) (isa : Isa) (addr : Nat) (cur : Parms (IEEE m)) (t : Tls (IEEE m)) (h : EnhanceOk (2 ^ 27) cur) :
    ∃ (r : Parms (IEEE m) × Tls (IEEE m)) (q : IEEE m) (v : ℚ), spectralAmpEnhanceSimd isa addr cur t = .ok r ∧ r.2 = setPreEnhRm0 addr q t ∧ Val q v ∧
      |energy (amps (valuesOf r.1).Ml) cur.L.toNat - energy (amps (valuesOf cur).Ml) cur.L.toNat| ≤
        energy (amps (valuesOf cur).Ml) cur.L.toNat / 100000 ∧
      |(v : ℝ) - energy (amps (valuesOf cur).Ml) cur.L.toNat| ≤ energy (amps (valuesOf cur).Ml) cur.L.toNat / 100000 + 1 / 2 ^ 130 := by
  obtain ⟨w, hw, ⟨w1, w2⟩, ⟨L1, L2⟩, hp⟩ := h.pitch
  obtain ⟨r, hr, hr'⟩ := enhanceSimd_runs isa addr cur t L2
  obtain ⟨q, v, k1, k2, k3⟩ := enhanceWith_stored (sumsNear_simd isa) hm h r hr'
  exact ⟨r, q, v, hr, k1, k2, enhanceWith_energy (sumsNear_simd isa) hm hw w1 w2 hp L1 L2 h.amps r hr', k3⟩

/-- **With an amplitude of `2^25` or more** the vector build, too, halves every harmonic above the lowest eighth. -/
theorem C81_loud (hm : TrigAcc m) (isa : Isa) (addr : Nat) (cur : Parms (IEEE m)) (t : Tls (IEEE m)) (h : EnhanceOk (2 ^ 27) cur)
    (k : Fin 57) (k1 : 1 ≤ k.val) (k2 : (k.val : Int) ≤ cur.L) (k3 : 2 ^ 25 ≤ (valuesOf cur).Ml k) :
    ∃ r, spectralAmpEnhanceSimd isa addr cur t = .ok r ∧ ∀ l : Fin 57, 1 ≤ l.val → (l.val : Int) ≤ cur.L → ∃ v : ℚ, Val (r.1.Ml l) v ∧ 0 ≤ v ∧
        |(v : ℝ) - Real.sqrt (energy (amps (valuesOf cur).Ml) cur.L.toNat / energy (fun l => halved cur.L.toNat l * amps (valuesOf cur).Ml l) cur.L.toNat) *
            (halved cur.L.toNat l.val * (valuesOf cur).Ml l)| ≤
          1 / 20 * (Real.sqrt (energy (amps (valuesOf cur).Ml) cur.L.toNat / energy (fun l => halved cur.L.toNat l * amps (valuesOf cur).Ml l) cur.L.toNat) *
            (halved cur.L.toNat l.val * (valuesOf cur).Ml l)) + 1 / 2 ^ 120 := by
  obtain ⟨_, _, _, ⟨_, L2⟩, _⟩ := h.pitch
  obtain ⟨r, hr, hw⟩ := enhanceSimd_runs isa addr cur t L2
  exact ⟨r, hr, enhanceWith_louder (sumsNear_simd isa) hm h hw k k1 k2 k3⟩

/-- **The two builds** differ by at most a tenth of the exact amplitude in every band, and by two hundred-thousandths in energy. -/
theorem C81_builds (hm : TrigAcc m) (hcos : CosAcc m) (hsin : SinAcc m) (isa : Isa) (addr : Nat) (cur : Parms (IEEE m)) (t : Tls (IEEE m))
    (h : EnhanceOk (2 ^ 18) cur) : ∃ r r', spectralAmpEnhance addr cur t = .ok r ∧ spectralAmpEnhanceSimd isa addr cur t = .ok r' ∧
      (∀ l : Fin 57, 1 ≤ l.val → (l.val : Int) ≤ cur.L → |(valuesOf r'.1).Ml l - (valuesOf r.1).Ml l| ≤
          1 / 10 * (enhGain (valuesOf cur).w0 (amps (valuesOf cur).Ml) cur.L.toNat *
            (enhFactor (valuesOf cur).w0 (amps (valuesOf cur).Ml) cur.L.toNat l.val * (valuesOf cur).Ml l)) + 1 / 2 ^ 119) ∧
      |energy (amps (valuesOf r'.1).Ml) cur.L.toNat - energy (amps (valuesOf r.1).Ml) cur.L.toNat| ≤
        energy (amps (valuesOf cur).Ml) cur.L.toNat / 50000 := by
  obtain ⟨r, hr, _, ha⟩ := C77_amp hm hcos hsin addr cur t h
  obtain ⟨r', hr', _, ha'⟩ := C81_amp hm hcos hsin isa addr cur t h
  have h' : EnhanceOk (2 ^ 27) cur := enhanceOk_mono h (by norm_num)
  obtain ⟨u, _, _, hu, _, _, eu, _⟩ := C77_energy hm addr cur t h'
  obtain ⟨u', _, _, hu', _, _, eu', _⟩ := C81_energy hm isa addr cur t h'
  rw [hr] at hu
  rw [hr'] at hu'
  cases ok_inj hu
  cases ok_inj hu'
  refine ⟨r, r', hr, hr', fun l l1 l2 => ?_, ?_⟩
  · obtain ⟨v, v1, _, v2⟩ := ha l l1 l2
    obtain ⟨v', v1', _, v2'⟩ := ha' l l1 l2
    rw [show (valuesOf r.1).Ml l = _ from Val.number v1, show (valuesOf r'.1).Ml l = _ from Val.number v1']
    generalize enhGain _ _ _ * _ = y at *
    rw [abs_le] at *
    norm_num at *
    constructor <;> linarith
  · rw [abs_le] at *
    constructor <;> linarith

theorem synthUnmutedSimd_bands {F : Type} [Arith F] (isa : Isa) (E : Env F) (cur prev : Parms F) (t : Tls F) (k : Fin 57) (h : (k.val : Int) ≤ cur.L) :
    Post (synthUnmutedSimd isa E cur prev t) fun r => r.cur.Ml k = cur.Ml k ∧ r.cur.Vl k = cur.Vl k := by
  unfold synthUnmutedSimd
  refine Post.bind Post.true fun nr _ => ?_
  refine Post.bind Post.true fun nuv _ => ?_
  refine Post.bind (P := fun q : Parms F × Parms F × Int => q.1.Ml k = cur.Ml k ∧ q.1.Vl k = cur.Vl k) ?_ fun q hq => ?_
  · refine Post.ite (fun _ => ?_) fun _ => ?_
    · exact Post.bind Post.true fun p _ => Post.pure ⟨rfl, rfl⟩
    · exact Post.bind (extendBands_same (k := k) (by exact h) (by dsimp only; omega)) fun p hp => Post.pure hp
  obtain ⟨c, p, ml⟩ := q
  dsimp only at hq ⊢
  refine Post.bind (phaseUpdate_frame _ _ _ _ _ _) fun q hq' => ?_
  obtain ⟨c', p'⟩ := q
  dsimp only at hq' ⊢
  have e : c'.Ml k = cur.Ml k ∧ c'.Vl k = cur.Vl k := by rw [hq'.1]; exact hq
  refine Post.bind Post.true fun out _ => ?_
  refine Post.bind Post.true fun q _ => ?_
  obtain ⟨pl, t'⟩ := q
  dsimp only
  cases pl with
  | some P => exact Post.bind Post.true fun u _ => Post.bind Post.true fun _ _ => Post.pure e
  | none => exact Post.bind Post.true fun _ _ => Post.pure e

/-- As `speak_bands`. -/
theorem speakSimd_bands {F : Type} [Arith F] (isa : Isa) (E : Env F) (C : Call F) (s : St F) :
    Post (speakSimd isa E C s) fun o => ∃ e q, spectralAmpEnhanceSimd isa C.pc s.cur s.tls = .ok e ∧
    applySmoothing C.pc e.1 s.enh e.2 = .ok q ∧ o.2.enh.amplitudeThreshold = q.1.amplitudeThreshold ∧ o.2.enh.localEnergy = q.1.localEnergy ∧
    ∀ k : Fin 57, (k.val : Int) ≤ s.cur.L → o.2.enh.Ml k = q.1.Ml k ∧ o.2.enh.Vl k = q.1.Vl k := by
  intro o h
  unfold speakSimd at h
  obtain ⟨⟨c, t⟩, h1, h⟩ := bind_ok h
  obtain ⟨r, h2, h⟩ := bind_ok h
  rw [← ok_inj h]
  have hc := (spectralAmpEnhanceSimd_frame _ _ _ _ _ h1).1
  unfold synthesizeSpeechfSimd at h2
  obtain ⟨⟨c', t'⟩, h3, h2⟩ := bind_ok h2
  have hc' := (applySmoothing_frame _ _ _ _ _ h3).1
  refine ⟨(c, t), (c', t'), h1, h3, ?_⟩
  dsimp only at h2 hc hc' ⊢
  by_cases hm : synthMuted c' = true
  · rw [if_pos hm] at h2
    obtain ⟨x, _, h2⟩ := bind_ok h2
    rw [← ok_inj h2]
    exact ⟨rfl, rfl, fun _ _ => ⟨rfl, rfl⟩⟩
  · rw [if_neg hm] at h2
    have f := (synthUnmutedSimd_frame isa _ _ _ _ _ h2).cur_eq
    refine ⟨by rw [f], by rw [f], fun k hk => synthUnmutedSimd_bands isa E c' _ t' k ?_ r h2⟩
    rw [hc', hc]
    exact hk

/-- **The amplitudes that the vector build plays** are within a ninth of the exact ones, for decoded amplitudes up to `2^18`. -/
theorem C81_played (hm : TrigAcc m) (hcos : CosAcc m) (hsin : SinAcc m) (isa : Isa) (E : Env (IEEE m)) (C : Call (IEEE m)) (s : St (IEEE m))
    (o : Arr 160 (IEEE m) × St (IEEE m)) (h : speakSimd isa E C s = .ok o) (hs : EnhanceOk (2 ^ 18) s.cur) (hT : 1 ≤ o.2.enh.amplitudeThreshold)
    (l : Fin 57) (l1 : 1 ≤ l.val) (l2 : (l.val : Int) ≤ s.cur.L) :
    ∃ v : ℚ, Val (o.2.enh.Ml l) v ∧ 0 ≤ v ∧
      |(v : ℝ) - played (valuesOf s.cur).w0 o.2.enh.amplitudeThreshold (amps (valuesOf s.cur).Ml) s.cur.L.toNat l.val| ≤
        1 / 9 * played (valuesOf s.cur).w0 o.2.enh.amplitudeThreshold (amps (valuesOf s.cur).Ml) s.cur.L.toNat l.val + 1 / 2 ^ 100 := by
  obtain ⟨e, q, h1, h2, hq, _, h3⟩ := speakSimd_bands isa E C s o h
  obtain ⟨w, hw, ⟨w1, w2⟩, ⟨L1, L2⟩, hp⟩ := hs.pitch
  have hr : enhanceWith (rm01Simd isa) (enhSumSimd isa) C.pc s.cur s.tls = .ok e := by
    rw [← spectralAmpEnhanceSimd_with isa C.pc s.cur s.tls L2]; exact h1
  obtain ⟨hf, hv⟩ := enhanceWith_amp (sumsNear_simd isa) hm hcos hsin hs hr
  have am : Amps (2 ^ 32) (1 / 2 ^ 16) e.1 := enhanceWith_fin (sumsNear_simd isa).toSumsVal hm hw w1 w2 hp L1 L2 (by
    obtain ⟨a, ha, hz⟩ := hs.amps
    exact ⟨a, fun l h1 h2 => ⟨(ha l h1 h2).1, (ha l h1 h2).2.1, (ha l h1 h2).2.2.trans (by norm_num)⟩, hz⟩) e hr
  exact played_of h2 hf L2 am hv hq h3 hT l l1 l2

/-- Twelve harmonics of amplitude 1 meet the hypotheses of `C81_amp`; the exact factor of the second of them is not 0. -/
example : EnhanceOk (2 ^ 18) (flat (lit 1 1 : IEEE m)) ∧ 1 ≤ enhFactor (1 / 4) (fun _ => 1) 12 2 :=
  ⟨flat_ok (val_of_rng (show rngB (lit 1 1 : IEEE libm0) 1 1 = true by decide +kernel)) (by norm_num) (by norm_num), flat_factor⟩

end Verif.Props
