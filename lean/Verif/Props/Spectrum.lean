import Verif.Spec.Spectrum
import Verif.Lemmas.DctUnique
import Verif.Props.Imbe
import Verif.Props.Predict

/-!
# C53: the decoded spectrum is the transmitted one

Exact arithmetic. The analysis of the encoder (prediction, blocks, cosine transforms), run on the decoded log amplitudes,
returns the quantiser values that the payload selects.
-/

namespace Verif.Props
open Verif Verif.Spec Verif.Model Verif.Num Verif.Gen Arith

/-- IMBE: every valid payload is decoded, whatever the previous frame was; the fundamental and the number of harmonics are
the transmitted ones; the six block means of the residual transform to the transmitted gain vector; the other
coefficients of each block are the transmitted ones; the amplitudes are the powers of two of the log amplitudes. -/
theorem C53_imbe (d : Nat → Int) (hd : Bits 88 d) (hf : imbeFund d ≤ 207) (E : Env ℝ) (cur prev : Parms ℝ) (t : Tls ℝ)
    (ht : CacheOk E t) (hp : 0 ≤ prev.L) (hp' : prev.L ≤ 56) :
    ∃ r L, decodeImbe4400 true d cur prev t = .ok r ∧ r.bad = 0 ∧ r.cur.w0 = 4 * Real.pi / (imbeFund d + 39.5) ∧
      r.cur.L = imbeHarmonics (imbeFund d) ∧ L = r.cur.L.toNat ∧
      (∀ m, 1 ≤ m → m ≤ 6 →
        dct 6 (fun i => blockDct (blockLens L) (imbeResidual r.cur prev) i 1) m = imbeGain d L m) ∧
      (∀ i, 1 ≤ i → i ≤ 6 → ∀ k, 2 ≤ k → k ≤ len (blockLens L) i →
        blockDct (blockLens L) (imbeResidual r.cur prev) i k = imbeHigher d L i k) ∧
      ∀ l, 1 ≤ l → l ≤ L → r.cur.Ml.getD l 0 = (2 : ℝ) ^ logAmp r.cur l := by
  obtain ⟨M, hM⟩ := Int.eq_ofNat_of_zero_le hp
  obtain ⟨r1, r2⟩ := imbeLTab_range (imbeFund d) (by omega)
  obtain ⟨n, hn⟩ : ∃ n, imbeLTab (imbeFund d) = n + 9 := ⟨imbeLTab (imbeFund d) - 9, by omega⟩
  obtain ⟨r, hr, _, _, h0⟩ := decodeImbe4400_total_r hd (p := M) cur prev t hM (by omega)
  obtain ⟨h0, hL⟩ := h0 hf
  have hr' := hr
  rw [decodeImbe4400_good_r hd hf, hn] at hr'
  obtain ⟨b1, b2, b3, b4⟩ := imbeDecodeBody_blocks (show n < 48 by omega) hd (imbeCache_fill ht) hM (by omega) r hr'
  have hLn : r.cur.L.toNat = n + 9 := by rw [hL, hn]; rfl
  have hMn : prev.L.toNat = M := by omega
  refine ⟨r, n + 9, hr, h0, ?_, by rw [hL, imbeHarmonics_eq], hLn.symm, ?_⟩
  · rw [b3, imbeW0_r]
    norm_num
  have key : ∀ i, 1 ≤ i → i ≤ 6 → ∀ k, 1 ≤ k → k ≤ len (blockLens (n + 9)) i →
      blockDct (blockLens (n + 9)) (imbeResidual r.cur prev) i k = imbeCoef d (n + 9) (idct 6 (imbeGain d (n + 9))) i k := by
    intro i i1 i2 k k1 k2
    rw [len_eq] at k2
    unfold blockDct
    rw [len_eq, before_eq (by omega) i2]
    rw [← dct_idct (imbeCoef d (n + 9) (idct 6 (imbeGain d (n + 9))) i) k1 k2]
    refine dct_congr fun j j1 j2 => ?_
    rw [← b1 i i1 i2 j j1 j2]
    unfold imbeResidual
    rw [hLn, hMn]
  refine ⟨fun m m1 m2 => ?_, fun i i1 i2 k k1 k2 => ?_, fun l l1 l2 => ?_⟩
  · rw [← dct_idct (imbeGain d (n + 9)) m1 m2]
    refine dct_congr fun i i1 i2 => ?_
    have hJ := Jn_range (show n < 48 by omega) (show i - 1 < 6 by omega)
    rw [key i i1 i2 1 le_rfl (by rw [len_eq]; omega)]
    unfold imbeCoef
    rw [if_pos rfl]
  · rw [key i i1 i2 k (by omega) k2]
    unfold imbeCoef
    rw [if_neg (by omega)]
  · unfold logAmp
    rw [Arr.getD_lt (show l < 57 by omega), Arr.getD_lt (show l < 57 by omega)]
    exact b2 ⟨l, by omega⟩ l1 l2

/-- AMBE 2450: every voice or silence payload is decoded, whatever the previous frame was; the residual has the
transmitted shape, the mean of the log amplitudes is the gain, the amplitudes of unvoiced harmonics are scaled by
`0.2046 / √ω₀`, and `ω₀` is the transmitted fundamental. -/
theorem C53_2450 (d : Nat → Int) (hd : Bits 49 d) (e : Int) (ht : ¬ (ToneSig d ∧ e < 6))
    (hf : ambeFund2450 d < 120 ∨ ambeFund2450 d = 124 ∨ ambeFund2450 d = 125) (E : Env ℝ) (cur prev : Parms ℝ) (t : Tls ℝ)
    (hc : CacheOk E t) (hp : 1 ≤ prev.L) (hp' : prev.L ≤ 56) :
    ∃ r, decodeAmbe2450 true d e cur prev t = .ok r ∧ r.bad = 0 ∧ r.cur.L = ambeHarmonics2450 (ambeFund2450 d) ∧
      r.cur.w0 = 2 * Real.pi * ambeF0_2450 (ambeFund2450 d) ∧
      HasShape (shape2450Of d) r.cur.L.toNat (ambeResidual r.cur prev) ∧
      meanLog r.cur = gainStep2450 d + 1 / 2 * prev.gamma - 1 / 2 * Real.logb 2 r.cur.L ∧
      ∀ l, 1 ≤ l → l ≤ r.cur.L.toNat → r.cur.Ml.getD l 0 =
        (if r.cur.Vl.getD l 0 = 1 then 1 else 0.2046 / Real.sqrt r.cur.w0) * (2 : ℝ) ^ logAmp r.cur l := by
  obtain ⟨M, hM⟩ := Int.eq_ofNat_of_zero_le (show 0 ≤ prev.L by omega)
  obtain ⟨r, hr, h0, _, _, h3, h4⟩ := C44_mean_2450 d hd e cur prev t (by omega) hp' ht hf
  have hr' := hr
  rw [((decodeAmbe2450_eq hd true e cur prev t).2 ht).2 hf] at hr'
  have hs := ambe2450Voice_spectrum hd hc hM (by omega) (by omega) r hr'
  obtain ⟨r', hv, _, hvL, _⟩ := ambe2450Voice_ok_r hd hf { cur with repeat_ := prev.repeat_ } prev t hM (by omega)
  rw [hr'] at hv
  cases hv
  exact ⟨r, hr, h0, hvL, hs.w0, hs.shape, by rw [h4, h3], hs.amp⟩

/-- AMBE 2400. -/
theorem C53_2400 (d : Nat → Int) (hd : Bits 49 d) (hf : ambeFund2400 d < 126) (E : Env ℝ) (cur prev : Parms ℝ) (t : Tls ℝ)
    (hc : CacheOk E t) (hp : 1 ≤ prev.L) (hp' : prev.L ≤ 56) :
    ∃ r, decodeAmbe2400 true d cur prev t = .ok r ∧ r.bad = 0 ∧ r.cur.L = AmbePlusLtable.getD (ambeFund2400 d) 0 ∧
      r.cur.w0 = 2 * Real.pi * ambeF0_2400 (ambeFund2400 d) ∧
      HasShape (shape2400Of d) r.cur.L.toNat (ambeResidual r.cur prev) ∧
      meanLog r.cur = gainStep2400 d + 1 / 2 * prev.gamma - 1 / 2 * Real.logb 2 r.cur.L ∧
      ∀ l, 1 ≤ l → l ≤ r.cur.L.toNat → r.cur.Ml.getD l 0 =
        (if r.cur.Vl.getD l 0 = 1 then 1 else 0.2046 / Real.sqrt r.cur.w0) * (2 : ℝ) ^ logAmp r.cur l := by
  obtain ⟨M, hM⟩ := Int.eq_ofNat_of_zero_le (show 0 ≤ prev.L by omega)
  obtain ⟨r, hr, h0, _, _, h3, h4⟩ := C44_mean_2400 d hd cur prev t (by omega) hp' hf
  have hr' := hr
  rw [(decodeAmbe2400_eq hd true cur prev t).1 hf] at hr'
  have hs := ambe2400Voice_spectrum hd hc hM (by omega) (by omega) r hr'
  obtain ⟨r', hv, _, hvL, _⟩ := ambe2400Voice_ok_r hd hf { cur with repeat_ := prev.repeat_ } prev t hM (by omega)
  rw [hr'] at hv
  cases hv
  exact ⟨r, hr, h0, hvL, hs.w0, hs.shape, by rw [h4, h3], hs.amp⟩

/-- The analysis leaves nothing open, IMBE: at most one residual has the given gain vector and block coefficients. -/
theorem C53_unique_imbe (L : Nat) (h9 : 9 ≤ L) (h56 : L ≤ 56) (x y : Nat → ℝ)
    (h1 : ∀ m, 1 ≤ m → m ≤ 6 → dct 6 (fun i => blockDct (blockLens L) x i 1) m = dct 6 (fun i => blockDct (blockLens L) y i 1) m)
    (h2 : ∀ i, 1 ≤ i → i ≤ 6 → ∀ k, 2 ≤ k → k ≤ len (blockLens L) i → blockDct (blockLens L) x i k = blockDct (blockLens L) y i k) :
    ∀ l, 1 ≤ l → l ≤ L → x l = y l := by
  obtain ⟨n, rfl⟩ : ∃ n, L = n + 9 := ⟨L - 9, by omega⟩
  have hlen := blockLens_length (show n < 48 by omega)
  have hsum : (blockLens (n + 9)).sum = n + 9 := by
    have h := (take_sum (show n < 48 by omega) 6 le_rfl).1
    rw [List.take_of_length_le (by omega)] at h
    rw [h]
    exact Jsum_six (by omega)
  intro l l1 l2
  obtain ⟨i, j, i1, i2, j1, j2, rfl⟩ := block_of l1 (show l ≤ (blockLens (n + 9)).sum by omega)
  rw [hlen] at i2
  refine dct_inj (N := len (blockLens (n + 9)) i) (x := fun j => x (before (blockLens (n + 9)) i + j))
    (y := fun j => y (before (blockLens (n + 9)) i + j)) (fun k k1 k2 => ?_) j1 j2
  by_cases c : k = 1
  · subst c
    exact dct_inj (N := 6) (x := fun i => blockDct (blockLens (n + 9)) x i 1) (y := fun i => blockDct (blockLens (n + 9)) y i 1) h1 i1 i2
  · exact h2 i i1 i2 k (by omega) k2

/-- The analysis leaves nothing open, AMBE: two spectra with the same number of harmonics, the same mean and the same
shape of the residual are the same. `S` is the shape in any payload of either codec. -/
theorem C53_unique_ambe (S : Shape) (hS : ∃ d, S = shape2450Of d ∨ S = shape2400Of d) (p q prev : Parms ℝ) (h9 : 9 ≤ p.L) (h56 : p.L ≤ 56)
    (hL : q.L = p.L) (hp : HasShape S p.L.toNat (ambeResidual p prev)) (hq : HasShape S q.L.toNat (ambeResidual q prev))
    (hm : meanLog p = meanLog q) : ∀ l, 1 ≤ l → l ≤ p.L.toNat → logAmp p l = logAmp q l := by
  rw [hL] at hq
  have hS' : S.lens = AmbeLmprbl ∨ S.lens = AmbePlusLmprbl := by
    obtain ⟨d, rfl | rfl⟩ := hS
    · exact .inl rfl
    · exact .inr rfl
  have facts : (S.lens.getD p.L.toNat []).length = 4 ∧ (S.lens.getD p.L.toNat []).sum = p.L.toNat ∧
      ∀ i, 1 ≤ i → i ≤ 4 → 2 ≤ len (S.lens.getD p.L.toNat []) i := by
    rcases hS' with e | e <;> rw [e]
    · obtain ⟨a, _, b⟩ := shape2450.lmr p.L.toNat (by omega) (by omega)
      exact ⟨a, b, fun i i1 i2 => lens2450_ge p.L.toNat (by omega) (by omega) i (by omega) i1⟩
    · obtain ⟨a, _, b⟩ := shape2400.lmr p.L.toNat (by omega) (by omega)
      exact ⟨a, b, fun i i1 i2 => lens2400_ge p.L.toNat (by omega) (by omega) i (by omega) i1⟩
  obtain ⟨κ, hκ⟩ := hasShape_unique facts.1 facts.2.1 facts.2.2 hp hq
  have hd : ∀ l, 1 ≤ l → l ≤ p.L.toNat → logAmp p l = logAmp q l + κ := by
    intro l l1 l2
    have := hκ l l1 l2
    unfold ambeResidual at this
    rw [hL] at this
    linarith
  have hL' : (p.L : ℝ) ≠ 0 := by
    have : p.L ≠ 0 := by omega
    exact_mod_cast this
  have hz : κ = 0 := by
    have hm : (∑ l ∈ Finset.Icc 1 p.L.toNat, logAmp p l) / p.L = (∑ l ∈ Finset.Icc 1 q.L.toNat, logAmp q l) / q.L := hm
    rw [hL, div_left_inj' hL', Finset.sum_congr rfl fun l hl => hd l (Finset.mem_Icc.mp hl).1 (Finset.mem_Icc.mp hl).2] at hm
    rw [Finset.sum_add_distrib] at hm
    have : ∑ _l ∈ Finset.Icc 1 p.L.toNat, κ = 0 := by linarith
    rw [Finset.sum_const, Nat.card_Icc, nsmul_eq_mul] at this
    rcases mul_eq_zero.mp this with h | h
    · have : (p.L.toNat + 1 - 1 : Nat) = 0 := by exact_mod_cast h
      omega
    · exact h
  intro l l1 l2
  rw [hd l l1 l2, hz, add_zero]

/-- A frame with the lowest fundamental code and the largest gain code: the gain vector starts with 8.695827, and the
block lengths are 1, 1, 1, 2, 2, 2. -/
example (cur prev : Parms ℝ) (E : Env ℝ) (h : prev.L = 30) : ∃ r, decodeImbe4400 true samplePayload cur prev Tls.start = .ok r ∧ r.bad = 0 ∧
    r.cur.L = 9 ∧ blockLens 9 = [1, 1, 1, 2, 2, 2] ∧
    dct 6 (fun i => blockDct (blockLens 9) (imbeResidual r.cur prev) i 1) 1 = 8.695827 := by
  have e : imbeFund samplePayload = 0 := by decide
  obtain ⟨r, L, h1, h2, _, h4, h5, h6, _⟩ := C53_imbe samplePayload samplePayload_bits (by rw [e]; decide) E cur prev Tls.start
    (CacheOk.start E) (by omega) (by omega)
  have hL : r.cur.L = 9 := by rw [h4, imbeHarmonics_eq, e]; decide
  rw [hL] at h5
  subst h5
  refine ⟨r, h1, h2, hL, rfl, ?_⟩
  rw [show ((9 : Int)).toNat = 9 from rfl] at h6
  rw [h6 1 le_rfl (by decide)]
  unfold imbeGain
  rw [if_pos rfl, show rowValue samplePayload 9 2 = 63 by decide +kernel, show B2.getD 63 0 = 8695827 by decide +kernel]
  norm_num [B2_den]

/-- An AMBE 2450 voice frame whose fundamental and voicing bits are zero and whose other bits are one, after a frame with
15 harmonics. -/
example (cur prev : Parms ℝ) (E : Env ℝ) (h : prev.L = 15) :
    ∃ r, decodeAmbe2450 true (fun i => if i < 8 ∨ 37 ≤ i ∧ i ≤ 39 then 0 else 1) 0 cur prev Tls.start = .ok r ∧ r.bad = 0 ∧
      r.cur.L = 9 ∧ dct 8 (vector8 [2, 2, 2, 3] (ambeResidual r.cur prev)) 2 = -0.410922 := by
  obtain ⟨r, h1, h2, h3, _, h5, _⟩ := C53_2450 (fun i => if i < 8 ∨ 37 ≤ i ∧ i ≤ 39 then 0 else 1) (fun i _ => by
    dsimp only; split <;> simp) 0 (by decide) (by decide) E cur prev Tls.start (CacheOk.start E) (by omega) (by omega)
  have hL : r.cur.L = 9 := by rw [h3]; decide +kernel
  refine ⟨r, h1, h2, hL, ?_⟩
  rw [hL] at h5
  have h6 := h5.1 2 le_rfl (by decide)
  refine Eq.trans h6 ?_
  unfold shape2450Of
  dsimp only
  unfold vectorOf entry
  rw [if_pos (by decide)]
  have e : (AmbePRBA24.getD (fieldVal (fun i => if i < 8 ∨ 37 ≤ i ∧ i ≤ 39 then 0 else 1) [12, 13, 14, 15, 16, 17, 18, 19, 40]) []).getD (2 - 2) 0 =
    -410922 := by decide +kernel
  rw [e]
  norm_num

end Verif.Props
