import Verif.Spec.Predict
import Verif.Lemmas.PredictStep
import Verif.Lemmas.RealTotal
import Verif.Lemmas.PredictHist
import Verif.Lemmas.History
import Verif.Lemmas.SafeReal

/-!
# C44, C45: gain and log amplitudes

Exact arithmetic.
-/

namespace Verif.Props
open Verif Verif.Spec Verif.Model Verif.Num Verif.Gen Arith

/-! ## C44 -/

theorem gainStep_table {T : AmbeTabs} (hT : T.Bnd) {i : Nat} {g : Int} (h : T.dg[i]? = some g) :
    (ftab g T.dgDen : ℝ) = (T.dg.getD i 0 : Int) / (1000000 : ℝ) := by
  obtain ⟨_, _, _, _, _, _, d, _, _, _, _, _, _, hd, _⟩ := hT
  have := List.all_eq_true.mp hd _ (List.mem_of_getElem? h)
  rw [decide_eq_true_eq] at this
  rw [d, ftab_r this (by decide), List.getD_eq_getElem?_getD, h]
  norm_num

/-- Every voice or silence payload of AMBE 2450 is decoded, and the mean of the log amplitudes is the gain minus half
the logarithm of the number of harmonics. The gain is the transmitted step plus half the previous gain. -/
theorem C44_mean_2450 (d : Nat → Int) (hd : Bits 49 d) (e : Int) (cur prev : Parms ℝ) (t : Tls ℝ)
    (hp : 0 ≤ prev.L) (hp' : prev.L ≤ 56) (ht : ¬ (ToneSig d ∧ e < 6))
    (hf : ambeFund2450 d < 120 ∨ ambeFund2450 d = 124 ∨ ambeFund2450 d = 125) :
    ∃ r, decodeAmbe2450 true d e cur prev t = .ok r ∧ r.bad = 0 ∧ 9 ≤ r.cur.L ∧ r.cur.L ≤ 56 ∧
      r.cur.gamma = gainStep2450 d + 1 / 2 * prev.gamma ∧
      meanLog r.cur = r.cur.gamma - 1 / 2 * Real.logb 2 r.cur.L := by
  obtain ⟨p, hpL⟩ := Int.eq_ofNat_of_zero_le hp
  obtain ⟨r, hr, h⟩ := (decodeAmbe2450_total_r hd (p := p) e cur prev t hpL (by omega))
  have hb := h.2 ht hf
  obtain ⟨g, b2, h1, h2, h3⟩ := decodeAmbe2450_r _ _ _ _ _ _ r hr hb
  refine ⟨r, hr, hb, h3.L_lo, h3.L_hi, ?_, h3.mean⟩
  rw [h3.gamma, gainStep_table bnd2450 h1, h2 hd]
  rfl

/-- The same for AMBE 2400. -/
theorem C44_mean_2400 (d : Nat → Int) (hd : Bits 49 d) (cur prev : Parms ℝ) (t : Tls ℝ)
    (hp : 0 ≤ prev.L) (hp' : prev.L ≤ 56) (hf : ambeFund2400 d < 126) :
    ∃ r, decodeAmbe2400 true d cur prev t = .ok r ∧ r.bad = 0 ∧ 9 ≤ r.cur.L ∧ r.cur.L ≤ 56 ∧
      r.cur.gamma = gainStep2400 d + 1 / 2 * prev.gamma ∧
      meanLog r.cur = r.cur.gamma - 1 / 2 * Real.logb 2 r.cur.L := by
  obtain ⟨p, hpL⟩ := Int.eq_ofNat_of_zero_le hp
  obtain ⟨r, hr, h⟩ := (decodeAmbe2400_total_r hd (p := p) cur prev t hpL (by omega))
  have hb := h.2 hf
  obtain ⟨g, b2, h1, h2, h3⟩ := decodeAmbe2400_r _ _ _ _ _ r hr hb
  refine ⟨r, hr, hb, h3.L_lo, h3.L_hi, ?_, h3.mean⟩
  rw [h3.gamma, gainStep_table bnd2400 h1, h2 hd]
  rfl

/-- Neither the shape bits nor the previous spectrum move the mean: two AMBE 2450 voice frames with the same number of
harmonics, the same gain bits and the same previous gain have the same mean, whatever the other bits, the bound checks of
the previous spectrum and the previous spectrum itself are. -/
theorem C44_shape_invariant_2450 (lax lax' : Bool) (d d' : Nat → Int) (hd : Bits 49 d) (hd' : Bits 49 d') (e e' : Int)
    (cur cur' prev prev' : Parms ℝ) (t t' : Tls ℝ) (r r' : DecodeRes ℝ)
    (hr : decodeAmbe2450 lax d e cur prev t = .ok r) (hr' : decodeAmbe2450 lax' d' e' cur' prev' t' = .ok r')
    (hb : r.bad = 0) (hb' : r'.bad = 0) (hL : r.cur.L = r'.cur.L) (hg : prev.gamma = prev'.gamma)
    (hG : ∀ i ∈ [8, 9, 10, 11, 36], d i = d' i) : meanLog r.cur = meanLog r'.cur := by
  obtain ⟨g, b, h1, h2, h3⟩ := decodeAmbe2450_r _ _ _ _ _ _ r hr hb
  obtain ⟨g', b', h1', h2', h3'⟩ := decodeAmbe2450_r _ _ _ _ _ _ r' hr' hb'
  have hbb : b = b' := by
    rw [h2 hd, h2' hd']
    simp only [List.forall_mem_cons] at hG
    simp only [fieldVal, List.foldl, hG]
  have hgg : g = g' := by
    rw [hbb, h1'] at h1
    exact (Option.some.inj h1).symm
  refine h3.mean.trans (Eq.trans ?_ h3'.mean.symm)
  rw [h3.gamma, h3'.gamma, hL, hg, hgg]

/-- The same for AMBE 2400. -/
theorem C44_shape_invariant_2400 (lax lax' : Bool) (d d' : Nat → Int) (hd : Bits 49 d) (hd' : Bits 49 d')
    (cur cur' prev prev' : Parms ℝ) (t t' : Tls ℝ) (r r' : DecodeRes ℝ)
    (hr : decodeAmbe2400 lax d cur prev t = .ok r) (hr' : decodeAmbe2400 lax' d' cur' prev' t' = .ok r')
    (hb : r.bad = 0) (hb' : r'.bad = 0) (hL : r.cur.L = r'.cur.L) (hg : prev.gamma = prev'.gamma)
    (hG : ∀ i ∈ [6, 7, 8, 9, 42, 43], d i = d' i) : meanLog r.cur = meanLog r'.cur := by
  obtain ⟨g, b, h1, h2, h3⟩ := decodeAmbe2400_r _ _ _ _ _ r hr hb
  obtain ⟨g', b', h1', h2', h3'⟩ := decodeAmbe2400_r _ _ _ _ _ r' hr' hb'
  have hbb : b = b' := by
    rw [h2 hd, h2' hd']
    simp only [List.forall_mem_cons] at hG
    simp only [fieldVal, List.foldl, hG]
  have hgg : g = g' := by
    rw [hbb, h1'] at h1
    exact (Option.some.inj h1).symm
  refine h3.mean.trans (Eq.trans ?_ h3'.mean.symm)
  rw [h3.gamma, h3'.gamma, hL, hg, hgg]

/-- A voice frame with the largest gain step after a default state. -/
example (cur prev : Parms ℝ) (t : Tls ℝ) (h : prev.L = 15) (h' : prev.gamma = 0) :
    ∃ r, decodeAmbe2450 true (fun i => if i < 8 ∨ 37 ≤ i ∧ i ≤ 39 then 0 else 1) 0 cur prev t = .ok r ∧ r.bad = 0 ∧
      r.cur.gamma = 6.874496 := by
  obtain ⟨r, h1, h2, _, _, h5, _⟩ := C44_mean_2450 (fun i => if i < 8 ∨ 37 ≤ i ∧ i ≤ 39 then 0 else 1) (fun i _ => by
    dsimp only; split <;> simp) 0 cur prev t (by omega) (by omega) (by decide) (by decide)
  refine ⟨r, h1, h2, ?_⟩
  rw [h5, h', show gainStep2450 _ = ((6874496 : Int) : ℝ) / 1000000 from rfl]
  norm_num

/-! ## C45

`SpreadLe S p` bounds the difference of any two log amplitudes of `p`. -/

/-- One IMBE frame: if the previous log amplitudes (including element 0, which the prediction also reads) differ by at
most `S`, the new ones differ by at most `74.24 + 0.7 S`. The first number comes from the codebooks only. -/
theorem C45_contract_imbe (d : Nat → Int) (hd : Bits 88 d) (hf : imbeFund d ≤ 207) (E : Env ℝ) (cur prev : Parms ℝ) (t : Tls ℝ)
    (ht : CacheOk E t) (hp : 0 ≤ prev.L) (hp' : prev.L ≤ 56) (S : ℝ) (hS : 0 ≤ S)
    (h : ∀ i j : Fin 57, (i.val : Int) ≤ prev.L → (j.val : Int) ≤ prev.L → prev.log2Ml i - prev.log2Ml j ≤ S) :
    ∃ r, decodeImbe4400 true d cur prev t = .ok r ∧ r.bad = 0 ∧ SpreadLe (74.24 + 7 / 10 * S) r.cur ∧
      ∀ l : Fin 57, 1 ≤ l.val → (l.val : Int) ≤ r.cur.L → |r.cur.log2Ml l| ≤ 37.12 + 7 / 10 * S := by
  obtain ⟨p, hpL⟩ := Int.eq_ofNat_of_zero_le hp
  obtain ⟨r, hr, h1, _, h2⟩ := decodeImbe4400_total_r hd (p := p) cur prev t hpL (by omega)
  refine ⟨r, hr, (h2 hf).1, ?_⟩
  have hv := decodeImbe4400_r _ _ _ _ _ r hr (h2 hf).1
  have hz := decodeImbe4400_zero hp r hr
  have hk := decodeImbe4400_keep _ _ _ _ _ r hr
  have e : ∀ l : Fin 57, (l.val : Int) ≤ prev.L → r.prev.log2Ml l = prev.log2Ml l := by
    intro l hl
    by_cases c : l.val = 0
    · rw [show l = 0 from Fin.ext c]; exact hz
    · exact (hk l (by omega) hl).2
  obtain ⟨Tl, hf', hT⟩ := hv.form
  have a := hv.L_lo
  obtain ⟨r1, r2⟩ := imbeRho_range a
  obtain ⟨k1, k2⟩ := contract (lax := true) (p := r.prev) (L := r.cur.L) (Tl := fun l => Tl.getD l 0) (B := 37.12)
    (by rw [h1]; exact hp) (by rw [h1]; exact hp') (by omega) (fun l => by
      by_cases c : l < 57
      · rw [Arr.getD_lt c]; exact hT (cacheBnd_imbe ht) _
      · unfold Arr.getD; rw [dif_neg c, abs_zero]; norm_num) r1 r2 hS
    (fun i j hi hj => by rw [h1] at hi hj; rw [e i hi, e j hj]; exact h i j hi hj)
  refine ⟨fun i j a b c d => ?_, fun i a b => ?_⟩
  · rw [hf' i a (by omega), hf' j c (by omega)]
    have := k1 i j b d
    rw [Arr.getD_lt i.isLt, Arr.getD_lt j.isLt] at this
    norm_num at this ⊢
    linarith
  · have := k2 i b
    rw [Arr.getD_lt i.isLt] at this
    rw [hf' i a (by omega)]
    exact this

theorem contract_ambe {lax : Bool} {T : AmbeTabs} {c : Prop} (hc : c) {z : ℝ} {p : Parms ℝ} {r : DecodeRes ℝ} {g : Int}
    (h : AmbeVoiceR lax T c z p r g) (hlo : 1 ≤ p.L) (hhi : p.L ≤ 56) (hL : r.prev.L = p.L) (hk : KeepAmps p r.prev)
    (S : ℝ) (hS : 0 ≤ S) (hp : SpreadLe S p) : SpreadLe (86 + 65 / 100 * S) r.cur := by
  have h01 : r.prev.log2Ml 0 = p.log2Ml 1 := by
    rw [h.zero]; exact (hk 1 (by decide) (show ((1 : Nat) : Int) ≤ p.L by omega)).2
  have ee : ∀ l : Fin 57, (l.val : Int) ≤ p.L → ∃ k : Fin 57, 1 ≤ k.val ∧ (k.val : Int) ≤ p.L ∧ r.prev.log2Ml l = p.log2Ml k := by
    intro l hl
    by_cases c : l.val = 0
    · exact ⟨1, by decide, show ((1 : Nat) : Int) ≤ p.L by omega, by rw [show l = 0 from Fin.ext c]; exact h01⟩
    · exact ⟨l, by omega, hl, (hk l (by omega) hl).2⟩
  obtain ⟨Tl, hf, hT⟩ := h.form
  have hL1 := h.L_lo
  obtain ⟨k1, _⟩ := contract (lax := lax) (p := r.prev) (L := r.cur.L) (Tl := fun l => Tl.getD l 0) (B := 43) (c := 65 / 100)
    (rho := 65 / 100) (S := S) (by omega) (by omega) (by omega) (fun l => by
      by_cases c : l < 57
      · rw [Arr.getD_lt c]; exact hT hc _
      · unfold Arr.getD; rw [dif_neg c, abs_zero]; norm_num) (by norm_num) (le_refl _) hS (fun i j hi hj => by
    rw [hL] at hi hj
    obtain ⟨i', a1, a2, a3⟩ := ee i hi
    obtain ⟨j', b1, b2, b3⟩ := ee j hj
    rw [a3, b3]
    exact hp i' j' a1 a2 b1 b2)
  intro i j a b c d
  rw [hf i a (by omega), hf j c (by omega)]
  have := k1 i j b d
  rw [Arr.getD_lt i.isLt, Arr.getD_lt j.isLt] at this
  linarith

/-- One AMBE 2450 frame: the spread goes from `S` to at most `86 + 0.65 S`. -/
theorem C45_contract_2450 (d : Nat → Int) (hd : Bits 49 d) (e : Int) (ht : ¬ (ToneSig d ∧ e < 6))
    (hf : ambeFund2450 d < 120 ∨ ambeFund2450 d = 124 ∨ ambeFund2450 d = 125) (E : Env ℝ) (cur prev : Parms ℝ) (t : Tls ℝ)
    (hc : CacheOk E t) (hp : 1 ≤ prev.L) (hp' : prev.L ≤ 56) (S : ℝ) (hS : 0 ≤ S) (h : SpreadLe S prev) :
    ∃ r, decodeAmbe2450 true d e cur prev t = .ok r ∧ r.bad = 0 ∧ SpreadLe (86 + 65 / 100 * S) r.cur := by
  obtain ⟨p, hpL⟩ := Int.eq_ofNat_of_zero_le (show 0 ≤ prev.L by omega)
  obtain ⟨r, hr, h1, h2⟩ := decodeAmbe2450_total_r hd (p := p) e cur prev t hpL (by omega)
  have hb := h2 ht hf
  obtain ⟨g, b2, _, _, h3⟩ := decodeAmbe2450_r _ _ _ _ _ _ r hr hb
  exact ⟨r, hr, hb, contract_ambe (cacheBnd_ambe2450 hc) h3 hp hp' h1 (decodeAmbe2450_keep _ _ _ _ _ _ r hr) S hS h⟩

/-- One AMBE 2400 frame: the same. -/
theorem C45_contract_2400 (d : Nat → Int) (hd : Bits 49 d) (hf : ambeFund2400 d < 126) (E : Env ℝ) (cur prev : Parms ℝ)
    (t : Tls ℝ) (hc : CacheOk E t) (hp : 1 ≤ prev.L) (hp' : prev.L ≤ 56) (S : ℝ) (hS : 0 ≤ S) (h : SpreadLe S prev) :
    ∃ r, decodeAmbe2400 true d cur prev t = .ok r ∧ r.bad = 0 ∧ SpreadLe (86 + 65 / 100 * S) r.cur := by
  obtain ⟨p, hpL⟩ := Int.eq_ofNat_of_zero_le (show 0 ≤ prev.L by omega)
  obtain ⟨r, hr, h1, h2⟩ := decodeAmbe2400_total_r hd (p := p) cur prev t hpL (by omega)
  have hb := h2 hf
  obtain ⟨g, b2, _, _, h3⟩ := decodeAmbe2400_r _ _ _ _ _ r hr hb
  exact ⟨r, hr, hb, contract_ambe (cacheBnd_ambe2400 hc) h3 hp hp' h1 (decodeAmbe2400_keep _ _ _ _ _ r hr) S hS h⟩

/-- Any number of IMBE frames, with any payloads (not even bits are required) and any error counts, from a fresh IMBE
decoder: the log amplitudes of the stored frame differ by at most 248 and none exceeds 211 in absolute value. -/
theorem C45_imbe (E : Env ℝ) (s0 s s' : St ℝ) (h0 : s0.tls = Tls.start) (hi : initMbeState s0 = .ok s) (ops : List (ImbeOp ℝ))
    (h : runOps (ImbeOp.run E) ops s = .ok s') :
    9 ≤ s'.prev.L ∧ s'.prev.L ≤ 56 ∧ SpreadLe 248 s'.prev ∧
      ∀ l : Fin 57, 1 ≤ l.val → (l.val : Int) ≤ s'.prev.L → |s'.prev.log2Ml l| ≤ 211 := by
  have hc := fresh_cacheOk (E := E) (s := s) ⟨s0, h0, .inl hi⟩
  have hp := pset_imbeInit (A := 0) (S := 248) (B := 211) (by norm_num) (by norm_num) (by norm_num)
  have e := initMbeState_r hi
  have hz : |s.cur.log2Ml 0| ≤ 0 := by rw [e]; exact hp.zero
  have hp : PSet 0 248 211 s.prev := by rw [e]; exact hp
  have k := runImbe_pset ops h hc hz hp
  exact ⟨k.lo, k.hi, fun i j a b c d => k.diff i j b d, k.band⟩

/-- After an AMBE frame (either codec, any payload, any error counts), whatever calls of any codec came before it: the
log amplitudes of the stored frame differ by at most 246, none exceeds 264, and the gain is at most 13.8, in absolute
value. -/
theorem C45_ambe (E : Env ℝ) (s s' : St ℝ) (h0 : Fresh s) (ops : List (Op ℝ)) (op : AmbeOp ℝ)
    (h : runHist E (ops ++ [.ambe op]) s = .ok s') :
    9 ≤ s'.prev.L ∧ s'.prev.L ≤ 56 ∧ SpreadLe 246 s'.prev ∧ |s'.prev.gamma| ≤ 13.8 ∧
      ∀ l : Fin 57, 1 ≤ l.val → (l.val : Int) ≤ s'.prev.L → |s'.prev.log2Ml l| ≤ 264 := by
  rw [runHist_append] at h
  obtain ⟨s1, h1, h2⟩ := bind_ok h
  have hs := runHist_hinv ops h1 (fresh_hinv h0)
  obtain ⟨s2, h2, h3⟩ := bind_ok h2
  obtain ⟨o, h4, h5⟩ := bind_ok h2
  rw [← ok_inj h3, ← ok_inj h5]
  obtain ⟨_, k, _⟩ := ambeOp_r h4 hs.cache (hs.codec.imp_right fun h => ⟨h, hs.zero⟩)
  exact ⟨k.lo, k.hi, k.spread, k.gamma, k.band⟩

/-- Any mixture of IMBE and AMBE calls, initialisations and seedings: the spread is at most 1004 and no log amplitude
exceeds 740 in absolute value. The weaker bound is due to element 0, which IMBE inherits from AMBE. -/
theorem C45_any (E : Env ℝ) (s s' : St ℝ) (h0 : Fresh s) (ops : List (Op ℝ)) (h : runHist E ops s = .ok s') :
    9 ≤ s'.prev.L ∧ s'.prev.L ≤ 56 ∧ SpreadLe 1004 s'.prev ∧
      ∀ l : Fin 57, 1 ≤ l.val → (l.val : Int) ≤ s'.prev.L → |s'.prev.log2Ml l| ≤ 740 := by
  have k := (runHist_hinv ops h (fresh_hinv h0)).pset
  exact ⟨k.lo, k.hi, fun i j a b c d => k.diff i j b d, k.band⟩

/-- The bounds are not conditional on the run returning: every history of up to 357000 calls with bits as payload and
error counts in range returns (with the over-read of C16-C18 given a value), so the log spectrum stays in the bounds. -/
theorem C45_runs (E : Env ℝ) (hlax : E.lax = true) (s : St ℝ) (h0 : Fresh s) (ops : List (Op ℝ))
    (hd : ∀ op ∈ ops, op.Payload ∧ op.Counts 7000000) (hlen : ops.length ≤ 357000) :
    ∃ s', runHist E ops s = .ok s' ∧ 9 ≤ s'.prev.L ∧ s'.prev.L ≤ 56 ∧ SpreadLe 1004 s'.prev ∧
      ∀ l : Fin 57, 1 ≤ l.val → (l.val : Int) ≤ s'.prev.L → |s'.prev.log2Ml l| ≤ 740 := by
  obtain ⟨h1, h2⟩ := fresh_ok h0
  have := hist_u (F := ℝ) trivial (U := fun _ => False) (E := E) (.inl hlax) hd h1 (le_refl 20480) h2 (by omega)
  obtain ⟨s', hs, _⟩ := this.toOk
  exact ⟨s', hs, C45_any E s s' h0 ops hs⟩

/-- Hypotheses of `C45_runs` are met: an all-zero IMBE payload, an AMBE 2450 and an AMBE 2400 payload, on a decoder that
the IMBE initialiser has just set up. -/
example (E : Env ℝ) (hlax : E.lax = true) (buf : Arr 160 ℝ) : ∃ s s',
    initMbeState ⟨ambeInit, ambeInit, ambeInit, Tls.start⟩ = .ok s ∧
    runHist E [.imbe ⟨⟨3, 1, 2, buf, 3⟩, none, 0, fun _ => 0⟩, .ambe (.v2450 ⟨3, 1, 2, buf, 3⟩ none 0 fun _ => 0),
      .ambe (.v2400 ⟨3, 1, 2, buf, 3⟩ 0 0 fun _ => 0)] s = .ok s' ∧ SpreadLe 246 s'.prev := by
  have e := Base.init (⟨ambeInit, ambeInit, ambeInit, Tls.start⟩ : St ℝ)
  generalize (⟨imbeInit 39, imbeInit 39, imbeInit 39, _⟩ : St ℝ) = s at e
  have h0 : Fresh s := ⟨_, rfl, .inl e⟩
  obtain ⟨s', hs, _⟩ := C45_runs E hlax _ h0 [.imbe ⟨⟨3, 1, 2, buf, 3⟩, none, 0, fun _ => 0⟩,
    .ambe (.v2450 ⟨3, 1, 2, buf, 3⟩ none 0 fun _ => 0), .ambe (.v2400 ⟨3, 1, 2, buf, 3⟩ 0 0 fun _ => 0)] (by
      intro op hop
      simp only [List.mem_cons, List.not_mem_nil, or_false] at hop
      rcases hop with rfl | rfl | rfl
      all_goals exact ⟨fun _ _ => .inl rfl, le_refl _, show (0 : Int) ≤ 7000000 by decide, le_refl 3⟩)
      (show 3 ≤ 357000 by decide)
  exact ⟨s, s', e, hs, (C45_ambe E _ s' h0 [_, _] _ hs).2.2.1⟩

end Verif.Props
