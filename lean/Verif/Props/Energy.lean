import Verif.Lemmas.Energy
import Verif.Props.Smooth

/-!
# C60: local energy, voicing limit and the hand-off of the energy
-/

namespace Verif.Props
open Verif Verif.Spec Verif.Model Verif.Num Verif.Gen Arith

section
variable {F : Type} [Arith F]

/-! ## The hand-off -/

/-- Over every history of calls of any codec on a fresh decoder no hand-off is left over, so smoothing never sees the
energy of another frame. -/
theorem C60_no_stale_handoff (E : Env F) (ops : List (Op F)) (s s' : St F) (hs : Fresh s) (h : runHist E ops s = .ok s') :
    s'.tls.preEnhValid = false := by
  refine hist_idle E ops s ?_ s' h
  obtain ⟨s0, h0, h1 | h1⟩ := hs
  · unfold initMbeState at h1
    obtain ⟨p, _, h1⟩ := bind_ok h1
    rw [← ok_inj h1]
    show s0.tls.preEnhValid = false
    rw [h0]
    rfl
  · rw [initAmbeState_eq] at h1
    rw [← ok_inj h1]
    show s0.tls.preEnhValid = false
    rw [h0]
    rfl

/-- Enhancement and synthesis of a frame: the local energy is updated with the energy the amplitudes had **before**
enhancement, whatever hand-off was pending. -/
theorem C60_energy (E : Env F) (C : Call F) (s : St F) (o : Arr 160 F × St F) (h : speak E C s = .ok o) (hL : s.cur.L ≤ 56)
    (hC : C.pc ≠ 0) (h0 : le (lit 0 1) (sqSum s.cur.Ml s.cur.L) = true) :
    o.2.enh.localEnergy = energyNext s.enh.localEnergy (sqSum s.cur.Ml s.cur.L) := by
  unfold speak at h
  obtain ⟨⟨c, t⟩, h1, h⟩ := bind_ok h
  obtain ⟨r, h2, h⟩ := bind_ok h
  rw [← ok_inj h]
  have ht := spectralAmpEnhance_rm0 _ _ _ hL _ h1
  dsimp only at ht
  unfold setPreEnhRm0 at ht
  rw [if_pos ⟨hC, h0⟩] at ht
  obtain ⟨q, h3, h4, _⟩ := synthesizeSpeechf_smoothed _ _ _ _ _ _ _ _ h2
  dsimp only
  rw [h4, (applySmoothing_handoff _ _ _ _ _ h3).2 (by rw [ht]; exact ⟨rfl, rfl⟩), ht]

/-- The same for an IMBE call, in terms of the state before and after it: `prev` holds the parameters without
enhancement, `enh` those with it. -/
theorem C60_energy_imbe (E : Env F) (op : ImbeOp F) (s : St F) (o : Out F) (h : op.run E s = .ok o) (hL : o.st.prev.L ≤ 56)
    (hC : op.call.pc ≠ 0) (h0 : le (lit 0 1) (sqSum o.st.prev.Ml o.st.prev.L) = true) :
    o.st.enh.localEnergy = energyNext s.enh.localEnergy (sqSum o.st.prev.Ml o.st.prev.L) := by
  obtain ⟨s', _, hs, _, e⟩ := ImbeOp.run_eq E op s
  rw [e] at h
  obtain ⟨r, cur, sp, P⟩ := processImbe4400_parts h
  have hp := (speak_frame _ _ _ _ P.spoken).prev_eq
  rw [P.st] at hL h0 ⊢
  rw [hp] at hL h0 ⊢
  rw [← hs]
  exact C60_energy _ _ _ _ P.spoken hL hC h0

/-- The replay of an AMBE decoder after an invalid tone takes the energy of the enhanced amplitudes. -/
theorem C60_replay (E : Env F) (C : Call F) (s : St F) (o : Arr 160 F × St F) (hs : s.tls.preEnhValid = false)
    (h : replayEnhanced E C s = .ok o) (hL : s.enh.L ≤ 56) :
    o.2.enh.localEnergy = energyNext s.enh.localEnergy (sqSum s.enh.Ml s.enh.L) ∧ o.2.cur = s.cur ∧ o.2.prev = s.prev := by
  unfold replayEnhanced at h
  obtain ⟨r, h1, h⟩ := bind_ok h
  rw [← ok_inj h]
  refine ⟨?_, rfl, rfl⟩
  obtain ⟨q, h3, h4, _⟩ := synthesizeSpeechf_smoothed _ _ _ _ _ _ _ _ h1
  dsimp only
  rw [h4]
  rw [applySmoothing_eq _ _ _ _ hL] at h3
  obtain ⟨tm, _, h3⟩ := bind_ok h3
  rw [← ok_inj h3, if_neg (by rw [hs]; exact fun h => Bool.false_ne_true h.1)]
  rfl

end

/-! ## Exact arithmetic -/

theorem energyNext_real (p r : ℝ) :
    energyNext p r = max 10000 (0.95 * (if p < 10000 then 75000 else p) + 0.05 * r) := by
  have l1 : (lit 10000 1 : ℝ) = 10000 := by rw [RealArith.lit_r _ _ (by decide)]; norm_num
  have l2 : (lit 75000 1 : ℝ) = 75000 := by rw [RealArith.lit_r _ _ (by decide)]; norm_num
  have l3 : (lit 95 100 : ℝ) = 0.95 := by rw [RealArith.lit_r _ _ (by decide)]; norm_num
  have l4 : (lit 5 100 : ℝ) = 0.05 := by rw [RealArith.lit_r _ _ (by decide)]; norm_num
  unfold energyNext
  simp only [RealArith.lt_r, l1, l2, l3, l4]
  show (if 0.95 * (if p < 10000 then 75000 else p) + 0.05 * r < 10000 then (10000 : ℝ) else
    0.95 * (if p < 10000 then 75000 else p) + 0.05 * r) = _
  generalize (0.95 * (if p < 10000 then 75000 else p) + 0.05 * r : ℝ) = x
  split
  · rename_i h
    rw [max_eq_left h.le]
  · rename_i h
    rw [max_eq_right (not_lt.1 h)]

theorem sqSum_real (Ml : Arr 57 ℝ) (L : Int) : sqSum Ml L = energy (amps Ml) L.toNat := by
  unfold sqSum energy amps
  rw [← zero_add (∑ l ∈ _, _), ← foldl_range_sum _ (fun l => Ml.getD l 0 ^ 2), ← lit0_r]
  refine List.foldl_ext _ _ _ fun s i _ => ?_
  show s + _ * _ = s + _ ^ 2
  rw [sq]

/-- In exact arithmetic: `max(10000, 0.95 E + 0.05 Σ M²)` with the amplitudes before enhancement, where 75000 stands in
for energies below 10000. -/
theorem C60_energy_real (E : Env ℝ) (C : Call ℝ) (s : St ℝ) (o : Arr 160 ℝ × St ℝ) (h : speak E C s = .ok o) (hL : s.cur.L ≤ 56)
    (hC : C.pc ≠ 0) :
    o.2.enh.localEnergy = max 10000 (0.95 * (if s.enh.localEnergy < 10000 then 75000 else s.enh.localEnergy) +
      0.05 * ∑ l ∈ Finset.Icc 1 s.cur.L.toNat, amps s.cur.Ml l ^ 2) := by
  have h0 : le (lit 0 1) (sqSum s.cur.Ml s.cur.L) = true := by
    rw [RealArith.le_r, lit0_r, sqSum_real]
    exact Finset.sum_nonneg fun _ _ => sq_nonneg _
  rw [C60_energy E C s o h hL hC h0, energyNext_real, sqSum_real]
  rfl

theorem cube_eighth {e : ℝ} (h : 0 ≤ e) :
    Real.sqrt (Real.sqrt (Real.sqrt e)) * Real.sqrt (Real.sqrt (Real.sqrt e)) * Real.sqrt (Real.sqrt (Real.sqrt e)) = e ^ (3 / 8 : ℝ) := by
  rw [sqrt_sqrt_r _ (Real.sqrt_nonneg _), Real.sqrt_eq_rpow, ← Real.rpow_mul h, ← Real.rpow_add' h (by norm_num),
    ← Real.rpow_add' h (by norm_num)]
  norm_num

theorem smoothVM_real (rate e : ℝ) (he : 0 ≤ e) (errs c4 : Int) : smoothVM rate e errs c4 = voicingLimit rate e errs c4 := by
  have l1 : (lit 5 1000 : ℝ) = 5 / 1000 := by rw [RealArith.lit_r _ _ (by decide)]; norm_num
  have l2 : (lit 125 10000 : ℝ) = 125 / 10000 := by rw [RealArith.lit_r _ _ (by decide)]; norm_num
  have l3 : (lit 45255 1000 : ℝ) = 45.255 := by rw [RealArith.lit_r _ _ (by decide)]; norm_num
  have l4 : (lit 27726 100 : ℝ) = 277.26 := by rw [RealArith.lit_r _ _ (by decide)]; norm_num
  have l5 : (lit 1414 1000 : ℝ) = 1.414 := by rw [RealArith.lit_r _ _ (by decide)]; norm_num
  have l6 : (fltMax : ℝ) = 340282346638528859811704183484516925440 := by
    unfold fltMax; rw [RealArith.lit_r _ _ (by decide)]; norm_num
  unfold smoothVM voicingLimit
  simp only [RealArith.le_r, l1, l2, l3, l4, l5, l6]
  rw [← cube_eighth he]
  rfl

/-- In exact arithmetic: smoothing makes a band voiced exactly if its amplitude exceeds the limit, which is infinite (the
largest float) in frames with few errors, `45.255 E^(3/8) / e^(277.26 rate)` for moderate error rates, and
`1.414 E^(3/8)` otherwise; `E` is the new local energy. -/
theorem C60_voicing_real (a : Nat) (cur prev : Parms ℝ) (t : Tls ℝ) (hL : cur.L ≤ 56) (r : Parms ℝ × Tls ℝ)
    (h : applySmoothing a cur prev t = .ok r) (l : Fin 57) :
    r.1.Vl l = if 1 ≤ l.val ∧ (l.val : Int) ≤ cur.L ∧
      voicingLimit cur.errorRate r.1.localEnergy cur.errorCountTotal cur.errorCount4 < cur.Ml l then 1 else cur.Vl l := by
  have he := C41_energy_real a cur prev t hL r h
  rw [applySmoothing_eq a cur prev t hL] at h
  obtain ⟨tm, _, h⟩ := bind_ok h
  have e1 := ok_inj h
  rw [← smoothVM_real _ _ (by linarith)]
  rw [← e1]
  unfold smoothed
  dsimp only
  by_cases e : 1 ≤ l.val ∧ (l.val : Int) ≤ cur.L
  · rw [if_pos e]
    refine if_congr ?_ rfl rfl
    rw [RealArith.lt_r]
    exact ⟨fun h => ⟨e.1, e.2, h⟩, fun h => h.2.2⟩
  · rw [if_neg e, if_neg fun h => e ⟨h.1, h.2.1⟩]

variable {m : Libm}

/-- The hypotheses of `C60_energy_imbe` are met by the first frame of a fresh decoder, and the new energy is that of the
transmitted amplitudes. -/
example (hm : Exp2Acc m) : ∃ (o : Out (IEEE m)), (badImbe (m := m)).run sampleEnv freshImbe = .ok o ∧ o.st.prev.L ≤ 56 ∧
    (badImbe (m := m)).call.pc ≠ 0 ∧ le (lit 0 1) (sqSum o.st.prev.Ml o.st.prev.L) = true ∧
    o.st.enh.localEnergy = energyNext (lit 75000 1) (sqSum o.st.prev.Ml 39) := by
  obtain ⟨s, hs⟩ := imbe_runs hm [badImbe] (by simp) (by simp)
  obtain ⟨o, ho, hs⟩ := bind_ok hs
  have st := imbeOp_step (ones_bits 88) ho
  have hr := (st.last (badImbe_repeat _ 0) (show (0 : Int) ≤ 3 by decide)).1
  have hk := (st.last (badImbe_repeat _ 0) (show (0 : Int) ≤ 3 by decide)).2
  have hL : o.st.prev.L = 39 := by rw [hr]; rfl
  have h0 : le (lit 0 1) (sqSum o.st.prev.Ml o.st.prev.L) = true := by
    have := sqSum_nn (m := m) (Ml := o.st.prev.Ml) (L := o.st.prev.L) (by rw [hL]; decide) fun l h1 h2 => by
      rw [hL] at h2
      rw [(hk l h1 h2).1]
      intro h
      have h3 : ∀ l : Fin 57, IEEE.get ((imbeInit 39 : Parms (IEEE libm0)).Ml l) ≠ FP.nan := by decide +kernel
      exact h3 l h
    generalize sqSum o.st.prev.Ml o.st.prev.L = x at this
    rcases this with e | ⟨q, ⟨t, e⟩, hq⟩
    · rw [show x = FP.inf false from e]; rfl
    · rw [show x = FP.fin t q from e]; exact decide_eq_true hq
  refine ⟨o, ho, by rw [hL]; decide, show (1 : Nat) ≠ 0 by decide, h0, ?_⟩
  have := C60_energy_imbe sampleEnv badImbe freshImbe o ho (by rw [hL]; decide) (show (1 : Nat) ≠ 0 by decide) h0
  rw [hL] at this
  exact this

/-- A real frame whose loudest band is declared voiced: rate 0.1, local energy 65536. -/
example : voicingLimit 0.1 65536 20 0 < 100 := by
  unfold voicingLimit
  rw [if_neg (by norm_num), if_neg (by norm_num)]
  have : (65536 : ℝ) ^ (3 / 8 : ℝ) = 64 := by
    rw [show (65536 : ℝ) = 2 ^ (16 : ℝ) by norm_num, ← Real.rpow_mul (by norm_num)]
    norm_num
  rw [this]
  norm_num

end Verif.Props
