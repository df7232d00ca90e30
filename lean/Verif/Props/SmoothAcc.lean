import Verif.Lemmas.SmoothVm
import Verif.Props.Energy
import Verif.Props.EnhanceAcc

/-!
# C78: adaptive smoothing in binary32
-/

namespace Verif.Props
open Verif Verif.Spec Verif.Model Verif.Num Verif.Gen Arith
variable {m : Libm}

theorem smoothing_parts {addr : Nat} {cur prev : Parms (IEEE m)} {t : Tls (IEEE m)} (hL : cur.L ≤ 56) {r : Parms (IEEE m) × Tls (IEEE m)}
    (h : applySmoothing addr cur prev t = .ok r) :
    r.1 = smoothed cur prev (frameEnergy addr cur t) r.1.amplitudeThreshold ∧ r.1.amplitudeThreshold ≤ 2147483647 := by
  rw [applySmoothing_eq _ _ _ _ hL] at h
  obtain ⟨tm, h1, h⟩ := bind_ok h
  have h2 := (smoothTm_eq h1).2
  rw [← ok_inj h]
  exact ⟨rfl, show tm ≤ 2147483647 by omega⟩

/-- **The limitation of the amplitudes.** Every amplitude `a` of a frame with amplitudes of sum `S` and a positive limit `T` becomes
`a T / max(T, S)`, to a fifty-thousandth. -/
theorem C78_scale (addr : Nat) (cur prev : Parms (IEEE m)) (t : Tls (IEEE m)) (h : AmpsTo (2 ^ 40) cur) (r : Parms (IEEE m) × Tls (IEEE m))
    (hr : applySmoothing addr cur prev t = .ok r) (hT : 1 ≤ r.1.amplitudeThreshold) (l : Fin 57) (l1 : 1 ≤ l.val) (l2 : (l.val : Int) ≤ cur.L) :
    ∃ v : ℚ, Val (r.1.Ml l) v ∧ 0 ≤ v ∧
      |(v : ℝ) - (valuesOf cur).Ml l * (r.1.amplitudeThreshold / max (r.1.amplitudeThreshold : ℝ) (ampTotal (amps (valuesOf cur).Ml) cur.L.toNat))| ≤
        (valuesOf cur).Ml l * (r.1.amplitudeThreshold / max (r.1.amplitudeThreshold : ℝ) (ampTotal (amps (valuesOf cur).Ml) cur.L.toNat)) / 50000 +
          1 / 2 ^ 140 := by
  obtain ⟨e, T1⟩ := smoothing_parts h.1 hr
  obtain ⟨q, hq, hs⟩ := ampSum_near h
  obtain ⟨a, ha, hA⟩ := ampsTo_values h
  have hLn := h.1
  have Sb : ampTotal (amps (valuesOf cur).Ml) cur.L.toNat ≤ 2 ^ 60 := by
    unfold ampTotal
    refine (Finset.sum_le_card_nsmul _ _ ((2 : ℝ) ^ 40) fun k hk => ?_).trans ?_
    · rw [Finset.mem_Icc] at hk
      rw [hA k hk.1 hk.2]
      have := (ha ⟨k, by omega⟩ hk.1 (by show (k : Int) ≤ _; omega)).2.2
      have : (a k : ℝ) ≤ ((2 ^ 40 : ℚ) : ℝ) := by exact_mod_cast this
      push_cast at this
      exact this
    · rw [Nat.card_Icc, nsmul_eq_mul]
      have : ((cur.L.toNat + 1 - 1 : Nat) : ℝ) ≤ 56 := by
        have : cur.L.toNat + 1 - 1 ≤ 56 := by omega
        exact_mod_cast this
      nlinarith
  obtain ⟨v, v0, v1⟩ := ha l l1 l2
  have hl : (valuesOf cur).Ml l = (a l.val : ℝ) := Val.number v
  have aS : (a l.val : ℝ) ≤ ampTotal (amps (valuesOf cur).Ml) cur.L.toNat := by
    unfold ampTotal
    rw [← hA l.val l1 (by omega)]
    refine Finset.single_le_sum (f := fun k => amps (valuesOf cur).Ml k) (fun k hk => ?_) (Finset.mem_Icc.2 ⟨l1, by omega⟩)
    rw [Finset.mem_Icc] at hk
    rw [hA k hk.1 hk.2]
    exact_mod_cast (ha ⟨k, by omega⟩ hk.1 (by show (k : Int) ≤ _; omega)).2.1
  obtain ⟨z, hz, z0, z1⟩ := limited_near v v0 v1 aS Sb hq hs hT T1
  rw [hl]
  refine ⟨z, ?_, z0, z1⟩
  rw [e]
  unfold smoothed
  dsimp only
  by_cases c : lt (ofInt r.1.amplitudeThreshold) (ampSum cur.Ml cur.L) = true ∧ lt (lit 0 1) (ampSum cur.Ml cur.L) = true
  · rw [if_pos ⟨⟨l1, l2⟩, c⟩]
    rw [if_pos c] at hz
    exact hz
  · rw [if_neg fun k => c k.2]
    rw [if_neg c] at hz
    exact hz

/-- After it the sum of the amplitudes exceeds the limit by no more than a fifty-thousandth. -/
theorem C78_limit (addr : Nat) (cur prev : Parms (IEEE m)) (t : Tls (IEEE m)) (h : AmpsTo (2 ^ 40) cur) (r : Parms (IEEE m) × Tls (IEEE m))
    (hr : applySmoothing addr cur prev t = .ok r) (hT : 1 ≤ r.1.amplitudeThreshold) :
    ampTotal (amps (valuesOf r.1).Ml) cur.L.toNat ≤ r.1.amplitudeThreshold * (1 + 1 / 40000) := by
  obtain ⟨a, ha, hA⟩ := ampsTo_values h
  have hLn := h.1
  have T0 : (1 : ℝ) ≤ r.1.amplitudeThreshold := by exact_mod_cast hT
  have S0 : 0 ≤ ampTotal (amps (valuesOf cur).Ml) cur.L.toNat := Finset.sum_nonneg fun k hk => by
    rw [Finset.mem_Icc] at hk
    rw [hA k hk.1 hk.2]
    exact_mod_cast (ha ⟨k, by omega⟩ hk.1 (by show (k : Int) ≤ _; omega)).2.1
  have key : ampTotal (amps (valuesOf r.1).Ml) cur.L.toNat ≤ ∑ k ∈ Finset.Icc 1 cur.L.toNat,
      (amps (valuesOf cur).Ml k * (r.1.amplitudeThreshold / max (r.1.amplitudeThreshold : ℝ) (ampTotal (amps (valuesOf cur).Ml) cur.L.toNat) * (1 + 1 / 50000)) +
        1 / 2 ^ 140) := by
    unfold ampTotal
    refine Finset.sum_le_sum fun k hk => ?_
    rw [Finset.mem_Icc] at hk
    obtain ⟨v, hv, _, hz⟩ := C78_scale addr cur prev t h r hr hT ⟨k, by omega⟩ hk.1 (by show (k : Int) ≤ _; omega)
    rw [show amps (valuesOf r.1).Ml k = _ from amps_fin _ ⟨k, by omega⟩, show amps (valuesOf cur).Ml k = _ from amps_fin _ ⟨k, by omega⟩,
      show (valuesOf r.1).Ml ⟨k, by omega⟩ = _ from Val.number hv]
    have := (abs_le.1 hz).2
    unfold ampTotal at this
    generalize (r.1.amplitudeThreshold / max (r.1.amplitudeThreshold : ℝ) _ : ℝ) = y at *
    generalize (valuesOf cur).Ml ⟨k, by omega⟩ = x at *
    nlinarith
  refine key.trans ?_
  rw [Finset.sum_add_distrib, ← Finset.sum_mul, Finset.sum_const, Nat.card_Icc, nsmul_eq_mul]
  change ampTotal (amps (valuesOf cur).Ml) cur.L.toNat * _ + _ ≤ _
  generalize ampTotal (amps (valuesOf cur).Ml) cur.L.toNat = S at *
  have n1 : ((cur.L.toNat + 1 - 1 : Nat) : ℝ) ≤ 56 := by
    have : cur.L.toNat + 1 - 1 ≤ 56 := by omega
    exact_mod_cast this
  have e1 : S * (r.1.amplitudeThreshold / max (r.1.amplitudeThreshold : ℝ) S) ≤ r.1.amplitudeThreshold := by
    rw [mul_div_assoc', div_le_iff₀ (lt_of_lt_of_le (by linarith) (le_max_left _ _)), mul_comm]
    exact mul_le_mul_of_nonneg_left (le_max_right _ _) (by linarith)
  generalize (r.1.amplitudeThreshold / max (r.1.amplitudeThreshold : ℝ) S : ℝ) = y at *
  nlinarith

/-- **The local energy** of one frame. -/
theorem C78_energy (addr : Nat) (cur prev : Parms (IEEE m)) (t : Tls (IEEE m)) (hL : cur.L ≤ 56) (p q : ℚ) (hp : Val prev.localEnergy p)
    (p1 : p ≤ 2 ^ 100) (hq : Val (frameEnergy addr cur t : IEEE m) q) (q0 : 0 ≤ q) (q1 : q ≤ 2 ^ 100) (r : Parms (IEEE m) × Tls (IEEE m))
    (hr : applySmoothing addr cur prev t = .ok r) :
    ∃ v : ℚ, Val r.1.localEnergy v ∧ 10000 ≤ v ∧
      |(v : ℝ) - max 10000 (0.95 * (if (p : ℝ) < 10000 then 75000 else (p : ℝ)) + 0.05 * q)| ≤
        3 / 10 ^ 7 * max 10000 (0.95 * (if (p : ℝ) < 10000 then 75000 else (p : ℝ)) + 0.05 * q) := by
  obtain ⟨v, hv, h⟩ := energyNext_near hp p1 hq q0 q1
  rw [energyNext_real] at h
  refine ⟨v, ?_, h⟩
  rw [(smoothing_parts hL hr).1]
  exact hv

/-- **The voicing limit.** A band whose amplitude exceeds the limit by more than a hundred-thousandth is declared voiced, one
below it by more than that keeps its decision; the limit is taken for an error rate within a billionth of the recorded one,
since the bounds 0.005 and 0.0125 are not binary32 numbers. -/
theorem C78_voicing (hexp : ExpAcc m) (addr : Nat) (cur prev : Parms (IEEE m)) (t : Tls (IEEE m)) (h : AmpsTo (2 ^ 40) cur)
    (p q x : ℚ) (hp : Val prev.localEnergy p) (p1 : p ≤ 2 ^ 100) (hq : Val (frameEnergy addr cur t : IEEE m) q) (q0 : 0 ≤ q) (q1 : q ≤ 2 ^ 100)
    (hx : Val cur.errorRate x) (x0 : 0 ≤ x) (r : Parms (IEEE m) × Tls (IEEE m)) (hr : applySmoothing addr cur prev t = .ok r) :
    ∃ ρ : ℚ, |ρ - x| ≤ 1 / 10 ^ 9 ∧ 0 < voicingLimit ρ (valuesOf r.1).localEnergy cur.errorCountTotal cur.errorCount4 ∧
      ∀ l : Fin 57, 1 ≤ l.val → (l.val : Int) ≤ cur.L →
        (voicingLimit ρ (valuesOf r.1).localEnergy cur.errorCountTotal cur.errorCount4 * (1 + 1 / 100000) < (valuesOf cur).Ml l → r.1.Vl l = 1) ∧
        ((valuesOf cur).Ml l < voicingLimit ρ (valuesOf r.1).localEnergy cur.errorCountTotal cur.errorCount4 * (1 - 1 / 100000) →
          r.1.Vl l = cur.Vl l) := by
  obtain ⟨v, hv, v1, v2⟩ := C78_energy addr cur prev t h.1 p q hp p1 hq q0 q1 r hr
  have e := (smoothing_parts h.1 hr).1
  have p1' : (p : ℝ) ≤ 2 ^ 100 := by
    have : (p : ℝ) ≤ ((2 ^ 100 : ℚ) : ℝ) := by exact_mod_cast p1
    push_cast at this
    exact this
  have q1' : (q : ℝ) ≤ 2 ^ 100 := by
    have : (q : ℝ) ≤ ((2 ^ 100 : ℚ) : ℝ) := by exact_mod_cast q1
    push_cast at this
    exact this
  have vu : v ≤ 2 ^ 101 := by
    have k : max 10000 (0.95 * (if (p : ℝ) < 10000 then 75000 else (p : ℝ)) + 0.05 * q) ≤ 2 ^ 100 := by
      refine max_le (by norm_num) ?_
      have : (if (p : ℝ) < 10000 then 75000 else (p : ℝ)) ≤ 2 ^ 100 := by
        split
        · norm_num
        · exact p1'
      generalize (if (p : ℝ) < 10000 then 75000 else (p : ℝ)) = c at *
      norm_num at this q1' ⊢
      linarith
    generalize max (10000 : ℝ) _ = z at *
    have := (abs_le.1 v2).2
    have : (v : ℝ) ≤ ((2 ^ 101 : ℚ) : ℝ) := by
      norm_num at this k ⊢
      linarith
    exact_mod_cast this
  obtain ⟨ρ, ρ1, ⟨w, hw, w1⟩, w0⟩ := smoothVM_near hexp hx x0 hv v1 vu cur.errorCountTotal cur.errorCount4
  have hv' : (valuesOf r.1).localEnergy = (v : ℝ) := Val.number hv
  rw [hv']
  refine ⟨ρ, ρ1, w0, fun l l1 l2 => ?_⟩
  obtain ⟨a, ha, _⟩ := h.2 l l1 l2
  have hl : (valuesOf cur).Ml l = (a : ℝ) := Val.number ha
  rw [hl]
  have eV : r.1.Vl l = if lt (smoothVM cur.errorRate r.1.localEnergy cur.errorCountTotal cur.errorCount4) (cur.Ml l) = true then 1 else cur.Vl l := by
    rw [e]
    unfold smoothed
    dsimp only
    rw [if_pos ⟨l1, l2⟩]
  rw [eV, hw.lt ha]
  generalize voicingLimit ρ v cur.errorCountTotal cur.errorCount4 = V at *
  have w2 := abs_le.1 w1
  constructor
  · intro k
    have : (w : ℝ) < a := by linarith
    rw [if_pos (decide_eq_true (by exact_mod_cast this))]
  · intro k
    have : (a : ℝ) < w := by linarith
    rw [if_neg (fun c => absurd (of_decide_eq_true c) (not_lt.2 (by exact_mod_cast this.le)))]

/-- One step of the comparison with the exact recursion. -/
theorem energy_step {e r : IEEE m} {p q : ℚ} {P R B : ℝ} (B1 : 75000 ≤ B) (B2 : B ≤ 2 ^ 90) (he : Val e p) (hr : Val r q) (q0 : 0 ≤ q)
    (hP : P ≤ B) (hd : |(p : ℝ) - P| ≤ B / 50000) (hs : (p : ℝ) = P ∨ (10000 ≤ (p : ℝ) ∧ 10000 ≤ P)) (R0 : 0 ≤ R) (R1 : R ≤ B)
    (hR : |(q : ℝ) - R| ≤ R / 270000 + 1 / 2 ^ 130) :
    ∃ v : ℚ, Val (energyNext e r : IEEE m) v ∧ 10000 ≤ (v : ℝ) ∧
      |(v : ℝ) - max 10000 (0.95 * (if P < 10000 then 75000 else P) + 0.05 * R)| ≤ B / 50000 ∧
      max 10000 (0.95 * (if P < 10000 then 75000 else P) + 0.05 * R) ≤ B := by
  have d := abs_le.1 hd
  have f := abs_le.1 hR
  have p1 : p ≤ 2 ^ 100 := by
    have : (p : ℝ) ≤ ((2 ^ 100 : ℚ) : ℝ) := by
      norm_num at B2 ⊢
      linarith
    exact_mod_cast this
  have q1 : q ≤ 2 ^ 100 := by
    have : (q : ℝ) ≤ ((2 ^ 100 : ℚ) : ℝ) := by
      norm_num at B2 f ⊢
      linarith
    exact_mod_cast this
  obtain ⟨v, hv, v1, v2⟩ := energyNext_near he p1 hr q0 q1
  rw [energyNext_real] at v2
  obtain ⟨c, C, hc, hC, cb, Cb, dc⟩ : ∃ c C : ℝ, (if (p : ℝ) < 10000 then (75000 : ℝ) else (p : ℝ)) = c ∧ (if P < 10000 then (75000 : ℝ) else P) = C ∧
      c ≤ B + B / 50000 ∧ C ≤ B ∧ |c - C| ≤ B / 50000 := by
    rcases hs with hs | ⟨h1, h2⟩
    · rw [hs]
      refine ⟨_, _, rfl, rfl, ?_, ?_, by simp; linarith⟩ <;> split <;> linarith
    · rw [if_neg (not_lt.2 h1), if_neg (not_lt.2 h2)]
      exact ⟨_, _, rfl, rfl, by linarith, hP, hd⟩
  rw [hc] at v2
  rw [hC]
  have dc' := abs_le.1 dc
  have tiny : (1 : ℝ) / 2 ^ 130 ≤ 1 / 1000 := by norm_num
  refine ⟨v, hv, by exact_mod_cast v1, ?_, max_le (by linarith) (by norm_num; linarith)⟩
  have k1 : |(0.95 * c + 0.05 * q) - (0.95 * C + 0.05 * R)| ≤ 96 / 100 * (B / 50000) := by
    rw [abs_le]
    constructor <;> norm_num <;> linarith
  have k2 : |max 10000 (0.95 * c + 0.05 * q) - max 10000 (0.95 * C + 0.05 * R)| ≤ 96 / 100 * (B / 50000) :=
    by
    rw [max_comm 10000, max_comm 10000]
    exact (abs_max_sub_max_le_abs _ _ _).trans k1
  have k3 : max 10000 (0.95 * c + 0.05 * q) ≤ 2 * B := max_le (by linarith) (by norm_num; linarith)
  generalize max (10000 : ℝ) (0.95 * c + 0.05 * q) = y at *
  generalize max (10000 : ℝ) (0.95 * C + 0.05 * R) = z at *
  have k4 := abs_le.1 k2
  have k5 := abs_le.1 v2
  rw [abs_le]
  constructor <;> linarith

theorem sqSum_nonneg {p : Parms (IEEE m)} {A q : ℚ} (h : AmpsTo A p) (hq : Val (sqSum p.Ml p.L : IEEE m) q) : 0 ≤ q := by
  rcases sqSum_nn (Ml := p.Ml) h.1 fun l l1 l2 => by
    obtain ⟨a, ⟨s, e⟩, _⟩ := h.2 l l1 l2
    rw [e]
    exact fun k => FP.noConfusion k with e | ⟨z, hz, z0⟩
  · obtain ⟨s, k⟩ := hq
    exact FP.noConfusion (e.symm.trans k)
  · rw [hq.unique hz]
    exact z0

/-- **The local energy over a history.** In every history of IMBE calls whose frames have amplitudes up to `2^40` and energies up to
`B`, the local energy stays within `B / 50000` of the exact recursion over the energies of the decoded amplitudes: rounding
errors do not accumulate. -/
theorem C78_track (E : Env (IEEE m)) (ops : Nat → ImbeOp (IEEE m)) (st : Nat → St (IEEE m)) (n : Nat)
    (h : ∀ i < n, ∃ o, (ops i).run E (st i) = .ok o ∧ o.st = st (i + 1)) (hC : ∀ i < n, (ops i).call.pc ≠ 0)
    (B : ℝ) (B1 : 75000 ≤ B) (B2 : B ≤ 2 ^ 90) (p : ℚ) (hp : Val (st 0).enh.localEnergy p) (p1 : (p : ℝ) ≤ B)
    (hA : ∀ i < n, AmpsTo (2 ^ 40) (st (i + 1)).prev)
    (hE : ∀ i < n, energy (amps (valuesOf (st (i + 1)).prev).Ml) (st (i + 1)).prev.L.toNat ≤ B) :
    ∃ v : ℚ, Val (st n).enh.localEnergy v ∧
      |(v : ℝ) - energyTrack p (fun i => energy (amps (valuesOf (st (i + 1)).prev).Ml) (st (i + 1)).prev.L.toNat) n| ≤ B / 50000 := by
  have key : ∀ k ≤ n, ∃ v : ℚ, Val (st k).enh.localEnergy v ∧
      |(v : ℝ) - energyTrack p (fun i => energy (amps (valuesOf (st (i + 1)).prev).Ml) (st (i + 1)).prev.L.toNat) k| ≤ B / 50000 ∧
      energyTrack p (fun i => energy (amps (valuesOf (st (i + 1)).prev).Ml) (st (i + 1)).prev.L.toNat) k ≤ B ∧
      ((v : ℝ) = energyTrack p (fun i => energy (amps (valuesOf (st (i + 1)).prev).Ml) (st (i + 1)).prev.L.toNat) k ∨
        (10000 ≤ (v : ℝ) ∧ 10000 ≤ energyTrack p (fun i => energy (amps (valuesOf (st (i + 1)).prev).Ml) (st (i + 1)).prev.L.toNat) k)) := by
    intro k
    induction k with
    | zero => exact fun _ => ⟨p, hp, by simp [energyTrack]; linarith, p1, .inl rfl⟩
    | succ k ih =>
      intro hk
      obtain ⟨v, hv, d, b, s⟩ := ih (by omega)
      obtain ⟨o, ho, eo⟩ := h k (by omega)
      obtain ⟨a, ha, _⟩ := ampsTo_values (hA k (by omega))
      obtain ⟨q, hq, e⟩ := sqSum_near (hA k (by omega)).1 ha
      have R0 : 0 ≤ energy (amps (valuesOf (st (k + 1)).prev).Ml) (st (k + 1)).prev.L.toNat := Finset.sum_nonneg fun _ _ => sq_nonneg _
      have q0 : 0 ≤ q := sqSum_nonneg (hA k (by omega)) hq
      have zero : Val (lit 0 1 : IEEE m) 0 := ⟨false, rfl⟩
      have step := C60_energy_imbe E (ops k) (st k) o ho (by rw [eo]; exact (hA k (by omega)).1) (hC k (by omega))
        (by rw [eo, zero.le hq]; exact decide_eq_true q0)
      rw [eo] at step
      obtain ⟨w, hw, w1, w2, w3⟩ := energy_step B1 B2 hv hq q0 b d s R0 (hE k (by omega)) e
      rw [← step] at hw
      exact ⟨w, hw, w2, w3, .inr ⟨w1, le_max_left _ _⟩⟩
  obtain ⟨v, hv, d, _⟩ := key n le_rfl
  exact ⟨v, hv, d⟩

/-- An exact `expf` rounded to a close rational meets the assumption. -/
theorem C78_hypothesis_satisfiable : ∃ m : Libm, ExpAcc m := by
  classical
  have key : ∀ x : ℝ, ∃ r : ℚ, |(r : ℝ) - Real.exp x| ≤ Real.exp x / 1048576 := by
    intro x
    obtain ⟨r, h1, h2⟩ := exists_rat_btwn (show Real.exp x < Real.exp x + Real.exp x / 1048576 by
      have := Real.exp_pos x
      linarith)
    exact ⟨r, by rw [abs_le]; constructor <;> linarith [Real.exp_pos x]⟩
  let ex : FP → FP := fun x => match x with
    | .fin _ y => .fin false (key y).choose
    | x => x
  refine ⟨⟨id, id, ex, ex, ex⟩, ?_⟩
  rintro x y ⟨s, rfl⟩ _ _
  exact ⟨_, ⟨false, rfl⟩, (key y).choose_spec⟩

/-! ## Concrete cases -/

theorem flat_ampsTo {v : IEEE m} {q A : ℚ} (h : Val v q) (h1 : 0 ≤ q) (h2 : q ≤ A) : AmpsTo A (flat v) :=
  ⟨show (12 : Int) ≤ 56 by decide, fun _ _ _ => ⟨q, h, h1, h2⟩⟩

/-- Twelve amplitudes of 4000 in a frame without errors: their sum is 48000, the limit 20480, so each becomes about 1706.67. -/
example (t : Tls (IEEE m)) : ∃ (r : Parms (IEEE m) × Tls (IEEE m)) (v : ℚ), applySmoothing 1 (flat (lit 4000 1)) (imbeInit 12) t = .ok r ∧
    r.1.amplitudeThreshold = 20480 ∧ Val (r.1.Ml 1) v ∧ |(v : ℝ) - 5120 / 3| ≤ 1 / 25 := by
  have hv : Val (lit 4000 1 : IEEE m) 4000 := val_of_rng (show rngB (lit 4000 1 : IEEE libm0) 4000 4000 = true by decide +kernel)
  have ho := flat_ampsTo (A := 2 ^ 40) hv (by norm_num) (by norm_num)
  have e := applySmoothing_eq 1 (flat (lit 4000 1 : IEEE m)) (imbeInit 12) t ho.1
  have tm : smoothTm (flat (lit 4000 1 : IEEE m)).errorRate (flat (lit 4000 1 : IEEE m)).errorCountTotal (imbeInit 12 : Parms (IEEE m)).amplitudeThreshold =
      .ok 20480 := by
    unfold smoothTm
    rw [if_pos ⟨show le (lit 0 1 : IEEE libm0) (lit 5 1000) = true by decide +kernel, show (0 : Int) ≤ 6 by decide⟩]
  rw [tm, ok_bind] at e
  obtain ⟨v, h1, _, h2⟩ := C78_scale 1 _ _ t ho _ e (show (1 : Int) ≤ 20480 by decide) 1 (by decide) (by show (1 : Int) ≤ 12; decide)
  refine ⟨_, v, e, rfl, h1, ?_⟩
  have hM : ∀ l, (valuesOf (flat (lit 4000 1 : IEEE m))).Ml l = 4000 := fun l => by
    show number (lit 4000 1 : IEEE m) = 4000
    rw [Val.number hv]
    norm_num
  have S : ampTotal (amps (valuesOf (flat (lit 4000 1 : IEEE m))).Ml) (flat (lit 4000 1 : IEEE m)).L.toNat = 48000 := by
    show ∑ l ∈ Finset.Icc 1 12, _ = _
    rw [Finset.sum_congr rfl (g := fun _ => 4000) fun l hl => by
      rw [Finset.mem_Icc] at hl
      rw [show amps (valuesOf (flat (lit 4000 1 : IEEE m))).Ml l = _ from amps_fin _ ⟨l, by omega⟩, hM]]
    norm_num
  rw [S, hM] at h2
  unfold smoothed at h2
  dsimp only at h2
  rw [max_eq_right (by norm_num)] at h2
  rw [abs_le] at h2 ⊢
  norm_num at h2 ⊢
  constructor <;> linarith

/-- The first call on a fresh decoder, as a history of length one. -/
example (hm : Exp2Acc m) : ∃ (o : Out (IEEE m)) (v : ℚ), (badImbe (m := m)).run sampleEnv freshImbe = .ok o ∧ Val o.st.enh.localEnergy v ∧
    |(v : ℝ) - 71251.95| ≤ 3 / 2 := by
  obtain ⟨s, hs⟩ := imbe_runs hm [badImbe] (by simp) (by simp)
  obtain ⟨o, ho, hs⟩ := bind_ok hs
  have st := imbeOp_step (ones_bits 88) ho
  have hr := (st.last (badImbe_repeat _ 0) (show (0 : Int) ≤ 3 by decide)).1
  have hk := (st.last (badImbe_repeat _ 0) (show (0 : Int) ≤ 3 by decide)).2
  have hL : o.st.prev.L = 39 := by rw [hr]; rfl
  have one : ∀ l : Fin 57, 1 ≤ l.val → (l.val : Int) ≤ 39 → Val (o.st.prev.Ml l) 1 := fun l h1 h2 => by
    rw [(hk l h1 h2).1]
    exact val_of_rng (show rngB (lit 1 1 : IEEE libm0) 1 1 = true by decide +kernel)
  have hA : AmpsTo (2 ^ 40) o.st.prev := ⟨by rw [hL]; decide, fun l h1 h2 => ⟨1, one l h1 (hL ▸ h2), by norm_num, by norm_num⟩⟩
  have en : energy (amps (valuesOf o.st.prev).Ml) o.st.prev.L.toNat = 39 := by
    rw [hL]
    show ∑ l ∈ Finset.Icc 1 39, _ = _
    rw [Finset.sum_congr rfl (g := fun _ => 1) fun l hl => by
      rw [Finset.mem_Icc] at hl
      have := one ⟨l, by omega⟩ hl.1 (by show (l : Int) ≤ 39; omega)
      rw [show amps (valuesOf o.st.prev).Ml l = _ from amps_fin _ ⟨l, by omega⟩, show (valuesOf o.st.prev).Ml ⟨l, by omega⟩ = _ from Val.number this]
      norm_num]
    norm_num
  have c75 : Val (freshImbe (m := m)).enh.localEnergy 75000 := val_of_rng (show rngB (lit 75000 1 : IEEE libm0) 75000 75000 = true by decide +kernel)
  obtain ⟨v, hv, d⟩ := C78_track sampleEnv (fun _ => badImbe) (fun i => if i = 0 then freshImbe else o.st) 1
    (fun i hi => ⟨o, by rw [if_pos (by omega)]; exact ho, by rw [if_neg (by omega)]⟩) (fun _ _ => show (1 : Nat) ≠ 0 by decide)
    75000 le_rfl (by norm_num) 75000 c75 (by norm_num) (fun i _ => by rw [if_neg (by omega)]; exact hA) (fun i _ => by
      rw [if_neg (by omega), en]
      norm_num)
  refine ⟨o, v, ho, hv, ?_⟩
  simp only [energyTrack, if_neg (Nat.succ_ne_zero _), en] at d
  push_cast at d
  rw [if_neg (by norm_num), max_eq_right (by norm_num)] at d
  norm_num at d ⊢
  exact d

end Verif.Props
