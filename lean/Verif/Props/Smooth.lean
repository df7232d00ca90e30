import Verif.Lemmas.Smooth
import Verif.Lemmas.RepeatHist
import Verif.Lemmas.History
import Verif.Props.Repeat

/-!
# C41 and C42: adaptive smoothing
-/

namespace Verif.Props
open Verif Verif.Spec Verif.Model Verif.Num Verif.Gen Arith

section
variable {F : Type} [Arith F]

/-! ## C41 -/

/-- Smoothing changes nothing but the local energy, the amplitude threshold, voicing and amplitudes. Voicing changes only
to "voiced", amplitudes only by a common factor, and both only for bands `1..L`. -/
theorem C41_frame (a : Nat) (cur prev : Parms F) (t : Tls F) (hL : cur.L ≤ 56) (r : Parms F × Tls F)
    (h : applySmoothing a cur prev t = .ok r) :
    r.1 = { cur with localEnergy := r.1.localEnergy, amplitudeThreshold := r.1.amplitudeThreshold, Vl := r.1.Vl, Ml := r.1.Ml } ∧
    NextThreshold cur prev r.1.amplitudeThreshold ∧
    (∀ l : Fin 57, r.1.Vl l = cur.Vl l ∨ (1 ≤ l.val ∧ (l.val : Int) ≤ cur.L ∧ r.1.Vl l = 1)) ∧
    (∀ l : Fin 57, ¬ (1 ≤ l.val ∧ (l.val : Int) ≤ cur.L) → r.1.Ml l = cur.Ml l) ∧
    ((lt (ofInt r.1.amplitudeThreshold) (ampSum cur.Ml cur.L) = true ∧ lt (lit 0 1) (ampSum cur.Ml cur.L) = true ∧
        ∀ l : Fin 57, 1 ≤ l.val → (l.val : Int) ≤ cur.L →
          r.1.Ml l = cur.Ml l *ᶠ (ofInt r.1.amplitudeThreshold /ᶠ ampSum cur.Ml cur.L)) ∨
      (¬ (lt (ofInt r.1.amplitudeThreshold) (ampSum cur.Ml cur.L) = true ∧ lt (lit 0 1) (ampSum cur.Ml cur.L) = true) ∧
        r.1.Ml = cur.Ml)) := by
  rw [applySmoothing_eq a cur prev t hL] at h
  obtain ⟨tm, h1, h⟩ := bind_ok h
  rw [← ok_inj h]
  refine ⟨rfl, (smoothTm_eq h1).1, fun l => ?_, fun l hl => if_neg fun h' => hl h'.1, ?_⟩
  · unfold smoothed
    dsimp only
    generalize smoothVM cur.errorRate _ cur.errorCountTotal cur.errorCount4 = vm
    by_cases e : 1 ≤ l.val ∧ (l.val : Int) ≤ cur.L
    · rw [if_pos e]
      by_cases hv : lt vm (cur.Ml l) = true
      · rw [if_pos hv]
        exact .inr ⟨e.1, e.2, rfl⟩
      · rw [if_neg hv]
        exact .inl rfl
    · rw [if_neg e]
      exact .inl rfl
  · by_cases e : lt (ofInt tm) (ampSum cur.Ml cur.L) = true ∧ lt (lit 0 1) (ampSum cur.Ml cur.L) = true
    · exact .inl ⟨e.1, e.2, fun l l1 l2 => if_pos ⟨⟨l1, l2⟩, e⟩⟩
    · exact .inr ⟨e, funext fun l => if_neg fun h' => e h'.2⟩

/-- Frames with an error rate of at most 0.005 and at most 4 errors: smoothing always succeeds, the threshold is 20480,
voicing does not change (for amplitudes that do not exceed the largest finite number), and amplitudes change only if
their sum exceeds 20480. -/
theorem C41_clean (a : Nat) (cur prev : Parms F) (t : Tls F) (hL : cur.L ≤ 56) (hc : CleanFrame cur 4)
    (hM : ∀ l : Fin 57, 1 ≤ l.val → (l.val : Int) ≤ cur.L → ¬ lt fltMax (cur.Ml l) = true) :
    ∃ r, applySmoothing a cur prev t = .ok r ∧ r.1.Vl = cur.Vl ∧ r.1.amplitudeThreshold = 20480 ∧
      (¬ lt (ofInt 20480) (ampSum cur.Ml cur.L) = true → r.1.Ml = cur.Ml) := by
  have hc6 : le cur.errorRate (lit 5 1000) = true ∧ cur.errorCountTotal ≤ 6 := ⟨hc.1, by have := hc.2; omega⟩
  have htm : smoothTm cur.errorRate cur.errorCountTotal prev.amplitudeThreshold = .ok 20480 := by
    unfold smoothTm
    dsimp only
    rw [if_pos hc6]
  refine ⟨_, by rw [applySmoothing_eq a cur prev t hL, htm, ok_bind], ?_, rfl, fun hs => ?_⟩
  · funext l
    unfold smoothed
    dsimp only
    by_cases e : 1 ≤ l.val ∧ (l.val : Int) ≤ cur.L
    · have hvm : ∀ x : F, smoothVM cur.errorRate x cur.errorCountTotal cur.errorCount4 = fltMax := fun x => if_pos hc
      rw [if_pos e, hvm, if_neg (hM l e.1 e.2)]
    · rw [if_neg e]
  · exact funext fun l => if_neg fun h' => hs h'.2.1

end

variable {m : Libm}

/-- Every binary32 amplitude that is not infinite meets the hypothesis of `C41_clean`. -/
theorem C41_clean_finite (x : IEEE m) (h : x = FP.nan ∨ x = FP.inf true ∨ ∃ q, Val x q ∧ q ≤ 340282346638528859811704183484516925440) :
    ¬ lt fltMax x = true := by
  have e0 : IEEE.get (fltMax : IEEE libm0) = FP.fin false 340282346638528859811704183484516925440 := by decide +kernel
  have e : (fltMax : IEEE m) = FP.fin false 340282346638528859811704183484516925440 := e0
  rw [e]
  rcases h with rfl | rfl | ⟨q, ⟨s, rfl⟩, hq⟩
  · exact Bool.false_ne_true
  · exact Bool.false_ne_true
  · intro h
    exact absurd hq (not_le.2 (of_decide_eq_true h))

/-- The converse case: an infinite amplitude is forced voiced even in a frame without errors. -/
theorem C41_infinite_forced : lt (fltMax : IEEE m) (IEEE.mk (FP.inf false)) = true := by
  have h0 : lt (fltMax : IEEE libm0) (IEEE.mk (FP.inf false)) = true := by decide +kernel
  exact h0

/-- The local energy is at least 10000 (or +∞) after smoothing whenever the previous energy and the amplitudes are not
NaN; a handed-over energy is never negative or NaN because `mbe_setPreEnhRm0` refuses such values. -/
theorem C41_energy (a : Nat) (cur prev : Parms (IEEE m)) (t : Tls (IEEE m)) (hL : cur.L ≤ 56) (r : Parms (IEEE m) × Tls (IEEE m))
    (h : applySmoothing a cur prev t = .ok r) (hp : prev.localEnergy ≠ FP.nan)
    (hM : ∀ l : Fin 57, 1 ≤ l.val → (l.val : Int) ≤ cur.L → cur.Ml l ≠ FP.nan)
    (ht : t.preEnhValid = true → le (lit 0 1) t.preEnhRm0 = true) :
    r.1.localEnergy = FP.inf false ∨ ∃ q : ℚ, Val r.1.localEnergy q ∧ 10000 ≤ q := by
  rw [applySmoothing_eq a cur prev t hL] at h
  obtain ⟨tm, _, h⟩ := bind_ok h
  rw [← ok_inj h]
  refine smoothEnergy_ieee hp ?_
  by_cases hv : t.preEnhValid ∧ t.preEnhOwner = a
  · rw [if_pos hv]
    have := ht hv.1
    cases hx : t.preEnhRm0 with
    | nan => rw [hx] at this; cases this
    | inf s =>
      cases s
      · exact .inl rfl
      · rw [hx] at this; cases this
    | fin s q =>
      rw [hx] at this
      exact .inr ⟨q, ⟨s, rfl⟩, of_decide_eq_true this⟩
  · rw [if_neg hv]
    exact sqSum_nn hL hM

theorem C41_handoff {F : Type} [Arith F] (a : Nat) (x : F) (t : Tls F) :
    (setPreEnhRm0 a x t).preEnhValid = true → le (lit 0 1) (setPreEnhRm0 a x t).preEnhRm0 = true := by
  unfold setPreEnhRm0
  split
  · rename_i h
    exact fun _ => h.2
  · intro h
    cases h

/-- In exact arithmetic the local energy is at least 10000, without hypotheses. -/
theorem C41_energy_real (a : Nat) (cur prev : Parms ℝ) (t : Tls ℝ) (hL : cur.L ≤ 56) (r : Parms ℝ × Tls ℝ)
    (h : applySmoothing a cur prev t = .ok r) : 10000 ≤ r.1.localEnergy := by
  rw [applySmoothing_eq a cur prev t hL] at h
  obtain ⟨tm, _, h⟩ := bind_ok h
  rw [← ok_inj h]
  have e : (lit 10000 1 : ℝ) = 10000 := by rw [RealArith.lit_r _ _ (by decide)]; norm_num
  have key : ∀ x : ℝ, 10000 ≤ (if lt x (lit 10000 1) = true then lit 10000 1 else x) := by
    intro x
    by_cases hx : lt x (lit 10000 1) = true
    · rw [if_pos hx, e]
    · rw [if_neg hx]
      rw [RealArith.lt_r, e] at hx
      exact not_lt.1 hx
  exact key ((lit 95 100 *ᶠ _) +ᶠ (lit 5 100 *ᶠ _))

/-- In exact arithmetic the sum of the amplitudes is at most the threshold after smoothing, if the threshold is
positive. -/
theorem C41_bound (a : Nat) (cur prev : Parms ℝ) (t : Tls ℝ) (hL : cur.L ≤ 56) (r : Parms ℝ × Tls ℝ)
    (h : applySmoothing a cur prev t = .ok r) (hT : 0 < r.1.amplitudeThreshold) :
    ampSum r.1.Ml cur.L ≤ (r.1.amplitudeThreshold : ℝ) := by
  obtain ⟨_, _, _, _, h5⟩ := C41_frame a cur prev t hL r h
  have e : (lit 0 1 : ℝ) = 0 := by rw [RealArith.lit_r _ _ (by decide)]; norm_num
  have hT' : (0 : ℝ) < (r.1.amplitudeThreshold : ℝ) := by exact_mod_cast hT
  rcases h5 with ⟨h1, h2, h3⟩ | ⟨h1, h2⟩
  · rw [RealArith.lt_r, e] at h2
    rw [ampSum_scale cur.Ml r.1.Ml cur.L _ hL h3]
    show ampSum cur.Ml cur.L * ((r.1.amplitudeThreshold : ℝ) / ampSum cur.Ml cur.L) ≤ _
    rw [mul_div_cancel₀ _ h2.ne']
  · rw [h2]
    rw [RealArith.lt_r, RealArith.lt_r, e, RealArith.ofInt_r, not_and_or, not_lt, not_lt] at h1
    rcases h1 with h1 | h1
    · exact h1
    · linarith

/-- The public query "is smoothing required" says yes exactly for an error rate above 1.25 % or more than four errors
(exact arithmetic). -/
theorem C41_required (p : Parms ℝ) : requiresSmoothing p = true ↔ (1 / 80 < p.errorRate ∨ 5 ≤ p.errorCountTotal) := by
  unfold requiresSmoothing
  rw [Bool.or_eq_true, RealArith.lt_r, RealArith.lit_r _ _ (by decide), decide_eq_true_iff]
  have e : (((125 : Int) : ℝ) / ((10000 : Nat) : ℝ)) = 1 / 80 := by norm_num
  rw [e]
  exact or_congr Iff.rfl ⟨fun h => h, fun h => h⟩

/-- The same in binary32 arithmetic, where the limit is the float nearest to 0.0125, for a finite error rate. -/
theorem C41_required_float (p : Parms (IEEE m)) (q : ℚ) (h : Val p.errorRate q) :
    requiresSmoothing p = true ↔ (13421773 / 1073741824 < q ∨ 5 ≤ p.errorCountTotal) := by
  have e0 : IEEE.get (lit 125 10000 : IEEE libm0) = FP.fin false (13421773 / 1073741824) := by decide +kernel
  have e : (lit 125 10000 : IEEE m) = FP.fin false (13421773 / 1073741824) := e0
  unfold requiresSmoothing
  rw [Bool.or_eq_true, decide_eq_true_iff, e]
  obtain ⟨s, hs⟩ := h
  rw [hs]
  exact or_congr ⟨fun h => of_decide_eq_true h, fun h => decide_eq_true h⟩ ⟨fun h => h, fun h => h⟩

theorem smoothVM_small : smoothVM (1 / 100 : ℝ) (smoothEnergy (75000 : ℝ) 0) 0 0 < 1000000 := by
  have he : smoothEnergy (75000 : ℝ) 0 = 71250 := by
    unfold smoothEnergy
    have h1 : (lit 10000 1 : ℝ) = 10000 := by rw [RealArith.lit_r _ _ (by decide)]; norm_num
    have h2 : (lit 95 100 : ℝ) *ᶠ (75000 : ℝ) +ᶠ (lit 5 100 : ℝ) *ᶠ (0 : ℝ) = 71250 := by
      rw [RealArith.lit_r _ _ (by decide), RealArith.lit_r _ _ (by decide)]
      show _ * _ + _ * _ = _
      norm_num
    dsimp only
    have n0 : ¬ lt (75000 : ℝ) 10000 = true := by rw [RealArith.lt_r]; norm_num
    rw [h1, if_neg n0, h2, if_neg (by rw [RealArith.lt_r]; norm_num)]
  rw [he]
  unfold smoothVM
  have n5 : ¬ le (1 / 100 : ℝ) (lit 5 1000) = true := by
    rw [RealArith.le_r, RealArith.lit_r _ _ (by decide)]
    norm_num
  have y12 : le (1 / 100 : ℝ) (lit 125 10000) = true := by
    rw [RealArith.le_r, RealArith.lit_r _ _ (by decide)]
    norm_num
  rw [if_neg (fun h => n5 h.1), if_pos ⟨y12, rfl⟩, RealArith.lit_r _ _ (by decide), RealArith.lit_r _ _ (by decide)]
  have hs : √√√(71250 : ℝ) ≤ 5 := by
    rw [Real.sqrt_le_left (by norm_num), Real.sqrt_le_left (by norm_num), Real.sqrt_le_left (by norm_num)]
    norm_num
  have h0 : 0 ≤ √√√(71250 : ℝ) := Real.sqrt_nonneg _
  have hp : √√√(71250 : ℝ) * √√√(71250 : ℝ) * √√√(71250 : ℝ) ≤ 5 * 5 * 5 := by gcongr
  have hE : (1 : ℝ) ≤ Real.exp (((27726 : Int) : ℝ) / ((100 : Nat) : ℝ) * (1 / 100)) := Real.one_le_exp (by norm_num)
  show ((45255 : Int) : ℝ) / ((1000 : Nat) : ℝ) * (√√√(71250 : ℝ) * √√√(71250 : ℝ) * √√√(71250 : ℝ)) /
    Real.exp (((27726 : Int) : ℝ) / ((100 : Nat) : ℝ) * (1 / 100)) < 1000000
  rw [div_lt_iff₀ (by linarith)]
  push_cast at hE ⊢
  nlinarith

/-- The query is not the condition that smoothing itself uses: there are frames for which it says no and smoothing
changes the voicing of a band. Smoothing starts at an error rate of 0.5 %. (For frames the query says yes to, the
condition of `C41_clean` fails.) -/
theorem C41_required_differs : (∀ p : Parms ℝ, requiresSmoothing p = true → ¬ CleanFrame p 4) ∧
    ∃ (cur prev : Parms ℝ) (t : Tls ℝ) (r : Parms ℝ × Tls ℝ), requiresSmoothing cur = false ∧ cur.L = 9 ∧
      applySmoothing 1 cur prev t = .ok r ∧ cur.Vl 1 = 0 ∧ r.1.Vl 1 = 1 := by
  constructor
  · intro p h hc
    rcases (C41_required p).1 h with h | h
    · have := hc.1
      rw [RealArith.le_r, RealArith.lit_r _ _ (by decide)] at this
      norm_num at this
      norm_num at h
      linarith
    · exact absurd hc.2 (by omega)
  · let cur : Parms ℝ := { (imbeInit 39 : Parms ℝ) with
      L := 9, errorRate := 1 / 100, errorCountTotal := 0, errorCount4 := 0, Vl := Arr.const 57 0,
      Ml := fun l => if l = 1 then 1000000 else 0 }
    let prev : Parms ℝ := { (imbeInit 39 : Parms ℝ) with localEnergy := 75000, amplitudeThreshold := 20480 }
    let t : Tls ℝ := { (Tls.start : Tls ℝ) with preEnhValid := true, preEnhOwner := 1, preEnhRm0 := 0 }
    have n5 : ¬ le (1 / 100 : ℝ) (lit 5 1000) = true := by
      rw [RealArith.le_r, RealArith.lit_r _ _ (by decide)]
      norm_num
    have ht : smoothTm cur.errorRate cur.errorCountTotal prev.amplitudeThreshold = .ok 26480 := by
      unfold smoothTm
      rw [if_neg (fun h => n5 h.1)]
      rfl
    refine ⟨cur, prev, t, (smoothed cur prev 0 26480, { t with preEnhValid := false, preEnhOwner := 0 }), ?_, rfl, ?_, rfl, ?_⟩
    · rw [← Bool.not_eq_true, C41_required]
      show ¬ ((1 : ℝ) / 80 < 1 / 100 ∨ (5 : Int) ≤ 0)
      norm_num
    · rw [applySmoothing_eq _ _ _ _ (by decide), ht, ok_bind]
      rfl
    · have hv : lt (smoothVM (1 / 100 : ℝ) (smoothEnergy (75000 : ℝ) 0) 0 0) (1000000 : ℝ) = true := by
        rw [RealArith.lt_r]
        exact smoothVM_small
      show (if 1 ≤ (1 : Fin 57).val ∧ (((1 : Fin 57).val : Nat) : Int) ≤ 9 then
        (if lt (smoothVM (1 / 100 : ℝ) (smoothEnergy (75000 : ℝ) 0) 0 0) (if (1 : Fin 57) = 1 then (1000000 : ℝ) else 0) = true
          then (1 : Int) else 0) else 0) = 1
      rw [if_pos (by decide), if_pos rfl, if_pos hv]

/-- A frame with seven errors whose threshold falls to 24380, and a clean one. -/
example : ∃ cur prev : Parms (IEEE libm0), ¬ CleanFrame cur 6 ∧ NextThreshold cur prev 24380 ∧
    CleanFrame (imbeInit 39 : Parms (IEEE libm0)) 4 :=
  ⟨{ (imbeInit 39) with errorCountTotal := 7 }, imbeInit 39, by unfold CleanFrame; decide +kernel,
    by unfold NextThreshold CleanFrame; decide +kernel, by unfold CleanFrame; decide +kernel⟩

/-! ## C42 -/

/-- Full statement (false, see `C42_overflow`): for every history on a fresh decoder the threshold stays in `int`.
What holds: for histories of up to 357000 calls on a fresh decoder the threshold stays below `20480 + 6000` per call, so it does
not leave `int` and no overflow happens. -/
theorem C42_bound_partial (hm : Exp2Acc m) (E : Env (IEEE m)) (hlax : E.lax = true) (ops : List (Op (IEEE m)))
    (hd : ∀ op ∈ ops, op.Payload ∧ op.Counts 7000000) (hlen : ops.length ≤ 357000) (s : St (IEEE m)) (hs : Fresh s) :
    ∃ s', runHist E ops s = .ok s' ∧ s'.enh.amplitudeThreshold ≤ 20480 + 6000 * ops.length ∧
      s'.cur.amplitudeThreshold ≤ 20480 + 6000 * ops.length ∧ s'.prev.amplitudeThreshold ≤ 20480 + 6000 * ops.length := by
  obtain ⟨h1, h2⟩ := fresh_ok hs
  have := hist_u hm (U := fun _ => False) (E := E) (.inl hlax) hd h1 (le_refl 20480) h2 (by omega)
  rcases this with ⟨s', e, _, hl⟩ | ⟨e, _, h⟩
  · exact ⟨s', e, hl.enh.t, hl.cur.t, hl.prev.t⟩
  · exact h.elim

/-- What a call of `speak` stores as the new threshold. -/
theorem speak_threshold {F : Type} [Arith F] (E : Env F) (C : Call F) (s : St F) (o : Arr 160 F × St F)
    (h : speak E C s = .ok o) :
    NextThreshold o.2.prev s.enh o.2.enh.amplitudeThreshold ∧ o.2.enh.amplitudeThreshold < 2147483648 := by
  unfold speak at h
  obtain ⟨⟨c, t⟩, h1, h⟩ := bind_ok h
  obtain ⟨r, h2, h⟩ := bind_ok h
  rw [← ok_inj h]
  dsimp only at h2 ⊢
  have hc := (spectralAmpEnhance_frame _ _ _ _ h1).1
  dsimp only at hc
  unfold synthesizeSpeechf at h2
  obtain ⟨⟨c', t'⟩, h3, h2⟩ := bind_ok h2
  have key : NextThreshold s.cur s.enh c'.amplitudeThreshold ∧ c'.amplitudeThreshold < 2147483648 := by
    unfold applySmoothing at h3
    obtain ⟨q, _, h3⟩ := bind_ok h3
    obtain ⟨v, _, h3⟩ := bind_ok h3
    obtain ⟨am, _, h3⟩ := bind_ok h3
    obtain ⟨tm, h4, h3⟩ := bind_ok h3
    obtain ⟨ml, _, h3⟩ := bind_ok h3
    have := smoothTm_eq (cur := c) (prev := s.enh) h4
    have e := congrArg Prod.fst (ok_inj h3)
    dsimp only at e
    rw [← e]
    rw [hc] at this
    exact this
  dsimp only at h2
  split at h2
  · obtain ⟨x, _, h2⟩ := bind_ok h2
    rw [← ok_inj h2]
    exact key
  · have := (synthUnmuted_frame E _ _ _ _ h2).cur_eq
    rw [this]
    exact key

/-- The error rate after `n` frames with one error each. -/
def rateAt (F : Type) [Arith F] : Nat → F
  | 0 => lit 0 1
  | n + 1 => imbeRate (rateAt F n) 1

theorem rateAt_fix0 : IEEE.get (rateAt (IEEE libm0) 401) = IEEE.get (rateAt (IEEE libm0) 400) ∧
    le (rateAt (IEEE libm0) 400) (lit 5 1000) = false := by decide +kernel

theorem rateAt_transfer (n : Nat) : IEEE.get (rateAt (IEEE m) n) = IEEE.get (rateAt (IEEE libm0) n) := by
  have step : ∀ x y : FP, x = y → IEEE.get (imbeRate (IEEE.mk x : IEEE m) 1) = IEEE.get (imbeRate (IEEE.mk y : IEEE libm0) 1) := by
    rintro x _ rfl
    rfl
  induction n with
  | zero => rfl
  | succ n ih => exact step _ _ ih

theorem rateAt_high (k : Nat) : le (rateAt (IEEE m) (400 + k)) (lit 5 1000) = false := by
  have step : ∀ x y : FP, x = y → IEEE.get (imbeRate (IEEE.mk x : IEEE libm0) 1) = IEEE.get (imbeRate (IEEE.mk y : IEEE libm0) 1) := by
    rintro x _ rfl
    rfl
  have e : ∀ k, IEEE.get (rateAt (IEEE libm0) (400 + k)) = IEEE.get (rateAt (IEEE libm0) 400) := by
    intro k
    induction k with
    | zero => exact congrArg (fun n => IEEE.get (rateAt (IEEE libm0) n)) (Nat.add_zero 400)
    | succ k ih => exact (step _ _ ih).trans rateAt_fix0.1
  have e2 := (rateAt_transfer (m := m) (400 + k)).trans (e k)
  have h : ∀ x y : FP, x = y → le (IEEE.mk y : IEEE libm0) (lit 5 1000) = false → le (IEEE.mk x : IEEE m) (lit 5 1000) = false := by
    rintro x _ rfl h
    exact h
  exact h _ _ e2 rateAt_fix0.2

/-- The call of the witness: an IMBE data call with an all-zero payload and one error. -/
def oneError (C : Call (IEEE m)) : ImbeOp (IEEE m) := ⟨C, none, 1, fun _ => 0⟩

theorem oneError_notRepeat (C : Call (IEEE m)) (a : ImbeAbs (IEEE m)) : a.isRepeat (oneError C) = false := by
  unfold ImbeAbs.isRepeat oneError imbeIsRepeat
  rw [show imbeFund (fun _ => 0) = 0 by decide]
  rfl

/-- **The threshold overflows.** On a freshly initialised IMBE decoder, 377149 data calls with one reported error each
end in a signed overflow of the threshold computation (with the one-element over-read of `log2Ml` given its actual value;
nothing else goes wrong before). -/
theorem C42_overflow (E : Env (IEEE m)) (hlax : E.lax = true) (C : Call (IEEE m)) (hC : 4 ≤ C.cap) (s0 s : St (IEEE m))
    (ht : s0.tls = Tls.start) (hs : initMbeState s0 = .ok s) :
    runHist E (List.replicate 377149 (Op.imbe (oneError C))) s = .error .signedOverflow := by
  have hbits : Bits 88 (oneError C).d := fun i _ => .inl rfl
  have step : ∀ n (s : St (IEEE m)), StOk s → ImbeInv ⟨0, rateAt (IEEE m) n⟩ s →
      (∃ s', (Op.imbe (oneError C)).run E s = .ok s' ∧ StOk s' ∧ ImbeInv ⟨0, rateAt (IEEE m) (n + 1)⟩ s' ∧
        NextThreshold s'.prev s.enh s'.enh.amplitudeThreshold ∧ s'.enh.amplitudeThreshold < 2147483648 ∧
        s'.prev.errorCountTotal = 1) ∨
      (Op.imbe (oneError C)).run E s = .error .signedOverflow := by
    intro n s hs hI
    have hu := processImbe4400_u (U := fun e => e = .signedOverflow) (E := E) (.inl hlax) (C := C) none (errs2 := 1)
      (.inl (show (1 : Int).toNat + 3 ≤ C.cap by exact hC)) hbits hs (.inr rfl)
    show (∃ s', (do Except.ok (← (oneError C).run E s).st) = .ok s' ∧ _) ∨ (do Except.ok (← (oneError C).run E s).st) = _
    rcases hu with ⟨o, ho, hP⟩ | ⟨e, he, hU⟩
    · left
      have hr : (oneError C).run E s = .ok o := ho
      have hI' := imbeInv_step hbits hI hr
      have hst := imbeOp_step hbits hr
      obtain ⟨r, cur, sp, parts⟩ := processImbe4400_parts ho
      have hth := speak_threshold E C _ _ parts.spoken
      refine ⟨o.st, by rw [hr]; rfl, hP.1, ?_, ?_, ?_, ?_⟩
      · have e : (⟨0, rateAt (IEEE m) n⟩ : ImbeAbs (IEEE m)).next (oneError C) = ⟨0, rateAt (IEEE m) (n + 1)⟩ := by
          unfold ImbeAbs.next
          rw [oneError_notRepeat]
          rfl
        rw [e] at hI'
        exact hI'
      · rw [parts.st]; exact hth.1
      · rw [parts.st]; exact hth.2
      · have := oneError_notRepeat C ⟨0, s.prev.errorRate⟩
        exact (hst.good this).2.2.2.1
    · right
      have hr : (oneError C).run E s = .error e := he
      rw [hr, hU]
      rfl
  -- the first 400 frames: the threshold stays at least 20480
  have phase1 : ∀ (k n : Nat) (s : St (IEEE m)) (rest : List (Op (IEEE m))), StOk s → ImbeInv ⟨0, rateAt (IEEE m) n⟩ s →
      20480 ≤ s.enh.amplitudeThreshold → s.enh.amplitudeThreshold < 2147483648 →
      (∃ s', runHist E (List.replicate k (Op.imbe (oneError C)) ++ rest) s = runHist E rest s' ∧ StOk s' ∧
        ImbeInv ⟨0, rateAt (IEEE m) (n + k)⟩ s' ∧ 20480 ≤ s'.enh.amplitudeThreshold ∧
        s'.enh.amplitudeThreshold < 2147483648) ∨
      runHist E (List.replicate k (Op.imbe (oneError C)) ++ rest) s = .error .signedOverflow := by
    intro k
    induction k with
    | zero => exact fun n s rest h1 h2 h3 h4 => .inl ⟨s, rfl, h1, h2, h3, h4⟩
    | succ k ih =>
      intro n s rest h1 h2 h3 h4
      rw [List.replicate_succ, List.cons_append]
      show (∃ s', ((Op.imbe (oneError C)).run E s >>= fun s => runHist E _ s) = _ ∧ _) ∨
        ((Op.imbe (oneError C)).run E s >>= fun s => runHist E _ s) = _
      rcases step n s h1 h2 with ⟨s1, e, g1, g2, g3, g4, g5⟩ | e
      · rw [e, ok_bind]
        have hge : 20480 ≤ s1.enh.amplitudeThreshold := by
          rcases g3 with ⟨_, g⟩ | ⟨_, g⟩
          · omega
          · rw [g5] at g
            split at g <;> omega
        have := ih (n + 1) s1 rest g1 g2 hge g4
        rwa [show n + 1 + k = n + (k + 1) by omega] at this
      · right
        rw [e]
        rfl
  have phase2 : ∀ (k n : Nat) (s : St (IEEE m)), StOk s → ImbeInv ⟨0, rateAt (IEEE m) (400 + n)⟩ s →
      20480 ≤ s.enh.amplitudeThreshold → s.enh.amplitudeThreshold < 2147483648 →
      2147483648 ≤ s.enh.amplitudeThreshold + 5700 * k →
      runHist E (List.replicate k (Op.imbe (oneError C))) s = .error .signedOverflow := by
    intro k
    induction k with
    | zero =>
      intro n s _ _ h1 h2 h3
      exfalso
      push_cast at h3
      omega
    | succ k ih =>
      intro n s h1 h2 h3 h4 h5
      rw [List.replicate_succ]
      show ((Op.imbe (oneError C)).run E s >>= fun s => runHist E _ s) = _
      rcases step (400 + n) s h1 h2 with ⟨s1, e, g1, g2, g3, g4, g5⟩ | e
      · rw [e, ok_bind]
        have hth : s1.enh.amplitudeThreshold = s.enh.amplitudeThreshold + 5700 := by
          rcases g3 with ⟨⟨g, _⟩, _⟩ | ⟨_, g⟩
          · exfalso
            rw [g2.rate] at g
            have := rateAt_high (m := m) (n + 1)
            rw [show 400 + (n + 1) = 400 + n + 1 by omega] at this
            rw [this] at g
            cases g
          · rw [g5, if_neg (by omega)] at g
            omega
        refine ih (n + 1) s1 g1 (by rw [show 400 + (n + 1) = 400 + n + 1 by omega]; exact g2) (by omega) g4 ?_
        push_cast at h5
        omega
      · rw [e]
        rfl
  rw [initMbeState_ieee, ht] at hs
  have hs' := (ok_inj hs).symm
  have hok : StOk s := by rw [hs']; exact stOk_imbeInit tls_start_uv
  have hinv : ImbeInv ⟨0, rateAt (IEEE m) 0⟩ s := by rw [hs']; exact imbeInv_init _
  have h20 : 20480 ≤ s.enh.amplitudeThreshold := by rw [hs']; exact le_refl _
  rw [show (377149 : Nat) = 401 + 376748 from rfl, ← List.replicate_append_replicate]
  have hlt : s.enh.amplitudeThreshold < 2147483648 := by rw [hs']; exact (by decide : (20480 : Int) < 2147483648)
  rcases phase1 401 0 s _ hok hinv h20 hlt with ⟨s1, e, g1, g2, g3, g4⟩ | e
  · rw [e]
    exact phase2 376748 1 s1 g1 g2 g3 g4 (by push_cast; omega)
  · exact e

/-- The hypotheses of `C42_overflow` and `C42_bound_partial` are met by the state `mbe_initMbeParms` makes. -/
example : ∃ s0 s : St (IEEE m), s0.tls = Tls.start ∧ initMbeState s0 = .ok s ∧ Fresh s :=
  ⟨freshImbe, freshImbe, rfl, by rw [initMbeState_ieee]; rfl, freshImbe_fresh⟩

end Verif.Props
