import Verif.Spec.Voiced
import Verif.Lemmas.UnvoicedReal
import Verif.Lemmas.Pcm
import Verif.Lemmas.PredictBound
import Mathlib.Analysis.Calculus.Deriv.Pow

/-!
# Voiced synthesis, step by step
-/

set_option linter.unusedSectionVars false

namespace Verif.Model
open Verif Verif.Gen Verif.Spec Arith

variable {F : Type} [Arith F]

/-! ## Band extension and phase update -/

theorem extendBands_eq (lo hi : Int) (p : Parms F) (h0 : -1 ≤ lo) (h1 : hi ≤ 56) :
    Post (extendBands lo hi p) fun q => q = { p with
      Ml := fun i => if lo < i.val ∧ (i.val : Int) ≤ hi then lit 0 1 else p.Ml i,
      Vl := fun i => if lo < i.val ∧ (i.val : Int) ≤ hi then 1 else p.Vl i } := by
  unfold extendBands
  refine (loop_post (fun k (q : Parms F) => q = { p with
      Ml := fun i => if lo < i.val ∧ (i.val : Int) ≤ lo + k then lit 0 1 else p.Ml i,
      Vl := fun i => if lo < i.val ∧ (i.val : Int) ≤ lo + k then 1 else p.Vl i }) ?_ ?_).mono ?_
  · have e : ∀ i : Fin 57, ¬ (lo < i.val ∧ (i.val : Int) ≤ lo + ((0 : Nat) : Int)) := fun i => by omega
    simp only [e, if_false]
  · rintro k hk q rfl
    have e : lo + 1 + (k : Int) = ((lo + 1 + k).toNat : Int) := by omega
    have hlt : (lo + 1 + (k : Int)).toNat < 57 := by omega
    intro r hr
    dsimp only at hr
    rw [e, Arr.wr_nat hlt, ok_bind, Arr.wr_nat hlt, ok_bind] at hr
    have hr := ok_inj hr
    rw [← hr]
    have hM : (Arr.set (fun i : Fin 57 => if lo < i.val ∧ (i.val : Int) ≤ lo + k then lit 0 1 else p.Ml i)
        (lo + 1 + (k : Int)).toNat (lit 0 1 : F)) =
        fun i => if lo < i.val ∧ (i.val : Int) ≤ lo + ((k + 1 : Nat) : Int) then lit 0 1 else p.Ml i := by
      funext i
      by_cases hi' : i.val = (lo + 1 + (k : Int)).toNat
      · rw [Arr.set_same hi', if_pos (by omega)]
      · rw [Arr.set_ne hi']
        by_cases c : lo < i.val ∧ (i.val : Int) ≤ lo + k
        · rw [if_pos c, if_pos (by omega)]
        · rw [if_neg c, if_neg (by omega)]
    have hV : (Arr.set (fun i : Fin 57 => if lo < i.val ∧ (i.val : Int) ≤ lo + k then (1 : Int) else p.Vl i)
        (lo + 1 + (k : Int)).toNat 1) =
        fun i => if lo < i.val ∧ (i.val : Int) ≤ lo + ((k + 1 : Nat) : Int) then 1 else p.Vl i := by
      funext i
      by_cases hi' : i.val = (lo + 1 + (k : Int)).toNat
      · rw [Arr.set_same hi', if_pos (by omega)]
      · rw [Arr.set_ne hi']
        by_cases c : lo < i.val ∧ (i.val : Int) ≤ lo + k
        · rw [if_pos c, if_pos (by omega)]
        · rw [if_neg c, if_neg (by omega)]
    rw [hM, hV]
  · rintro q rfl
    have e : ∀ i : Fin 57, (lo < i.val ∧ (i.val : Int) ≤ lo + ((hi - lo).toNat : Int)) ↔
        (lo < i.val ∧ (i.val : Int) ≤ hi) := fun i => by omega
    simp only [e]

/-- `PSIl`, `PHIl` and the wrapped previous `PSIl` of every harmonic. -/
theorem phaseUpdate_eq (noise : Arr 256 F) (nuv : Int) (cw pw : F) (cur prev : Parms F) :
    Post (phaseUpdate noise nuv cw pw cur prev) fun q =>
      q.1 = { cur with PHIl := q.1.PHIl, PSIl := q.1.PSIl } ∧ q.2 = { prev with PSIl := q.2.PSIl } ∧
      ∀ l : Fin 57, 1 ≤ l.val →
        q.2.PSIl l = wrapPhase (prev.PSIl l) ∧
        q.1.PSIl l = wrapPhase (prev.PSIl l) +ᶠ ((pw +ᶠ cw) *ᶠ (ofInt ((l.val : Int) * 160) /ᶠ lit 2 1)) ∧
        (((l.val : Int) ≤ cur.L.tdiv 4 ∧ q.1.PHIl l = q.1.PSIl l) ∨
          (¬ (l.val : Int) ≤ cur.L.tdiv 4 ∧ q.1.PHIl l = q.1.PSIl l +ᶠ
            ((ofInt nuv *ᶠ ((whiteScalar *ᶠ noise ⟨l.val, by omega⟩) -ᶠ fpi)) /ᶠ ofInt cur.L))) := by
  unfold phaseUpdate
  refine (loopFT_post (fun k (q : Parms F × Parms F) =>
    q.1 = { cur with PHIl := q.1.PHIl, PSIl := q.1.PSIl } ∧ q.2 = { prev with PSIl := q.2.PSIl } ∧
    (∀ l : Fin 57, k ≤ l.val → q.2.PSIl l = prev.PSIl l) ∧
    ∀ l : Fin 57, 1 ≤ l.val → l.val < k →
        q.2.PSIl l = wrapPhase (prev.PSIl l) ∧
        q.1.PSIl l = wrapPhase (prev.PSIl l) +ᶠ ((pw +ᶠ cw) *ᶠ (ofInt ((l.val : Int) * 160) /ᶠ lit 2 1)) ∧
        (((l.val : Int) ≤ cur.L.tdiv 4 ∧ q.1.PHIl l = q.1.PSIl l) ∨
          (¬ (l.val : Int) ≤ cur.L.tdiv 4 ∧ q.1.PHIl l = q.1.PSIl l +ᶠ
            ((ofInt nuv *ᶠ ((whiteScalar *ᶠ noise ⟨l.val, by omega⟩) -ᶠ fpi)) /ᶠ ofInt cur.L))))
    (by decide) ⟨rfl, rfl, fun _ _ => rfl, fun _ _ _ => by omega⟩ ?_).mono ?_
  · rintro k hk1 hk2 ⟨c, p⟩ ⟨h1, h2, h3, h4⟩
    have hk : k < 57 := by omega
    have hk' : k < 256 := by omega
    have hw := h3 ⟨k, hk⟩ (le_refl _)
    intro q hq
    dsimp only at h1 h2 h3 h4 hw hq
    have hL : c.L = cur.L := by rw [h1]
    rw [Arr.rd_nat hk, ok_bind, Arr.wr_nat hk, ok_bind, Arr.wr_nat hk, ok_bind, hL, hw, Arr.rd_nat hk, Arr.rd_nat hk',
      Arr.set_same (show (⟨k, hk⟩ : Fin 57).val = k from rfl)] at hq
    have old : ∀ l : Fin 57, 1 ≤ l.val → l.val < k + 1 → l.val ≠ k → l.val < k := fun l _ h h' => by omega
    by_cases hc : (k : Int) ≤ cur.L.tdiv 4
    · rw [if_pos hc, ok_bind, Arr.wr_nat hk, ok_bind] at hq
      rw [← ok_inj hq]
      refine ⟨by dsimp only; rw [h1], by dsimp only; rw [h2], fun l hl => ?_, fun l hl1 hl2 => ?_⟩
      · dsimp only
        rw [Arr.set_ne (by omega)]
        exact h3 l (by omega)
      · dsimp only
        by_cases e : l.val = k
        · rw [Arr.set_same e, Arr.set_same e, Arr.set_same e, show (⟨k, hk⟩ : Fin 57) = l from Fin.ext e.symm, ← e]
          exact ⟨rfl, rfl, .inl ⟨by rw [e]; exact hc, rfl⟩⟩
        · rw [Arr.set_ne e, Arr.set_ne e, Arr.set_ne e]
          exact h4 l hl1 (by omega)
    · rw [if_neg hc, ok_bind, ok_bind, Arr.wr_nat hk, ok_bind] at hq
      rw [← ok_inj hq]
      refine ⟨by dsimp only; rw [h1], by dsimp only; rw [h2], fun l hl => ?_, fun l hl1 hl2 => ?_⟩
      · dsimp only
        rw [Arr.set_ne (by omega)]
        exact h3 l (by omega)
      · dsimp only
        by_cases e : l.val = k
        · obtain rfl : l = ⟨k, hk⟩ := Fin.ext e
          rw [Arr.set_same e, Arr.set_same e, Arr.set_same e]
          exact ⟨rfl, rfl, .inr ⟨hc, rfl⟩⟩
        · rw [Arr.set_ne e, Arr.set_ne e, Arr.set_ne e]
          exact h4 l hl1 (by omega)
  · rintro q ⟨h1, h2, _, h4⟩
    exact ⟨h1, h2, fun l hl => h4 l hl (by omega)⟩

/-! ## Oscillators -/

theorem ws_table : ∀ n : Fin 321, (Ws[n.val]? = some (if n.val ≤ 55 then 0 else if n.val ≤ 105 then 2 * ((n.val : Int) - 55)
    else if n.val ≤ 215 then 100 else if n.val ≤ 265 then 2 * (265 - (n.val : Int)) else 0)) := by decide +kernel

theorem ws_trap (n : Nat) (h : n < 321) : Post (tab Ws n) fun v => (ftab v Ws_den : ℝ) = trapezoid n := by
  intro v hv
  have := tab_post v hv
  rw [ws_table ⟨n, h⟩] at this
  obtain rfl := Option.some.inj this
  dsimp only
  unfold trapezoid
  split_ifs with h1 h2 h3 h4
  · rw [ftab_r (b := 100) (by decide) (by decide)]
    have h1' : (n : ℝ) ≤ 55 := by exact_mod_cast h1
    rw [max_eq_left]
    · norm_num
    · exact (min_le_right _ _).trans ((min_le_left _ _).trans (by linarith [h1']))
  · have h1' : (55 : ℝ) ≤ n := by exact_mod_cast (show 55 ≤ n by omega)
    have h2' : (n : ℝ) ≤ 105 := by exact_mod_cast h2
    rw [ftab_r (b := 100) (by rw [abs_le]; omega) (by decide)]
    rw [min_eq_left (b := (265 - (n : ℝ)) / 50) (by linarith), min_eq_right (by linarith), max_eq_right (by linarith)]
    unfold Ws_den
    push_cast
    ring
  · have h1' : (105 : ℝ) ≤ n := by exact_mod_cast (show 105 ≤ n by omega)
    have h2' : (n : ℝ) ≤ 215 := by exact_mod_cast h3
    rw [ftab_r (b := 100) (by decide) (by decide)]
    rw [min_eq_left (a := (1 : ℝ)) (le_min (by linarith) (by linarith)), max_eq_right (by norm_num)]
    unfold Ws_den
    norm_num
  · have h1' : (215 : ℝ) ≤ n := by exact_mod_cast (show 215 ≤ n by omega)
    have h2' : (n : ℝ) ≤ 265 := by exact_mod_cast h4
    rw [ftab_r (b := 100) (by rw [abs_le]; omega) (by decide)]
    rw [min_eq_right (b := (265 - (n : ℝ)) / 50) (by linarith), min_eq_right (by linarith), max_eq_right (by linarith)]
    unfold Ws_den
    push_cast
    ring
  · have h1' : (265 : ℝ) ≤ n := by exact_mod_cast (show 265 ≤ n by omega)
    rw [ftab_r (b := 100) (by decide) (by decide)]
    rw [max_eq_left]
    · norm_num
    · exact (min_le_right _ _).trans ((min_le_right _ _).trans (by linarith))

theorem two_r : (lit 2 1 : ℝ) = 2 := by
  rw [RealArith.lit_r _ _ (by decide)]
  norm_num

/-- The windowed oscillator produces an exact windowed cosine. -/
theorem windowedOsc_r (off : Nat) (hoff : off ≤ 160) (amp w ph : ℝ) (out : Arr 160 ℝ) :
    Post (windowedOsc off amp (Real.sin w) (Real.cos w) (Real.sin ph) (Real.cos ph) out) fun r =>
      ∀ n, r n = out n + 2 * trapezoid (n.val + off) * amp * Real.cos (ph + w * n.val) := by
  unfold windowedOsc
  refine Post.bind (loop_post (fun k (s : Arr 160 ℝ × ℝ × ℝ) =>
    (∀ n : Fin 160, s.1 n = if n.val < k then out n + 2 * trapezoid (n.val + off) * amp * Real.cos (ph + w * n.val) else out n) ∧
    s.2.1 = Real.cos (ph + w * k) ∧ s.2.2 = Real.sin (ph + w * k)) ?_ ?_) ?_
  · exact ⟨fun n => (if_neg (by omega)).symm, by simp, by simp⟩
  · rintro k hk ⟨o, c, s⟩ ⟨h1, h2, h3⟩
    dsimp only at h1 h2 h3 ⊢
    refine Post.bind (ws_trap (k + off) (by omega)) fun v hv => ?_
    rw [Arr.rd_nat hk, ok_bind, Arr.wr_nat hk, ok_bind]
    refine Post.pure ⟨fun n => ?_, ?_, ?_⟩
    · dsimp only
      by_cases e : n.val = k
      · rw [Arr.set_same e, if_pos (by omega), RealArith.add_r, RealArith.mul_r, RealArith.mul_r, RealArith.mul_r, hv,
          h1, if_neg (by dsimp only; omega), h2, two_r, show (⟨k, hk⟩ : Fin 160) = n from Fin.ext e.symm, e]
        push_cast
        rfl
      · rw [Arr.set_ne e, h1]
        by_cases e' : n.val < k
        · rw [if_pos e', if_pos (by omega)]
        · rw [if_neg e', if_neg (by omega)]
    · dsimp only
      rw [RealArith.sub_r, RealArith.mul_r, RealArith.mul_r, h2, h3, ← Real.cos_add]
      push_cast
      congr 1
      ring
    · dsimp only
      rw [RealArith.add_r, RealArith.mul_r, RealArith.mul_r, h2, h3, ← Real.sin_add]
      push_cast
      congr 1
      ring
  · rintro s ⟨h1, _, _⟩
    refine Post.pure fun n => ?_
    rw [h1, if_pos n.isLt]

/-- The phase of the interpolating oscillator as a function of time. -/
noncomputable def thetaR (l : Nat) (cw pw phip dw t : ℝ) : ℝ := phip + (pw * l + dw) * t + (cw - pw) * l * t ^ 2 / 320

theorem thetaLn_r (l n : Nat) (cw pw phip dw : ℝ) : thetaLn l n cw pw phip dw = thetaR l cw pw phip dw n := by
  unfold thetaLn thetaR
  simp only [RealArith.add_r, RealArith.sub_r, RealArith.mul_r, RealArith.div_r, RealArith.ofInt_r]
  push_cast
  ring

theorem thetaR_deriv (l : Nat) (cw pw phip dw t : ℝ) :
    HasDerivAt (thetaR l cw pw phip dw) (l * pw + dw + (l * cw - l * pw) * t / 160) t := by
  have h1 : HasDerivAt (fun t : ℝ => (pw * l + dw) * t) ((pw * l + dw) * 1) t := (hasDerivAt_id t).const_mul _
  have h2 : HasDerivAt (fun t : ℝ => (cw - pw) * l * t ^ 2) ((cw - pw) * l * (((2 : ℕ) : ℝ) * t ^ (2 - 1))) t :=
    (hasDerivAt_pow 2 t).const_mul _
  have h3 := (h1.const_add phip).add (h2.div_const 320)
  refine h3.congr_deriv ?_
  norm_num
  ring

theorem deltaW_r (d : ℝ) : (deltaW d : ℝ) = (d - 2 * Real.pi * ⌊(d + Real.pi) / (2 * Real.pi)⌋) / 160 := by
  unfold deltaW
  have h1 : (lit 1 1 : ℝ) = 1 := by rw [RealArith.lit_r _ _ (by decide)]; norm_num
  simp only [RealArith.add_r, RealArith.sub_r, RealArith.mul_r, RealArith.div_r, RealArith.ofInt_r, RealArith.floor_r,
    RealArith.fpi_r, two_r, h1]
  push_cast
  ring

theorem wrap_abs (d : ℝ) : |d - 2 * Real.pi * ⌊(d + Real.pi) / (2 * Real.pi)⌋| ≤ Real.pi := by
  have hp := Real.pi_pos
  have h1 := Int.floor_le ((d + Real.pi) / (2 * Real.pi))
  have h2 := Int.lt_floor_add_one ((d + Real.pi) / (2 * Real.pi))
  rw [le_div_iff₀ (by positivity)] at h1
  rw [div_lt_iff₀ (by positivity)] at h2
  rw [abs_le]
  constructor <;> nlinarith

theorem deltaPhi_r (l : Nat) (cw pw phic phip : ℝ) :
    (deltaPhi l cw pw phic phip : ℝ) = phic - phip - (pw + cw) * (l * 160) / 2 := by
  unfold deltaPhi
  simp only [RealArith.add_r, RealArith.sub_r, RealArith.mul_r, RealArith.div_r, RealArith.ofInt_r, two_r]
  push_cast
  ring

theorem track_of (l : Nat) (cw pw phic phip : ℝ) :
    Track phip phic (l * pw) (l * cw) (thetaR l cw pw phip (deltaW (deltaPhi l cw pw phic phip))) where
  start := by unfold thetaR; ring
  stop := by
    refine ⟨-⌊(phic - phip - (pw + cw) * (l * 160) / 2 + Real.pi) / (2 * Real.pi)⌋, ?_⟩
    rw [deltaW_r, deltaPhi_r]
    unfold thetaR
    push_cast
    ring
  glide := by
    refine ⟨deltaW (deltaPhi l cw pw phic phip), ?_, fun t => thetaR_deriv l cw pw phip _ t⟩
    rw [deltaW_r, abs_div, abs_of_pos (show (0 : ℝ) < 160 by norm_num)]
    exact div_le_div_of_nonneg_right (wrap_abs _) (by norm_num)

theorem interpBand_r (l : Fin 57) (cw pw : ℝ) (cur prev : Parms ℝ) (out : Arr 160 ℝ) :
    interpBand l.val cw pw cur prev out = .ok fun n => out n +
      2 * ((1 - (n.val : ℝ) / 160) * prev.Ml l + (n.val : ℝ) / 160 * cur.Ml l) *
        Real.cos (thetaR l.val cw pw (prev.PHIl l) (deltaW (deltaPhi l.val cw pw (cur.PHIl l) (prev.PHIl l))) n.val) := by
  unfold interpBand
  rw [Arr.rd_nat l.isLt, ok_bind, Arr.rd_nat l.isLt, ok_bind]
  dsimp only
  refine ptwise_loop (fun n x => x + 2 * ((1 - (n.val : ℝ) / 160) * prev.Ml l + (n.val : ℝ) / 160 * cur.Ml l) *
        Real.cos (thetaR l.val cw pw (prev.PHIl l) (deltaW (deltaPhi l.val cw pw (cur.PHIl l) (prev.PHIl l))) n.val)) _ ?_ out
  intro n hn o
  dsimp only
  rw [Arr.rd_nat l.isLt, ok_bind, Arr.rd_nat l.isLt, ok_bind, Arr.rd_nat hn, ok_bind, Arr.wr_nat hn]
  congr 2
  rw [thetaLn_r, RealArith.add_r, RealArith.mul_r, RealArith.mul_r, RealArith.cos_r, two_r]
  congr 3
  unfold ampLn
  rw [RealArith.add_r, RealArith.mul_r, RealArith.sub_r, RealArith.div_r, RealArith.ofInt_r, RealArith.ofInt_r]
  push_cast
  ring

theorem useInterp_r (l : Nat) (cw pw : ℝ) : useInterp l cw pw = true ↔ l < 8 ∧ |cw - pw| < 1 / 10 * cw := by
  unfold useInterp
  rw [Bool.and_eq_true, decide_eq_true_iff, RealArith.lt_r, RealArith.abs_r, RealArith.sub_r, RealArith.mul_r,
    RealArith.lit_r _ _ (by decide)]
  norm_num

theorem voicedBand_r (cur prev : Parms ℝ) (l : Fin 57) (out : Arr 160 ℝ) :
    Post (voicedBand cur.w0 prev.w0 cur prev l.val out) fun r =>
      ∃ x : Fin 160 → ℝ, Contribution cur prev l x ∧ ∀ n, r n = out n + x n := by
  unfold voicedBand
  rw [Arr.rd_nat l.isLt, ok_bind, Arr.rd_nat l.isLt, ok_bind]
  dsimp only
  by_cases hg : Glides cur prev l
  · obtain ⟨h1, h2, h3, h4⟩ := id hg
    have hu : useInterp l.val cur.w0 prev.w0 = true := (useInterp_r _ _ _).2 ⟨h3, h4⟩
    rw [h1, h2, hu]
    rw [if_pos (by decide), if_pos (by decide), interpBand_r]
    exact Post.pure ⟨_, .inl ⟨hg, _, track_of l.val cur.w0 prev.w0 (cur.PHIl l) (prev.PHIl l), fun n => rfl⟩, fun n => rfl⟩
  · have hnu : ¬ (decide (cur.Vl l = 1) && decide (prev.Vl l = 1) && useInterp l.val cur.w0 prev.w0) = true := by
      intro h
      rw [Bool.and_eq_true, Bool.and_eq_true, decide_eq_true_iff, decide_eq_true_iff, useInterp_r] at h
      exact hg ⟨h.1.1, h.1.2, h.2.1, h.2.2⟩
    rw [if_neg hnu]
    refine Post.ite (fun h => ?_) fun h => ?_
    · refine Post.bind (P := fun o : Arr 160 ℝ => ∀ n, o n = out n + (if prev.Vl l = 1 then
        2 * trapezoid (n.val + 160) * prev.Ml l * Real.cos (prev.PHIl l + l.val * prev.w0 * n.val) else 0)) ?_ ?_
      · refine Post.ite (fun hp => ?_) fun hp => ?_
        · rw [Arr.rd_nat l.isLt, ok_bind, Arr.rd_nat l.isLt, ok_bind]
          have hp : prev.Vl l = 1 := of_decide_eq_true hp
          refine (windowedOsc_r 160 (by omega) _ _ _ _).mono fun o ho n => ?_
          rw [ho, if_pos hp, RealArith.mul_r, RealArith.ofInt_r]
          push_cast
          congr 4
          ring
        · have hp : ¬ prev.Vl l = 1 := fun h => hp (decide_eq_true h)
          refine Post.pure fun n => ?_
          rw [if_neg hp, add_zero]
      · intro o ho
        refine Post.ite (fun hc => ?_) fun hc => ?_
        · rw [Arr.rd_nat l.isLt, ok_bind, Arr.rd_nat l.isLt, ok_bind]
          have hc : cur.Vl l = 1 := of_decide_eq_true hc
          refine (windowedOsc_r 0 (by omega) _ _ _ _).mono fun o' ho' => ⟨_, .inr ⟨hg, fun n => rfl⟩, fun n => ?_⟩
          rw [ho', ho, if_pos hc, RealArith.sub_r, RealArith.mul_r, RealArith.mul_r, RealArith.ofInt_r, RealArith.ofInt_r]
          push_cast
          rw [add_assoc]
          congr 3
          · rw [add_zero]
          · congr 1
            ring
        · have hc : ¬ cur.Vl l = 1 := fun h => hc (decide_eq_true h)
          refine Post.pure ⟨_, .inr ⟨hg, fun n => rfl⟩, fun n => ?_⟩
          rw [ho, if_neg hc, add_zero]
    · rw [Bool.or_eq_true, decide_eq_true_iff, decide_eq_true_iff, not_or] at h
      refine Post.pure ⟨fun _ => 0, .inr ⟨hg, fun n => ?_⟩, fun n => (add_zero _).symm⟩
      rw [if_neg h.1, if_neg h.2, add_zero]

/-- The voiced part of a frame is the sum of the contributions of its harmonics. -/
theorem voiced_sum (cur prev : Parms ℝ) (L : Int) (hL : L ≤ 56) :
    Post (loopTo 1 L (voicedBand cur.w0 prev.w0 cur prev) (Arr.const 160 (fi 0))) fun r =>
      ∃ x : Fin 57 → Fin 160 → ℝ, (∀ l : Fin 57, 1 ≤ l.val → (l.val : Int) ≤ L → Contribution cur prev l (x l)) ∧
        (∀ l : Fin 57, l.val < 1 ∨ L < l.val → x l = fun _ => 0) ∧ ∀ n, r n = ∑ l, x l n := by
  unfold loopTo
  refine (loopFT_post (fun k (r : Arr 160 ℝ) => ∃ x : Fin 57 → Fin 160 → ℝ,
    (∀ l : Fin 57, 1 ≤ l.val → l.val < k → Contribution cur prev l (x l)) ∧
        (∀ l : Fin 57, l.val < 1 ∨ k ≤ l.val → x l = fun _ => 0) ∧ ∀ n, r n = ∑ l, x l n) (by omega) ?_ ?_).mono ?_
  · refine ⟨fun _ _ => 0, fun l _ _ => by omega, fun _ _ => rfl, fun n => ?_⟩
    rw [Finset.sum_const_zero]
    exact Int.cast_zero
  · rintro k hk1 hk2 o ⟨x, h1, h2, h3⟩
    have hk : k < 57 := by omega
    refine (voicedBand_r cur prev ⟨k, hk⟩ o).mono ?_
    rintro r ⟨y, hy, hr⟩
    refine ⟨fun l => if l = ⟨k, hk⟩ then y else x l, fun l hl1 hl2 => ?_, fun l hl => ?_, fun n => ?_⟩
    · beta_reduce
      by_cases e : l = ⟨k, hk⟩
      · rw [if_pos e, e]; exact hy
      · rw [if_neg e]
        have : l.val ≠ k := fun h => e (Fin.ext h)
        exact h1 l hl1 (by omega)
    · have : l ≠ ⟨k, hk⟩ := by rintro rfl; dsimp only at hl; omega
      beta_reduce
      rw [if_neg this]
      exact h2 l (by omega)
    · rw [hr, h3]
      have hx : x ⟨k, hk⟩ n = 0 := by rw [h2 ⟨k, hk⟩ (.inr (le_refl _))]
      have e : ∀ l, (if l = ⟨k, hk⟩ then y else x l) n = x l n + (if l = (⟨k, hk⟩ : Fin 57) then y n else 0) := by
        intro l
        split_ifs with e
        · rw [e, hx, zero_add]
        · rw [add_zero]
      simp only [e]
      rw [Finset.sum_add_distrib, Finset.sum_ite_eq' Finset.univ (⟨k, hk⟩ : Fin 57) (fun _ => y n), if_pos (Finset.mem_univ _)]
  · rintro r ⟨x, h1, h2, h3⟩
    exact ⟨x, fun l a b => h1 l a (by omega), fun l h => h2 l (by omega), h3⟩

/-! ## One frame -/

theorem wrapPhase_r (x : ℝ) : SameAngle (wrapPhase x) x ∧ 0 ≤ (wrapPhase x : ℝ) ∧ (wrapPhase x : ℝ) < 2 * Real.pi := by
  have hp := Real.pi_pos
  have h2 : (0 : ℝ) < 2 * Real.pi := by positivity
  have hz : (lit 0 1 : ℝ) = 0 := by rw [RealArith.lit_r _ _ (by decide)]; norm_num
  have ht : (twoPi : ℝ) = 2 * Real.pi := by unfold twoPi; rw [RealArith.mul_r, RealArith.fpi_r, two_r]
  have hx : x = x / (2 * Real.pi) * (2 * Real.pi) := by field_simp
  unfold wrapPhase
  rw [ht, hz]
  have hf : (Arith.fmod x (2 * Real.pi) : ℝ) = x - 2 * Real.pi * (if 0 ≤ x / (2 * Real.pi) then (⌊x / (2 * Real.pi)⌋ : ℝ)
    else (⌈x / (2 * Real.pi)⌉ : ℝ)) := rfl
  rw [hf]
  generalize x / (2 * Real.pi) = y at hx
  subst hx
  by_cases hy : 0 ≤ y
  · rw [if_pos hy]
    have a := Int.floor_le y
    have b := Int.lt_floor_add_one y
    have c : 0 ≤ y * (2 * Real.pi) - 2 * Real.pi * ⌊y⌋ := by nlinarith
    rw [if_neg (by rw [RealArith.lt_r]; linarith)]
    exact ⟨⟨-⌊y⌋, by push_cast; ring⟩, c, by nlinarith⟩
  · rw [if_neg hy]
    have a := Int.le_ceil y
    have b := Int.ceil_lt_add_one y
    by_cases c : y * (2 * Real.pi) - 2 * Real.pi * ⌈y⌉ < 0
    · rw [if_pos (by rw [RealArith.lt_r]; exact c), RealArith.add_r]
      exact ⟨⟨1 - ⌈y⌉, by push_cast; ring⟩, by nlinarith, by linarith⟩
    · rw [if_neg (by rw [RealArith.lt_r]; exact c)]
      have e : y = ⌈y⌉ := by nlinarith
      exact ⟨⟨-⌈y⌉, by push_cast; ring⟩, by linarith, by nlinarith⟩

theorem clipSample_r (x : ℝ) : clipSample x = clipTo (32767 * (95 / 100) / 7) x := by
  have hs : (softClip : ℝ) = 32767 * (95 / 100) / 7 := by
    unfold softClip
    rw [RealArith.div_r, RealArith.mul_r, RealArith.lit_r _ _ (by decide), RealArith.lit_r _ _ (by decide),
      RealArith.lit_r _ _ (by decide)]
    norm_num
  unfold clipSample clipTo
  rw [hs, RealArith.neg_r]
  by_cases h : (32767 * (95 / 100) / 7 : ℝ) < x
  · rw [if_pos ((RealArith.lt_r _ _).2 h), min_eq_left h.le, max_eq_right (by norm_num)]
  · rw [if_neg fun h' => h ((RealArith.lt_r _ _).1 h'), min_eq_right (not_lt.1 h)]
    by_cases h' : x < -(32767 * (95 / 100) / 7 : ℝ)
    · rw [if_pos ((RealArith.lt_r _ _).2 h'), max_eq_left h'.le]
    · rw [if_neg fun h'' => h' ((RealArith.lt_r _ _).1 h''), max_eq_right (not_lt.1 h')]

theorem wolaFast_r (p c : Arr 256 ℝ) (out : Arr 160 ℝ) :
    wolaFast thePlan p c out = .ok fun n => out n + overlapAdd p c (n.val : Int) := by
  rw [wolaFast_eq]
  congr 1
  funext n
  have hd := denom_real n
  have hd' : (thePlan : Plan ℝ).denom n = (winAt (n.val : Int) : ℝ) * winAt (n.val : Int) +
      (winAt ((n.val : Int) - 160) : ℝ) * winAt ((n.val : Int) - 160) := rfl
  have hlit : (lit 1 10000000000 : ℝ) = 1 / 10000000000 := by
    rw [RealArith.lit_r _ _ (by decide)]
    norm_num
  rw [if_pos (by rw [RealArith.lt_r, hd', hlit]; linarith)]
  unfold overlapAdd
  rw [show (n.val : Int) - 160 + 128 = (n.val : Int) + 128 - 160 by ring]
  rfl

theorem countUv_eq (L : Int) (Vl : Arr 57 Int) (hL : L ≤ 56) :
    Post (countUv L Vl) fun n => n = (unvoicedCount L Vl : Int) := by
  unfold countUv unvoicedCount
  refine (loop_post (fun k (n : Int) => n = (Finset.univ.filter fun l : Fin 57 => l.val < k ∧ Vl l = 0).card) ?_ ?_).mono ?_
  · have : (Finset.univ.filter fun l : Fin 57 => l.val < 0 ∧ Vl l = 0) = ∅ := by
      rw [Finset.filter_eq_empty_iff]
      rintro l _ ⟨h, _⟩
      omega
    rw [this]
    rfl
  · rintro k hk n rfl
    have hk' : k < 57 := by omega
    rw [Arr.rd_nat hk', ok_bind]
    refine Post.pure ?_
    by_cases h : Vl ⟨k, hk'⟩ = 0
    · rw [if_pos h]
      have : (Finset.univ.filter fun l : Fin 57 => l.val < k + 1 ∧ Vl l = 0) =
          insert ⟨k, hk'⟩ (Finset.univ.filter fun l : Fin 57 => l.val < k ∧ Vl l = 0) := by
        ext l
        simp only [Finset.mem_filter, Finset.mem_univ, true_and, Finset.mem_insert]
        constructor
        · rintro ⟨a, b⟩
          by_cases e : l.val = k
          · exact .inl (Fin.ext e)
          · exact .inr ⟨by omega, b⟩
        · rintro (rfl | ⟨a, b⟩)
          · exact ⟨by dsimp only; omega, h⟩
          · exact ⟨by omega, b⟩
      rw [this, Finset.card_insert_of_notMem (by simp)]
      push_cast
      rfl
    · rw [if_neg h]
      congr 2
      ext l
      simp only [Finset.mem_filter, Finset.mem_univ, true_and]
      constructor
      · rintro ⟨a, b⟩
        exact ⟨by omega, b⟩
      · rintro ⟨a, b⟩
        refine ⟨?_, b⟩
        by_contra c
        have : l = ⟨k, hk'⟩ := Fin.ext (by dsimp only; omega)
        exact h (this ▸ b)
  · rintro n rfl
    congr 2
    ext l
    simp only [Finset.mem_filter, Finset.mem_univ, true_and]
    constructor <;> (rintro ⟨a, b⟩; exact ⟨by omega, b⟩)

/-- The sets that a frame synthesises from: bands up to the other set's `L` become voiced with zero amplitude. -/
def widened (p q : Parms F) : Parms F := { p with
  Ml := fun i => if p.L < i.val ∧ (i.val : Int) ≤ q.L then lit 0 1 else p.Ml i,
  Vl := fun i => if p.L < i.val ∧ (i.val : Int) ≤ q.L then 1 else p.Vl i }

theorem widened_self (p q : Parms F) (h : q.L ≤ p.L) : widened p q = p := by
  have e : ∀ i : Fin 57, ¬ (p.L < i.val ∧ (i.val : Int) ≤ q.L) := fun i => by omega
  unfold widened
  simp only [e, if_false]

theorem synthUnmuted_r (E : Env ℝ) (cur prev : Parms ℝ) (t : Tls ℝ) (hc0 : 0 ≤ cur.L) (hc : cur.L ≤ 56) (hp0 : 0 ≤ prev.L)
    (hp : prev.L ≤ 56) (ht : CacheOk E t) : Post (synthUnmuted E cur prev t) fun r =>
      (r.cur.L = cur.L ∧ r.cur.w0 = cur.w0 ∧ r.cur.Ml = (widened cur prev).Ml ∧ r.cur.Vl = (widened cur prev).Vl) ∧
      (r.prev.L = prev.L ∧ r.prev.w0 = prev.w0 ∧ r.prev.Ml = (widened prev cur).Ml ∧ r.prev.Vl = (widened prev cur).Vl ∧
        r.prev.PHIl = prev.PHIl ∧ r.prev.previousUw = prev.previousUw) ∧
      (∃ nr, noiseOverlap (Arr.const 256 (fi 0)) cur.noiseSeed cur.noiseOverlap t = .ok nr ∧ r.cur.noiseSeed = nr.seed ∧
        r.cur.noiseOverlap = nr.overlap ∧ ∀ l : Fin 57, 1 ≤ l.val →
        SameAngle (r.cur.PSIl l) (prev.PSIl l + l.val * (prev.w0 + cur.w0) * 80) ∧
        ((l.val : Int) ≤ cur.L / 4 → r.cur.PHIl l = r.cur.PSIl l) ∧
        (¬ (l.val : Int) ≤ cur.L / 4 → r.cur.PHIl l = r.cur.PSIl l +
          unvoicedCount cur.L cur.Vl / cur.L * (2 * Real.pi / 53125 * nr.buf ⟨l.val, by omega⟩ - Real.pi))) ∧
      ∃ x : Fin 57 → Fin 160 → ℝ,
        (∀ l : Fin 57, 1 ≤ l.val → (l.val : Int) ≤ max cur.L prev.L → Contribution r.cur r.prev l (x l)) ∧
        (∀ l : Fin 57, l.val < 1 ∨ max cur.L prev.L < l.val → x l = fun _ => 0) ∧
        ∀ n, r.out n = clipTo (32767 * (95 / 100) / 7) (∑ l, x l n +
          if E.alloc = true then overlapAdd r.prev.previousUw r.cur.previousUw (n.val : Int) else 0) := by
  intro r h
  unfold synthUnmuted at h
  obtain ⟨nr, e1, h⟩ := bind_ok h
  obtain ⟨nuv, e2, h⟩ := bind_ok h
  obtain ⟨⟨cur1, prev1, maxl⟩, e3, h⟩ := bind_ok h
  obtain ⟨⟨cur2, prev2⟩, e4, h⟩ := bind_ok h
  obtain ⟨out, e5, h⟩ := bind_ok h
  obtain ⟨⟨plan, t1⟩, e6, h⟩ := bind_ok h
  dsimp only at e2 e3 e4 e5 e6 h
  have hext : cur1 = { widened cur prev with noiseSeed := nr.seed, noiseOverlap := nr.overlap } ∧ prev1 = widened prev cur ∧
      maxl = max cur.L prev.L := by
    by_cases hl : cur.L > prev.L
    · rw [if_pos hl] at e3
      obtain ⟨q, e, e3⟩ := bind_ok e3
      have := extendBands_eq _ _ _ (by omega) hc q e
      obtain ⟨rfl, rfl, rfl⟩ : _ ∧ _ ∧ _ := by simpa only [Prod.mk.injEq] using ok_inj e3
      refine ⟨?_, this, (max_eq_left hl.le).symm⟩
      rw [widened_self cur prev hl.le]
    · rw [if_neg hl] at e3
      obtain ⟨q, e, e3⟩ := bind_ok e3
      have := extendBands_eq _ _ _ (by omega) hp q e
      obtain ⟨rfl, rfl, rfl⟩ : _ ∧ _ ∧ _ := by simpa only [Prod.mk.injEq] using ok_inj e3
      refine ⟨this, ?_, (max_eq_right (by omega)).symm⟩
      rw [widened_self prev cur (by omega)]
  obtain ⟨rfl, rfl, rfl⟩ := hext
  obtain ⟨h1, h2, h3⟩ := phaseUpdate_eq _ _ _ _ _ _ _ e4
  dsimp only at h1 h2 h3
  have wc : cur2.w0 = cur.w0 := by rw [h1]; rfl
  have wp : prev2.w0 = prev.w0 := by rw [h2]; rfl
  rw [show cur.w0 = cur2.w0 from wc.symm, show prev.w0 = prev2.w0 from wp.symm] at e5
  obtain ⟨x, hx1, hx2, hx3⟩ := voiced_sum cur2 prev2 _ (by omega) out e5
  have hcur : cur2.L = cur.L ∧ cur2.w0 = cur.w0 ∧ cur2.Ml = (widened cur prev).Ml ∧ cur2.Vl = (widened cur prev).Vl := by
    refine ⟨?_, wc, ?_, ?_⟩ <;> rw [h1] <;> rfl
  have hprev : prev2.L = prev.L ∧ prev2.w0 = prev.w0 ∧ prev2.Ml = (widened prev cur).Ml ∧ prev2.Vl = (widened prev cur).Vl ∧
        prev2.PHIl = prev.PHIl ∧ prev2.previousUw = prev.previousUw := by
    refine ⟨?_, wp, ?_, ?_, ?_, ?_⟩ <;> rw [h2] <;> rfl
  have hnuv := countUv_eq _ _ hc nuv e2
  have e53 : (whiteScalar : ℝ) = 2 * Real.pi / 53125 := by
    unfold whiteScalar
    rw [RealArith.div_r, RealArith.mul_r, RealArith.fpi_r, two_r, RealArith.lit_r _ _ (by decide)]
    norm_num
  have hph : ∃ nr, noiseOverlap (Arr.const 256 (fi 0)) cur.noiseSeed cur.noiseOverlap t = .ok nr ∧ cur2.noiseSeed = nr.seed ∧
        cur2.noiseOverlap = nr.overlap ∧ ∀ l : Fin 57, 1 ≤ l.val →
        SameAngle (cur2.PSIl l) (prev.PSIl l + l.val * (prev.w0 + cur.w0) * 80) ∧
        ((l.val : Int) ≤ cur.L / 4 → cur2.PHIl l = cur2.PSIl l) ∧
        (¬ (l.val : Int) ≤ cur.L / 4 → cur2.PHIl l = cur2.PSIl l +
          unvoicedCount cur.L cur.Vl / cur.L * (2 * Real.pi / 53125 * nr.buf ⟨l.val, by omega⟩ - Real.pi)) := by
    refine ⟨nr, e1, by rw [h1], by rw [h1], ?_⟩
    intro l hl
    obtain ⟨_, g2, g3⟩ := h3 l hl
    have e : (widened cur prev).L.tdiv 4 = cur.L / 4 := Int.tdiv_eq_ediv_of_nonneg hc0
    refine ⟨?_, ?_, ?_⟩
    · obtain ⟨k, hk⟩ := (wrapPhase_r (prev.PSIl l)).1
      refine ⟨k, ?_⟩
      rw [g2, show (widened prev cur).PSIl l = prev.PSIl l from rfl, hk, RealArith.add_r, RealArith.mul_r, RealArith.add_r,
        RealArith.div_r, RealArith.ofInt_r, two_r]
      push_cast
      ring
    · intro hq
      rcases g3 with g3 | g3
      · exact g3.2
      · exact absurd (by rw [e]; exact hq) g3.1
    · intro hq
      rcases g3 with g3 | g3
      · exact absurd (by rw [← e]; exact g3.1) hq
      · rw [g3.2, hnuv, e53, RealArith.add_r, RealArith.div_r, RealArith.mul_r, RealArith.sub_r, RealArith.mul_r,
          RealArith.fpi_r, RealArith.ofInt_r, RealArith.ofInt_r, show (widened cur prev).L = cur.L from rfl]
        push_cast
        ring
  cases plan with
  | none =>
    dsimp only at h
    rw [clipBuffer_eq, ok_bind] at h
    rw [← ok_inj h]
    refine ⟨hcur, hprev, hph, x, hx1, hx2, fun n => ?_⟩
    dsimp only
    have ha : ¬ E.alloc = true := by
      intro ha
      unfold getPlan at e6
      rw [if_pos ha] at e6
      split at e6
      · cases ok_inj e6
      · obtain ⟨_, _, e6⟩ := bind_ok e6
        cases ok_inj e6
    rw [if_neg ha, add_zero, clipSample_r, hx3]
  | some P =>
    dsimp only at h
    obtain ⟨u, e7, h⟩ := bind_ok h
    rw [clipBuffer_eq, ok_bind] at h
    rw [← ok_inj h]
    refine ⟨hcur, hprev, hph, x, hx1, hx2, fun n => ?_⟩
    dsimp only
    have hP : E.alloc = true ∧ P = thePlan := by
      have hpl : nr.tls.plan = t.plan := by
        rw [noiseOverlap_frame _ _ _ _ _ e1]
      unfold getPlan at e6
      split at e6
      · rename_i p hp'
        have e := congrArg Prod.fst (ok_inj e6)
        have := ht.2.2.2 p (hpl ▸ hp')
        rw [planFill_eq] at this
        exact ⟨this.1, (Option.some.inj e).symm.trans (ok_inj this.2).symm⟩
      · split at e6
        · rename_i ha
          rw [planFill_eq, ok_bind] at e6
          have e := congrArg Prod.fst (ok_inj e6)
          exact ⟨ha, (Option.some.inj e).symm⟩
        · cases ok_inj e6
    have hw := unvoiced_wola _ _ _ _ _ _ u e7
    rw [hP.2, wolaFast_r] at hw
    rw [← ok_inj hw, if_pos hP.1, clipSample_r]
    beta_reduce
    rw [hx3]

end Verif.Model
