import Verif.Lemmas.ImbeSafe
import Verif.Lemmas.Lax
import Mathlib.Analysis.Real.Pi.Bounds

/-!
# The IMBE parameter decoder as a whole
-/

namespace Verif.Model
open Verif Verif.Spec Verif.Gen Verif.Num Arith

variable {m : Libm}

theorem imbeFund_field {d : Nat → Int} (hd : Bits 88 d) :
    bitsField 88 d [0, 1, 2, 3, 4, 5, 85, 86] = .ok (imbeFund d) := bitsField_eq hd (by decide)

theorem decodeImbe4400_bad {F : Type} [Arith F] {d : Nat → Int} (hd : Bits 88 d) (h : 207 < imbeFund d) (lax : Bool)
    (cur prev : Parms F) (t : Tls F) :
    decodeImbe4400 lax d cur prev t = .ok ⟨1, { cur with repeat_ := prev.repeat_ }, prev, t⟩ := by
  unfold decodeImbe4400
  rw [imbeFund_field hd, ok_bind, if_pos h]

theorem decodeImbe4400_good {d : Nat → Int} (hd : Bits 88 d) (h : imbeFund d ≤ 207) (lax : Bool)
    (cur prev : Parms (IEEE m)) (t : Tls (IEEE m)) :
    decodeImbe4400 lax d cur prev t =
      imbeDecodeBody lax d (imbeLTab (imbeFund d) : Nat) (imbeBands (imbeLTab (imbeFund d)) : Nat)
        { cur with repeat_ := prev.repeat_, w0 := imbeW0 (imbeFund d), L := (imbeLTab (imbeFund d) : Nat),
                   K := (imbeBands (imbeLTab (imbeFund d)) : Nat) } prev t := by
  unfold decodeImbe4400
  obtain ⟨r1, r2⟩ := imbeLTab_range (imbeFund d) (by omega)
  rw [imbeFund_field hd, ok_bind, if_neg (by omega)]
  simp only []
  rw [imbeL_eval (by omega), ok_bind, if_neg (by omega), imbeK_eval (by omega) r1, ok_bind]
  rfl

theorem imbeDecodeBody_post {F : Type} [Arith F] (lax : Bool) (d : Nat → Int) (L K : Int) (cur prev : Parms F) (t : Tls F) :
    Post (imbeDecodeBody lax d L K cur prev t) fun r => r.bad = 0 ∧ ∃ V, SameButAmps { cur with Vl := V } r.cur := by
  unfold imbeDecodeBody
  refine Post.bind Post.true fun _ _ => ?_
  refine Post.bind Post.true fun V _ => ?_
  iterate 4 refine Post.bind Post.true fun _ _ => ?_
  refine Post.bind Post.true fun p hp => ?_
  refine Post.bind Post.true fun _ _ => ?_
  refine Post.bind (imbePredict2_post _ _ _ _ _ _ _ _ _) fun c hc => Post.pure ⟨rfl, V, hc⟩

/-- `NoOver` fails exactly in the reported case. -/
theorem Kl_over {p L : Nat} (hp : p ≤ 56) (h9 : 9 ≤ L) (hL : L ≤ 56) : Kl p L L = 56 ↔ p = 56 ∧ L ≠ 23 ∧ L ≠ 46 := by
  have hr := Kl_range hp (show 1 ≤ L by omega) hL (le_refl L)
  constructor
  · intro h
    have hp' : p = 56 := by omega
    subst hp'
    refine ⟨rfl, (klQ_56 L (by omega) h9).mp ?_⟩
    have : ((56 : Int) : ℚ) ≤ klQ 56 L L := by rw [← Int.le_floor]; exact h.ge
    exact_mod_cast this
  · rintro ⟨rfl, h⟩
    have h1 := (klQ_56 L (by omega) h9).mpr h
    have h2 : (56 : Int) ≤ Kl 56 L L := by unfold Kl; rw [Int.le_floor]; exact_mod_cast h1
    have := hr.2
    omega

/-- Evaluation of the fundamental against twenty decimals of π. -/
def w0Close (b0 : Nat) : FP → Bool
  | FP.fin _ q => decide (0 < q ∧ |q * ((2 * b0 + 79) / 2) - 4 * (314159265358979323846 / 100000000000000000000)|
        ≤ 12 / 8388608)
  | _ => false

theorem imbeW0_val0 : ∀ b0 < 208, w0Close b0 (imbeW0 b0 : IEEE libm0) = true := by decide +kernel

theorem imbeW0_val {b0 : Nat} (h : b0 < 208) : ∃ q : ℚ, Val (imbeW0 b0 : IEEE m) q ∧ 0 < q ∧
    |(q : ℝ) - 4 * Real.pi / (b0 + 39.5)| ≤ (4 * Real.pi / (b0 + 39.5)) / 2 ^ 23 := by
  have h0 := imbeW0_val0 b0 h
  have e : (imbeW0 b0 : IEEE m) = (imbeW0 b0 : IEEE libm0) := rfl
  generalize hx : (imbeW0 b0 : IEEE libm0) = x at h0 e
  match x, h0 with
  | FP.fin s q, h0 =>
    unfold w0Close at h0
    rw [decide_eq_true_eq] at h0
    refine ⟨q, ⟨s, e⟩, h0.1, ?_⟩
    have h1 : |(q : ℝ) * ((2 * b0 + 79) / 2) - 4 * (314159265358979323846 / 100000000000000000000)| ≤ 12 / 8388608 := by
      have := (Rat.cast_le (K := ℝ)).mpr h0.2
      push_cast at this
      exact this
    have hpi := Real.pi_gt_d20
    have hpi' := Real.pi_lt_d20
    have hb : (0 : ℝ) < b0 + 39.5 := by positivity
    have e2 : ((2 * (b0 : ℝ) + 79) / 2) = b0 + 39.5 := by norm_num; ring
    rw [e2] at h1
    have h2 : |(q : ℝ) * (b0 + 39.5) - 4 * Real.pi| ≤ 4 * Real.pi / 2 ^ 23 := by
      rw [abs_le] at h1 ⊢
      norm_num at h1 hpi hpi' ⊢
      constructor <;> linarith [h1.1, h1.2]
    have e3 : (q : ℝ) - 4 * Real.pi / (b0 + 39.5) = ((q : ℝ) * (b0 + 39.5) - 4 * Real.pi) / (b0 + 39.5) := by
      field_simp
    rw [e3, abs_div, abs_of_pos hb, div_right_comm]
    exact div_le_div_of_nonneg_right h2 hb.le

end Verif.Model
