import Verif.Lemmas.EnhLoud
import Verif.Lemmas.FinHist
import Verif.Lemmas.Enhance
import Verif.Spec.EnhanceAcc

/-!
# The enhancement with its sums left open: amplitudes, energy, loud frames
-/

namespace Verif.Model
open Verif Verif.Spec Verif.Num Verif.Gen Arith
variable {m : Libm}
variable {rm : Int → Arr 57 (IEEE m) → Loc 57 (IEEE m) → Exec (IEEE m × IEEE m)} {es : Int → Arr 57 (IEEE m) → Exec (IEEE m)}

theorem enhanceOk_mono {A B : ℚ} {p : Parms (IEEE m)} (h : EnhanceOk A p) (hAB : A ≤ B) : EnhanceOk B p := by
  obtain ⟨a, ha, hz⟩ := h.amps
  exact ⟨h.pitch, a, fun l h1 h2 => ⟨(ha l h1 h2).1, (ha l h1 h2).2.1, (ha l h1 h2).2.2.trans hAB⟩, hz⟩

theorem enhanceWith_amp (sn : SumsNear rm es) (hm : TrigAcc m) (hcos : CosAcc m) (hsin : SinAcc m) {addr : Nat} {cur : Parms (IEEE m)} {t : Tls (IEEE m)}
    (h : EnhanceOk (2 ^ 18) cur) {r : Parms (IEEE m) × Tls (IEEE m)} (hr : enhanceWith rm es addr cur t = .ok r) : r.1 = { cur with Ml := r.1.Ml } ∧
      ∀ l : Fin 57, 1 ≤ l.val → (l.val : Int) ≤ cur.L → ∃ v : ℚ, Val (r.1.Ml l) v ∧ 0 ≤ v ∧
        |(v : ℝ) - enhGain (valuesOf cur).w0 (amps (valuesOf cur).Ml) cur.L.toNat *
            (enhFactor (valuesOf cur).w0 (amps (valuesOf cur).Ml) cur.L.toNat l.val * (valuesOf cur).Ml l)| ≤
          1 / 20 * (enhGain (valuesOf cur).w0 (amps (valuesOf cur).Ml) cur.L.toNat *
            (enhFactor (valuesOf cur).w0 (amps (valuesOf cur).Ml) cur.L.toNat l.val * (valuesOf cur).Ml l)) + 1 / 2 ^ 120 := by
  obtain ⟨w, hw, ⟨w1, w2⟩, ⟨L1, L2⟩, hp⟩ := h.pitch
  obtain ⟨a, ha, hz⟩ := h.amps
  have hf := enhanceWith_frame addr cur t r hr
  refine ⟨hf, fun l l1 l2 => ?_⟩
  have hw0 : (valuesOf cur).w0 = (w : ℝ) := Val.number hw
  have hA : ∀ l, 1 ≤ l → l ≤ cur.L.toNat → amps (valuesOf cur).Ml l = (a l : ℝ) := amps_values L2 fun l h1 h2 => (ha l h1 h2).1
  have hl : (valuesOf cur).Ml l = (a l.val : ℝ) := Val.number (ha l l1 l2).1
  rw [hw0, enhGain_congr (N := fun l => (a l : ℝ)) hA, enhFactor_congr (N := fun l => (a l : ℝ)) hA l1 (by omega), hl]
  have hLr : r.1.L = cur.L := by rw [hf]
  obtain ⟨b, hb, _⟩ := enhanceWith_fin sn.toSumsVal hm hw w1 w2 hp L1 L2 ⟨a, fun l h1 h2 => ⟨(ha l h1 h2).1, (ha l h1 h2).2.1, (ha l h1 h2).2.2.trans (by norm_num)⟩, hz⟩ r hr
  obtain ⟨v1, v2, _⟩ := hb l l1 (by rw [hLr]; exact l2)
  refine ⟨b l.val, v1, v2, ?_⟩
  rcases hz with hz | ⟨k, k1, k2, k3⟩
  · have e := enhanceWith_zero sn.toSumsVal hm hw (by rw [abs_of_nonneg (by linarith), pow2_eq]; exact w2.trans (by norm_num)) hp L2 (fun l h1 h2 => by
      have := (ha l h1 h2).1
      rwa [hz l.val h1 h2] at this) r hr l l1 l2
    rw [v1.unique e, hz l.val l1 l2]
    simp
  · have := enhanceWith_near sn hcos hsin hw w1 w2 hp L2 ha k1 k2 k3 r hr l.val l1 (by omega)
    rwa [show amps (valuesOf r.1).Ml l.val = _ from amps_fin _ l, show (valuesOf r.1).Ml l = _ from Val.number v1] at this

theorem enhanceWith_louder (sn : SumsNear rm es) (hm : TrigAcc m) {addr : Nat} {cur : Parms (IEEE m)} {t : Tls (IEEE m)} (h : EnhanceOk (2 ^ 27) cur)
    {r : Parms (IEEE m) × Tls (IEEE m)} (hr : enhanceWith rm es addr cur t = .ok r)
    (k : Fin 57) (k1 : 1 ≤ k.val) (k2 : (k.val : Int) ≤ cur.L) (k3 : 2 ^ 25 ≤ (valuesOf cur).Ml k) :
    ∀ l : Fin 57, 1 ≤ l.val → (l.val : Int) ≤ cur.L → ∃ v : ℚ, Val (r.1.Ml l) v ∧ 0 ≤ v ∧
        |(v : ℝ) - Real.sqrt (energy (amps (valuesOf cur).Ml) cur.L.toNat / energy (fun l => halved cur.L.toNat l * amps (valuesOf cur).Ml l) cur.L.toNat) *
            (halved cur.L.toNat l.val * (valuesOf cur).Ml l)| ≤
          1 / 20 * (Real.sqrt (energy (amps (valuesOf cur).Ml) cur.L.toNat / energy (fun l => halved cur.L.toNat l * amps (valuesOf cur).Ml l) cur.L.toNat) *
            (halved cur.L.toNat l.val * (valuesOf cur).Ml l)) + 1 / 2 ^ 120 := by
  obtain ⟨w, hw, ⟨w1, w2⟩, ⟨L1, L2⟩, hp⟩ := h.pitch
  obtain ⟨a, ha, hz⟩ := h.amps
  intro l l1 l2
  have hA : ∀ l, 1 ≤ l → l ≤ cur.L.toNat → amps (valuesOf cur).Ml l = (a l : ℝ) := amps_values L2 fun l h1 h2 => (ha l h1 h2).1
  have hl : (valuesOf cur).Ml l = (a l.val : ℝ) := Val.number (ha l l1 l2).1
  have hk : (valuesOf cur).Ml k = (a k.val : ℝ) := Val.number (ha k k1 k2).1
  rw [hk] at k3
  have k3' : ((2 ^ 25 : ℚ) : ℝ) ≤ (a k.val : ℝ) := by push_cast; exact k3
  rw [energy_congr (N := fun l => (a l : ℝ)) hA, energy_congr (M := fun l => halved cur.L.toNat l * amps (valuesOf cur).Ml l)
    (N := fun l => halved cur.L.toNat l * (a l : ℝ)) (fun l h1 h2 => by rw [hA l h1 h2]), hl]
  have hLr : r.1.L = cur.L := by rw [enhanceWith_frame addr cur t r hr]
  obtain ⟨b, hb, _⟩ := enhanceWith_fin sn.toSumsVal hm hw w1 w2 hp L1 L2 h.amps r hr
  obtain ⟨v1, v2, _⟩ := hb l l1 (by rw [hLr]; exact l2)
  refine ⟨b l.val, v1, v2, ?_⟩
  have := enhanceWith_loud sn hm hw w1 w2 hp L1 L2 ha k1 k2 (by exact_mod_cast k3') r hr l.val l1 (by omega)
  rwa [show amps (valuesOf r.1).Ml l.val = _ from amps_fin _ l, show (valuesOf r.1).Ml l = _ from Val.number v1] at this

/-- The energy that is stored for the adaptive smoothing. -/
theorem enhanceWith_stored (sn : SumsNear rm es) (hm : TrigAcc m) {addr : Nat} {cur : Parms (IEEE m)} {t : Tls (IEEE m)} (h : EnhanceOk (2 ^ 27) cur) :
    Post (enhanceWith rm es addr cur t) fun r => ∃ (q : IEEE m) (v : ℚ), r.2 = setPreEnhRm0 addr q t ∧ Val q v ∧
      |(v : ℝ) - energy (amps (valuesOf cur).Ml) cur.L.toNat| ≤ energy (amps (valuesOf cur).Ml) cur.L.toNat / 100000 + 1 / 2 ^ 130 := by
  obtain ⟨w, hw, ⟨w1, w2⟩, ⟨L1, L2⟩, hp⟩ := h.pitch
  obtain ⟨a, ha, hz⟩ := h.amps
  have hq : |w| ≤ pow2 26 := by
    rw [abs_of_nonneg (by linarith), pow2_eq]; exact w2.trans (by norm_num)
  unfold enhanceWith
  refine Post.bind (Ok.post (cosTab_val hm hw hq L2 hp)) fun ct hct => ?_
  have ctv : ∀ l : Nat, ∃ r : ℚ, ∀ hl : l < 57, 1 ≤ l → (l : Int) ≤ cur.L → ∃ c : IEEE m, ct ⟨l, hl⟩ = some c ∧ Val c r ∧ |r| ≤ 1 := by
    intro l
    by_cases h : l < 57 ∧ 1 ≤ l ∧ (l : Int) ≤ cur.L
    · obtain ⟨c, r, e1, e2, e3⟩ := hct ⟨l, h.1⟩ h.2.1 h.2.2
      exact ⟨r, fun _ _ _ => ⟨c, e1, e2, e3.trans (by norm_num)⟩⟩
    · exact ⟨0, fun h1 h2 h3 => absurd ⟨h1, h2, h3⟩ h⟩
  obtain ⟨rv, hrv⟩ := Classical.skolem.1 ctv
  refine Post.bind (Ok.post (sn.rmNear L2 (Ml := cur.Ml) (ct := ct) (a := a) (r := rv)
    (fun l h1 h2 => ⟨(ha l h1 h2).1, (ha l h1 h2).2.1, (ha l h1 h2).2.2.trans (by norm_num)⟩) (fun l h1 h2 => hrv l.val l.isLt h1 h2))) fun s hs => ?_
  obtain ⟨q0, q1, v0, v1, n0, n1⟩ := hs
  refine Post.bind Post.true fun _ _ => Post.bind Post.true fun _ _ => Post.bind Post.true fun _ _ => Post.pure ⟨s.1, q0, rfl, v0, ?_⟩
  rw [energy_cast (amps_values L2 fun l h1 h2 => (ha l h1 h2).1)]
  have pos : 0 ≤ sumBelow (fun j => a j * a j) (cur.L.toNat + 1) := sumBelow_nonneg fun j _ _ => mul_self_nonneg _
  generalize sumBelow (fun j => a j * a j) (cur.L.toNat + 1) = y at *
  have k : |q0 - y| ≤ y / 100000 + 1 / 2 ^ 130 := by
    refine n0.trans ?_
    norm_num
    linarith
  have : ((|q0 - y| : ℚ) : ℝ) ≤ ((y / 100000 + 1 / 2 ^ 130 : ℚ) : ℝ) := by exact_mod_cast k
  push_cast at this
  exact this

end Verif.Model
