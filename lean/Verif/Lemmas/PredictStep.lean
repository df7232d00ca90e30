import Verif.Lemmas.PredictBound
import Verif.Lemmas.PredictImbe
import Verif.Lemmas.AmbeDecode
import Verif.Lemmas.Cache

/-!
# Decoded log amplitudes, by decoder, in exact arithmetic
-/

set_option linter.unusedSectionVars false

namespace Verif.Model
open Verif Verif.Gen Verif.Spec Arith

/-- What a voice frame leaves behind; `c` is the condition under which the residual is bounded. -/
structure AmbeVoiceR (lax : Bool) (T : AmbeTabs) (c : Prop) (z : ℝ) (prev : Parms ℝ) (r : DecodeRes ℝ) (g : Int) : Prop where
  L_lo : 9 ≤ r.cur.L
  L_hi : r.cur.L ≤ 56
  gamma : r.cur.gamma = ftab g T.dgDen + 1 / 2 * prev.gamma
  form : ∃ Tl : Arr 57 ℝ, (∀ l : Fin 57, 1 ≤ l.val → l.val ≤ r.cur.L.toNat → r.cur.log2Ml l =
        Tl l + 65 / 100 * predQ lax r.cur.L r.prev l - 65 / 100 / r.cur.L * (∑ k ∈ Finset.Icc 1 r.cur.L.toNat, predQ lax r.cur.L r.prev k) +
          (r.cur.gamma - 1 / 2 * Real.logb 2 r.cur.L - (∑ k ∈ Finset.Icc 1 r.cur.L.toNat, Tl.getD k 0) / r.cur.L)) ∧
      (c → ∀ l, |Tl l| ≤ 43)
  zero : r.prev.log2Ml 0 = r.prev.log2Ml 1
  zero_cur : r.cur.log2Ml 0 = z
  dg : |(ftab g T.dgDen : ℝ)| ≤ 6.9

theorem dg_bnd {T : AmbeTabs} (hT : T.Bnd) {i : Nat} {g : Int} (h : T.dg[i]? = some g) : |(ftab g T.dgDen : ℝ)| ≤ 6.9 := by
  obtain ⟨_, _, _, _, _, _, d, _, _, _, _, _, _, hd, _⟩ := hT
  have := List.all_eq_true.mp hd _ (List.mem_of_getElem? h)
  rw [decide_eq_true_eq] at this
  rw [d]
  exact (ftab_abs this (by decide)).trans (by norm_num)

theorem toI32_int_r (n : Int) : Post (toI32 (ofInt n : ℝ)) fun m => m = n := by
  refine (toI32_r_post _).mono fun m hm => ?_
  rw [hm]
  change (if 0 ≤ ((n : Int) : ℝ) then ⌊((n : Int) : ℝ)⌋ else ⌈((n : Int) : ℝ)⌉) = n
  rw [Int.floor_intCast, Int.ceil_intCast, ite_self]

theorem ltabAll : (AmbeLtable.all fun x => decide (9 ≤ x ∧ x ≤ 56)) = true := by decide +kernel
theorem ltabPlusAll : (AmbePlusLtable.all fun x => decide (9 ≤ x ∧ x ≤ 56)) = true := by decide +kernel

theorem fields2450_b2 (d : Nat → Int) : Post (fields2450 d) fun f => Bits 49 d → f.b2 = fieldVal d [8, 9, 10, 11, 36] := by
  unfold fields2450
  refine Post.bind (P := fun x => Bits 49 d → x = fieldVal d [8, 9, 10, 11, 36]) ?_ fun b2 h2 => ?_
  · intro x hx hd
    rw [orField_eq hd (by decide)] at hx
    exact (ok_inj hx).symm
  iterate 6 refine Post.bind Post.true fun _ _ => ?_
  exact Post.pure h2

theorem fields2400_b2 (d : Nat → Int) : Post (fields2400 d) fun f => Bits 49 d → f.b2 = fieldVal d [6, 7, 8, 9, 42, 43] := by
  unfold fields2400
  refine Post.bind (P := fun x => Bits 49 d → x = fieldVal d [6, 7, 8, 9, 42, 43]) ?_ fun b2 h2 => ?_
  · intro x hx hd
    rw [orField_eq hd (by decide)] at hx
    exact (ok_inj hx).symm
  iterate 6 refine Post.bind Post.true fun _ _ => ?_
  exact Post.pure h2

theorem ambe2450Header_r (b0 : Nat) (cur : Parms ℝ) : Post (ambe2450Header b0 cur) fun h =>
    9 ≤ h.2.2 ∧ h.2.2 ≤ 56 ∧ h.2.1.L = h.2.2 ∧ h.2.1.log2Ml = cur.log2Ml := by
  unfold ambe2450Header
  refine Post.ite (fun _ => ?_) fun _ => ?_
  · refine Post.bind Post.true fun _ _ => Post.pure ?_
    dsimp only
    refine ⟨?_, ?_, rfl, rfl⟩ <;> split <;> omega
  · refine Post.bind Post.true fun _ _ => ?_
    refine Post.bind tab_post fun x hx => Post.bind (toI32_int_r _) fun L hL => Post.pure ?_
    subst hL
    have := List.all_eq_true.mp ltabAll _ (List.mem_of_getElem? hx)
    rw [decide_eq_true_eq] at this
    exact ⟨this.1, this.2, rfl, rfl⟩

theorem ambe2450Voice_r (lax : Bool) (d : Nat → Int) (b0 : Nat) (cur prev : Parms ℝ) (t : Tls ℝ) :
    Post (ambe2450Voice lax d b0 cur prev t) fun r => ∃ g b2, tabs2450.dg[b2]? = some g ∧
      (Bits 49 d → b2 = fieldVal d [8, 9, 10, 11, 36]) ∧
      AmbeVoiceR lax tabs2450 (CacheBnd (ambe2450GetCache t).1) (cur.log2Ml 0) prev r g := by
  unfold ambe2450Voice
  refine Post.bind (ambe2450Header_r _ _) fun h hh => ?_
  obtain ⟨h1, h2, h3, h4⟩ := hh
  have hz : h.2.1.log2Ml 0 = cur.log2Ml 0 := by rw [h4]
  refine Post.bind Post.true fun b1 _ => Post.bind Post.true fun V _ => ?_
  refine Post.bind (fields2450_b2 d) fun f hf => ?_
  refine Post.bind (ambeBody_r lax _ f (show 1 ≤ h.2.2 by omega) _ _ _ _) fun r hr => Post.pure ?_
  obtain ⟨Tl, g, e1, e2, e3, e4, e5, e6, e7⟩ := hr
  have hL : r.1.L = h.2.2 := by rw [e3]; exact h3
  refine ⟨g, f.b2, e1, hf, ?_, ?_, e2, ⟨Tl, ?_, e6 bnd2450⟩, e5, e7.trans hz, dg_bnd bnd2450 e1⟩
  · show 9 ≤ r.1.L; omega
  · show r.1.L ≤ 56; omega
  · show ∀ l : Fin 57, 1 ≤ l.val → l.val ≤ r.1.L.toNat → r.1.log2Ml l = _
    dsimp only
    rw [hL]
    exact e4

theorem ambe2400Voice_r (lax : Bool) (d : Nat → Int) (b0 : Nat) (cur prev : Parms ℝ) (t : Tls ℝ) :
    Post (ambe2400Voice lax d b0 cur prev t) fun r => ∃ g b2, tabs2400.dg[b2]? = some g ∧
      (Bits 49 d → b2 = fieldVal d [6, 7, 8, 9, 42, 43]) ∧
      AmbeVoiceR lax tabs2400 (CacheBnd (ambe2400GetCache t).1) (cur.log2Ml 0) prev r g := by
  unfold ambe2400Voice
  refine Post.bind tab_post fun x hx => Post.bind (toI32_int_r _) fun L hL => ?_
  subst hL
  have := List.all_eq_true.mp ltabPlusAll _ (List.mem_of_getElem? hx)
  rw [decide_eq_true_eq] at this
  obtain ⟨h1, h2⟩ := this
  refine Post.bind Post.true fun b1 _ => Post.bind Post.true fun V _ => ?_
  refine Post.bind (fields2400_b2 d) fun f hf => ?_
  refine Post.bind (ambeBody_r lax _ f (show 1 ≤ L by omega) _ _ _ _) fun r hr => Post.pure ?_
  obtain ⟨Tl, g, e1, e2, e3, e4, e5, e6, e7⟩ := hr
  have hL : r.1.L = L := by rw [e3]
  refine ⟨g, f.b2, e1, hf, ?_, ?_, e2, ⟨Tl, ?_, e6 bnd2400⟩, e5, e7, dg_bnd bnd2400 e1⟩
  · show 9 ≤ r.1.L; omega
  · show r.1.L ≤ 56; omega
  · show ∀ l : Fin 57, 1 ≤ l.val → l.val ≤ r.1.L.toNat → r.1.log2Ml l = _
    dsimp only
    rw [hL]
    exact e4

theorem decodeAmbe2450_r (lax : Bool) (d : Nat → Int) (e : Int) (cur prev : Parms ℝ) (t : Tls ℝ) :
    Post (decodeAmbe2450 lax d e cur prev t) fun r => r.bad = 0 → ∃ g b2, tabs2450.dg[b2]? = some g ∧
      (Bits 49 d → b2 = fieldVal d [8, 9, 10, 11, 36]) ∧
      AmbeVoiceR lax tabs2450 (CacheBnd (ambe2450GetCache t).1) (cur.log2Ml 0) prev r g := by
  unfold decodeAmbe2450
  refine Post.bind Post.true fun tone _ => Post.bind Post.true fun b0 _ => ?_
  refine Post.ite (fun _ => Post.pure fun h => by cases h) fun _ => ?_
  refine Post.ite (fun _ => Post.pure fun h => by cases h) fun _ => ?_
  refine Post.ite (fun _ => Post.pure fun h => by cases h) fun _ => ?_
  exact (ambe2450Voice_r _ _ _ _ _ _).mono fun r h _ => h

theorem decodeAmbe2400_r (lax : Bool) (d : Nat → Int) (cur prev : Parms ℝ) (t : Tls ℝ) :
    Post (decodeAmbe2400 lax d cur prev t) fun r => r.bad = 0 → ∃ g b2, tabs2400.dg[b2]? = some g ∧
      (Bits 49 d → b2 = fieldVal d [6, 7, 8, 9, 42, 43]) ∧
      AmbeVoiceR lax tabs2400 (CacheBnd (ambe2400GetCache t).1) (cur.log2Ml 0) prev r g := by
  unfold decodeAmbe2400
  refine Post.bind Post.true fun b0 _ => ?_
  refine Post.ite (fun _ => Post.bind Post.true fun b1 _ => ?_) fun _ => ?_
  · refine Post.ite (fun h => Post.pure fun hb => ?_) fun _ => ?_
    · have : (b1 : Int) = 0 := hb
      omega
    refine Post.ite (fun _ => Post.pure fun h => by cases h) fun _ => ?_
    exact Post.bind Post.true fun _ _ => Post.pure fun h => by cases h
  exact (ambe2400Voice_r _ _ _ _ _ _).mono fun r h _ => h

/-- The sum over the bands, as in `Tl.getD`. -/
theorem sum_getD_mean {A B : Nat → ℝ} {L : Int} (hL : 0 < L) {k : ℝ} :
    ∑ l ∈ Finset.Icc 1 L.toNat, (A l + 65 / 100 * B l - 65 / 100 / L * (∑ j ∈ Finset.Icc 1 L.toNat, B j) +
      (k - (∑ j ∈ Finset.Icc 1 L.toNat, A j) / L)) = L * k := by
  have hc : ((Finset.Icc 1 L.toNat).card : ℝ) = L := by
    rw [Nat.card_Icc]
    have : ((L.toNat : Int) : ℝ) = ((L : Int) : ℝ) := by rw [Int.toNat_of_nonneg hL.le]
    rw [← this]
    push_cast
    simp
  have hL' : (L : ℝ) ≠ 0 := by exact_mod_cast hL.ne'
  simp only [Finset.sum_add_distrib, Finset.sum_sub_distrib, Finset.sum_const, nsmul_eq_mul, hc, ← Finset.mul_sum]
  field_simp
  ring

/-- Mean of the log amplitudes of a voice frame. -/
theorem AmbeVoiceR.mean {lax : Bool} {T : AmbeTabs} {c : Prop} {z : ℝ} {prev : Parms ℝ} {r : DecodeRes ℝ} {g : Int}
    (h : AmbeVoiceR lax T c z prev r g) :
    (∑ l ∈ Finset.Icc 1 r.cur.L.toNat, r.cur.log2Ml.getD l 0) / r.cur.L = r.cur.gamma - 1 / 2 * Real.logb 2 r.cur.L := by
  obtain ⟨Tl, hT, _⟩ := h.form
  have h1 := h.L_lo
  have h2 := h.L_hi
  have hL' : (r.cur.L : ℝ) ≠ 0 := by
    have : r.cur.L ≠ 0 := by omega
    exact_mod_cast this
  have := sum_getD_mean (A := fun k => Tl.getD k 0) (B := predQ lax r.cur.L r.prev) (show 0 < r.cur.L by omega)
    (k := r.cur.gamma - 1 / 2 * Real.logb 2 r.cur.L)
  rw [div_eq_iff hL', mul_comm _ (r.cur.L : ℝ), ← this]
  refine Finset.sum_congr rfl fun l hl => ?_
  rw [Finset.mem_Icc] at hl
  have hl57 : l < 57 := by omega
  rw [Arr.getD_lt hl57, hT ⟨l, hl57⟩ hl.1 hl.2, Arr.getD_lt hl57]

end Verif.Model
