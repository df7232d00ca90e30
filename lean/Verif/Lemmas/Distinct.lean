import Verif.Spec.Distinct
import Verif.Lemmas.SpectrumImbe
import Verif.Lemmas.RealTotal

/-!
# Lemmas for C74: fields determine their bits, quantiser values their fields
-/

namespace Verif.Model
open Verif Verif.Spec Verif.Gen Verif.Num Arith

theorem fieldVal_inj {d d' : Nat → Int} {is : List Nat} (h : ∀ i ∈ is, d i = 0 ∨ d i = 1) (h' : ∀ i ∈ is, d' i = 0 ∨ d' i = 1)
    (e : fieldVal d is = fieldVal d' is) : ∀ i ∈ is, d i = d' i := by
  induction is with
  | nil => intro i hi; cases hi
  | cons i is ih =>
    have l1 := fieldVal_lt fun j hj => h j (List.mem_cons_of_mem _ hj)
    have l2 := fieldVal_lt fun j hj => h' j (List.mem_cons_of_mem _ hj)
    rw [fieldVal_cons, fieldVal_cons] at e
    have k : d i = d' i ∧ fieldVal d is = fieldVal d' is := by
      rcases h i List.mem_cons_self with a | a <;> rcases h' i List.mem_cons_self with b | b <;> rw [a, b] at e ⊢ <;> simp at e ⊢ <;> omega
    intro j hj
    rcases List.mem_cons.1 hj with rfl | hj
    · exact k.1
    · exact ih (fun j hj => h j (List.mem_cons_of_mem _ hj)) (fun j hj => h' j (List.mem_cons_of_mem _ hj)) k.2 j hj

theorem centre_inj {n a b : Nat} (h : centre n a = centre n b) : a = b := by
  unfold centre at h
  have : (a : ℝ) = b := by linarith
  exact_mod_cast this

/-- Every payload bit between 6 and 84 is a bit of some row. -/
theorem pos_row {n p : Nat} (hn : n < 48) (h6 : 6 ≤ p) (h85 : p < 85) :
    ∃ r c, r < 58 ∧ c < rowBits (n + 9) r ∧ p = (boCodes (n + 9)).idxOf (code r c) + 6 := by
  have hl := boCodes_length hn
  have hk : p - 6 < (boCodes (n + 9)).length := by omega
  have hm := (boCodes_perm hn).mem_iff.1 (List.getElem_mem hk)
  obtain ⟨r, hr, hc⟩ := List.mem_flatMap.1 hm
  obtain ⟨c, hc, e⟩ := List.mem_map.1 hc
  refine ⟨r, c, List.mem_range.1 hr, List.mem_range.1 hc, ?_⟩
  rw [e, List.Nodup.idxOf_getElem (boCodes_nodup hn)]
  omega

theorem mem_rowPos {L r c : Nat} (hc : c < rowBits L r) : (boCodes L).idxOf (code r c) + 6 ∈ rowPos L r := by
  unfold rowPos
  exact List.mem_map.2 ⟨c, List.mem_reverse.2 (List.mem_range.2 hc), rfl⟩

theorem rowPos_lt {n r p : Nat} (hn : n < 48) (hr : r < 58) (h : p ∈ rowPos (n + 9) r) : p < 88 := by
  unfold rowPos at h
  obtain ⟨c, hc, rfl⟩ := List.mem_map.1 h
  have hc := List.mem_range.1 (List.mem_reverse.1 hc)
  have hl := boCodes_length hn
  have hm := (boCodes_perm hn).mem_iff.2 (mem_fieldCodes hr hc)
  have := List.idxOf_lt_length_iff.2 hm
  omega

theorem rowValue_inj {n r : Nat} (hn : n < 48) (hr : r < 58) {d d' : Nat → Int} (hd : Bits 88 d) (hd' : Bits 88 d')
    (e : rowValue d (n + 9) r = rowValue d' (n + 9) r) : ∀ p ∈ rowPos (n + 9) r, d p = d' p :=
  fieldVal_inj (fun p hp => hd p (rowPos_lt hn hr hp)) (fun p hp => hd' p (rowPos_lt hn hr hp)) e

theorem take_add_getD (J : List Nat) (i : Nat) : (J.take i).sum + J.getD i 0 ≤ J.sum := by
  induction J generalizing i with
  | nil => simp
  | cons a J ih =>
    cases i with
    | zero => simp
    | succ i =>
      have := ih i
      simp only [List.take_succ_cons, List.sum_cons, List.getD_cons_succ]
      omega

/-- A block ends before the end. -/
theorem block_le (J : List Nat) (i : Nat) : before J i + len J i ≤ J.sum := take_add_getD J (i - 1)

theorem B2_inj : ∀ a < 64, ∀ b < 64, B2.getD a 0 = B2.getD b 0 → a = b := by decide +kernel

theorem ba_step : ∀ n < 48, ∀ j < 5, ((ba.getD n []).getD j []).getD 1 0 ≠ 0 := by decide +kernel

theorem hoc_rows : ∀ n < 48, ∀ j < n + 3, ∃ i < 6, ∃ k < 11, k + 2 ≤ len (blockLens (n + 9)) (i + 1) ∧ hocRow (n + 9) (i + 1) (k + 2) = j + 8 := by
  decide +kernel

theorem hoc_step_or : ∀ n < 48, ∀ i < 6, ∀ k < 11, len (blockLens (n + 9)) (i + 1) < k + 2 ∨
    rowBits (n + 9) (hocRow (n + 9) (i + 1) (k + 2)) = 0 ∨
    quantstep.getD (rowBits (n + 9) (hocRow (n + 9) (i + 1) (k + 2)) - 1) 0 ≠ 0 ∧ standdev.getD k 0 ≠ 0 := by
  decide +kernel

theorem hoc_step {n i k : Nat} (hn : n < 48) (hi : i < 6) (hk : k < 11) (h : k + 2 ≤ len (blockLens (n + 9)) (i + 1))
    (h0 : rowBits (n + 9) (hocRow (n + 9) (i + 1) (k + 2)) ≠ 0) :
    quantstep.getD (rowBits (n + 9) (hocRow (n + 9) (i + 1) (k + 2)) - 1) 0 ≠ 0 ∧ standdev.getD k 0 ≠ 0 := by
  rcases hoc_step_or n hn i hi k hk with c | c | c
  · omega
  · exact absurd c h0
  · exact c

/-- The gain vector determines the rows 2 to 7. -/
theorem imbeGain_inj {n m : Nat} (hn : n < 48) {d d' : Nat → Int} (hd : Bits 88 d) (hd' : Bits 88 d') (m1 : 1 ≤ m) (m6 : m ≤ 6)
    (e : imbeGain d (n + 9) m = imbeGain d' (n + 9) m) : rowValue d (n + 9) (m + 1) = rowValue d' (n + 9) (m + 1) := by
  unfold imbeGain at e
  by_cases c : m = 1
  · subst c
    rw [if_pos rfl, if_pos rfl] at e
    have e := (div_left_inj' (show (B2_den : ℝ) ≠ 0 by unfold B2_den; norm_num)).1 e
    have lt : ∀ d : Nat → Int, Bits 88 d → rowValue d (n + 9) 2 < 64 := by
      intro d hd
      have := fieldVal_lt fun p hp => hd p (rowPos_lt hn (show 2 < 58 by decide) hp)
      have l : (rowPos (n + 9) 2).length = 6 := by
        unfold rowPos
        rw [List.length_map, List.length_reverse, List.length_range]
        rfl
      rw [l] at this
      exact this
    exact B2_inj _ (lt d hd) _ (lt d' hd') (by exact_mod_cast e)
  · rw [if_neg c, if_neg c] at e
    refine centre_inj (mul_left_cancel₀ ?_ e)
    have := ba_step n hn (m - 2) (by omega)
    rw [Nat.add_sub_cancel]
    refine div_ne_zero (by exact_mod_cast this) ?_
    unfold ba_den
    norm_num

/-- The higher coefficients determine the rows 8 to `L + 1`. -/
theorem imbeHigher_inj {n i k : Nat} (hn : n < 48) {d d' : Nat → Int} (hi : i < 6) (hk : k < 11)
    (hl : k + 2 ≤ len (blockLens (n + 9)) (i + 1)) (h0 : rowBits (n + 9) (hocRow (n + 9) (i + 1) (k + 2)) ≠ 0)
    (e : imbeHigher d (n + 9) (i + 1) (k + 2) = imbeHigher d' (n + 9) (i + 1) (k + 2)) :
    rowValue d (n + 9) (hocRow (n + 9) (i + 1) (k + 2)) = rowValue d' (n + 9) (hocRow (n + 9) (i + 1) (k + 2)) := by
  unfold imbeHigher at e
  rw [if_neg h0, if_neg h0] at e
  obtain ⟨h1, h2⟩ := hoc_step hn hi hk hl h0
  refine centre_inj (mul_left_cancel₀ ?_ e)
  refine mul_ne_zero (div_ne_zero (by exact_mod_cast h1) ?_) (div_ne_zero (by exact_mod_cast h2) ?_)
  · unfold quantstep_den; norm_num
  · unfold standdev_den; norm_num

end Verif.Model
