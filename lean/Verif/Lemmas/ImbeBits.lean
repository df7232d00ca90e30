import Verif.Lemmas.ImbeTables
import Verif.Lemmas.Field
import Verif.Lemmas.Predict

/-!
# The IMBE quantiser bits: what `bb` contains, and the fields read from it
-/

namespace Verif.Model
open Verif Verif.Spec Verif.Gen Verif.Num Arith

theorem getD_eq {α} {t : List α} {i : Nat} {x : α} (h : i < t.length) : t.getD i x = t[i] := by
  simp [List.getElem?_eq_getElem h]

theorem tab_getD {α} {t : List α} {i : Nat} {x : α} (h : i < t.length) : tab t i = .ok (t.getD i x) := by
  unfold tab
  rw [List.getElem?_eq_getElem h, getD_eq h]

theorem tabI_getD {α} {t : List α} {i : Nat} {x : α} (h : i < t.length) : tabI t (i : Int) = .ok (t.getD i x) := by
  unfold tabI
  rw [if_pos (Int.natCast_nonneg i), Int.toNat_natCast]
  exact tab_getD h

theorem getD_mem {α} {t : List α} {i : Nat} {x : α} (h : i < t.length) : t.getD i x ∈ t := by
  rw [getD_eq h]; exact List.getElem_mem h

/-- Destination of payload bit `k + 6`. -/
def dest (n k : Nat) : Nat × Nat :=
  (((bo.getD n []).getD k []).getD 0 0, ((bo.getD n []).getD k []).getD 1 0)

theorem dest_lt {n k : Nat} (hn : n < 48) (hk : k < 79) : (dest n k).1 < 58 ∧ (dest n k).2 < 12 := by
  obtain ⟨h1, h2⟩ := bo_shape n hn
  have := List.all_eq_true.mp h2 _ (getD_mem (x := []) (show k < (bo.getD n []).length by omega))
  simp only [Bool.and_eq_true, decide_eq_true_eq, beq_iff_eq] at this
  exact ⟨this.1.2, this.2⟩

theorem boCodes_get {n k : Nat} (hn : n < 48) (hk : k < 79) :
    (boCodes (n + 9))[k]? = some (code (dest n k).1 (dest n k).2) := by
  obtain ⟨h1, _⟩ := bo_shape n hn
  unfold boCodes dest
  rw [Nat.add_sub_cancel, List.getElem?_map, List.getElem?_eq_getElem (by omega)]
  simp [List.getD_eq_getElem?_getD, List.getElem?_eq_getElem (show k < (bo[n]?.getD []).length by
    rw [← List.getD_eq_getElem?_getD]; omega)]

theorem boCodes_length {n : Nat} (hn : n < 48) : (boCodes (n + 9)).length = 79 := by
  unfold boCodes
  rw [Nat.add_sub_cancel, List.length_map]
  exact (bo_shape n hn).1

theorem boCodes_perm {n : Nat} (hn : n < 48) : (boCodes (n + 9)).Perm (fieldCodes (n + 9)) :=
  List.isPerm_iff.mp (bo_perm n hn)

theorem boCodes_nodup {n : Nat} (hn : n < 48) : (boCodes (n + 9)).Nodup :=
  (boCodes_perm hn).nodup_iff.mpr (fieldCodes_nodup n hn)

theorem dest_inj {n j k : Nat} (hn : n < 48) (hj : j < 79) (hk : k < 79) (h : dest n j = dest n k) : j = k := by
  have l := boCodes_length hn
  have hd := boCodes_nodup hn
  have e1 := boCodes_get hn hj
  have e2 := boCodes_get hn hk
  rw [h, ← e2] at e1
  rw [List.getElem?_eq_getElem (by omega), List.getElem?_eq_getElem (by omega)] at e1
  exact (List.Nodup.getElem_inj_iff hd).mp (Option.some.inj e1)

theorem dest_surj {n r c : Nat} (hn : n < 48) (hr : r < 58) (hc : c < rowBits (n + 9) r) :
    ∃ k, k < 79 ∧ dest n k = (r, c) := by
  have hm := (boCodes_perm hn).mem_iff.mpr (mem_fieldCodes hr hc)
  obtain ⟨k, hk, he⟩ := List.getElem_of_mem hm
  rw [boCodes_length hn] at hk
  have h1 := boCodes_get hn hk
  rw [List.getElem?_eq_getElem (by rw [boCodes_length hn]; exact hk), he] at h1
  have h2 := Option.some.inj h1
  have h3 := dest_lt hn hk
  have h4 := rowBits_le n hn r hr
  unfold code at h2
  refine ⟨k, hk, Prod.ext ?_ ?_⟩
  · show (dest n k).1 = r
    omega
  · show (dest n k).2 = c
    omega

/-- What `bb` contains after all payload bits have been distributed. -/
structure BB (n : Nat) (d : Nat → Int) (bb : Arr 58 (Loc 12 Int)) : Prop where
  written : ∀ k (hk : k < 79) (hn : n < 48), bb ⟨(dest n k).1, (dest_lt hn hk).1⟩ ⟨(dest n k).2, (dest_lt hn hk).2⟩ = some (d (k + 6))
  untouched : ∀ (r : Fin 58) (c : Fin 12), (∀ k < 79, dest n k ≠ (r.val, c.val)) → bb r c = none

theorem imbeReadBits_ok {n : Nat} (hn : n < 48) (d : Nat → Int) : Ok (imbeReadBits (n : Int) d) (BB n d) := by
  obtain ⟨h1, h2⟩ := bo_shape n hn
  unfold imbeReadBits
  rw [tabI_getD (x := []) (by rw [bo_length]; exact hn), ok_bind]
  refine (loop_inv (n := 79) (fun k (bb : Arr 58 (Loc 12 Int)) =>
    (∀ j (hj : j < 79), j < k → bb ⟨(dest n j).1, (dest_lt hn hj).1⟩ ⟨(dest n j).2, (dest_lt hn hj).2⟩ = some (d (j + 6))) ∧
    (∀ (r : Fin 58) (c : Fin 12), (∀ j < k, dest n j ≠ (r.val, c.val)) → bb r c = none)) ?_ ?_).mono ?_
  · exact ⟨fun j _ h => absurd h (Nat.not_lt_zero j), fun r c _ => rfl⟩
  · intro k hk bb ⟨i1, i2⟩
    have hrow : k < (bo.getD n []).length := by omega
    have he := List.all_eq_true.mp h2 _ (getD_mem (x := []) hrow)
    simp only [Bool.and_eq_true, decide_eq_true_eq, beq_iff_eq] at he
    rw [tab_getD (x := []) hrow, ok_bind, tab_getD (x := 0) (by omega), ok_bind, tab_getD (x := 0) (by omega), ok_bind,
      rd_ok (by omega), ok_bind]
    have hd := dest_lt hn hk
    show Ok (Loc.wr2 bb ((dest n k).1 : Int) ((dest n k).2 : Int) _) _
    rw [Loc.wr2_nat hd.1 hd.2]
    refine Ok.ok ⟨?_, ?_⟩
    · intro j hj hlt
      by_cases e : j = k
      · subst e
        show (if _ ∧ _ then _ else _) = _
        rw [if_pos ⟨rfl, rfl⟩]
      · show (if _ ∧ _ then _ else _) = _
        rw [if_neg]
        · exact i1 j hj (by omega)
        · intro hh
          exact e (dest_inj hn hj hk (Prod.ext hh.1 hh.2))
    · intro r c hrc
      show (if _ ∧ _ then _ else _) = _
      rw [if_neg]
      · exact i2 r c fun j hj => hrc j (by omega)
      · intro hh
        exact hrc k (by omega) (Prod.ext hh.1.symm hh.2.symm)
  · intro bb ⟨i1, i2⟩
    exact ⟨fun k hk _ => i1 k hk hk, i2⟩

/-- The payload index of bit `c` of row `r`. -/
noncomputable def src (n r c : Nat) : Nat := by
  classical exact if h : ∃ k, k < 79 ∧ dest n k = (r, c) then h.choose + 6 else 0

theorem BB.get {n r c : Nat} {d : Nat → Int} {bb : Arr 58 (Loc 12 Int)} (h : BB n d bb) (hn : n < 48) (hr : r < 58)
    (hc : c < rowBits (n + 9) r) :
    ∃ (hc' : c < 12), bb ⟨r, hr⟩ ⟨c, hc'⟩ = some (d (src n r c)) ∧ src n r c < 88 := by
  have ex := dest_surj hn hr hc
  have hsrc : src n r c = ex.choose + 6 := by unfold src; rw [dif_pos ex]
  obtain ⟨h1, h2⟩ := ex.choose_spec
  have h3 := rowBits_le n hn r hr
  refine ⟨by omega, ?_, by omega⟩
  rw [hsrc, ← h.written _ h1 hn]
  congr 1 <;> simp [h2]

end Verif.Model
