import Verif.Lemmas.SpectrumAmbe
import Mathlib.LinearAlgebra.FiniteDimensional.Basic
import Mathlib.LinearAlgebra.Dimension.Constructions

/-!
# The cosine transform determines the values
-/

set_option linter.unusedSectionVars false

namespace Verif.Model
open Verif Verif.Gen Verif.Spec Arith

/-- A vector as a sequence from 1. -/
def seqOf {N : Nat} (v : Fin N → ℝ) (j : Nat) : ℝ := if h : j - 1 < N then v ⟨j - 1, h⟩ else 0

/-- The transform as a linear map. -/
noncomputable def dctLin (N : Nat) : (Fin N → ℝ) →ₗ[ℝ] (Fin N → ℝ) where
  toFun v k := dct N (seqOf v) (k.val + 1)
  map_add' v w := by
    funext k
    show dct N _ _ = dct N _ _ + dct N _ _
    unfold dct
    rw [← add_div, ← Finset.sum_add_distrib]
    congr 1
    refine Finset.sum_congr rfl fun j _ => ?_
    unfold seqOf
    split
    · rw [Pi.add_apply]; ring
    · ring
  map_smul' a v := by
    funext k
    show dct N _ _ = a * dct N _ _
    unfold dct
    rw [mul_div_assoc', Finset.mul_sum]
    congr 1
    refine Finset.sum_congr rfl fun j _ => ?_
    unfold seqOf
    split
    · rw [Pi.smul_apply, smul_eq_mul]; ring
    · ring

theorem seqOf_fin {N j : Nat} (x : Nat → ℝ) (h1 : 1 ≤ j) (h2 : j ≤ N) : seqOf (fun i : Fin N => x (i.val + 1)) j = x j := by
  unfold seqOf
  rw [dif_pos (by omega)]
  dsimp only
  rw [show j - 1 + 1 = j by omega]

theorem dctLin_inj (N : Nat) : Function.Injective (dctLin N) := by
  rw [LinearMap.injective_iff_surjective]
  intro w
  refine ⟨fun j => idct N (seqOf w) (j.val + 1), ?_⟩
  funext k
  show dct N _ (k.val + 1) = w k
  rw [dct_congr (y := idct N (seqOf w)) fun j j1 j2 => seqOf_fin (idct N (seqOf w)) j1 j2, dct_idct _ (by omega) (by omega)]
  unfold seqOf
  rw [dif_pos (by simp)]
  rfl

theorem dct_inj {N : Nat} {x y : Nat → ℝ} (h : ∀ k, 1 ≤ k → k ≤ N → dct N x k = dct N y k) {j : Nat} (j1 : 1 ≤ j) (j2 : j ≤ N) :
    x j = y j := by
  have e : dctLin N (fun i => x (i.val + 1)) = dctLin N (fun i => y (i.val + 1)) := by
    funext k
    show dct N _ _ = dct N _ _
    rw [dct_congr (y := x) fun j j1 j2 => seqOf_fin x j1 j2, dct_congr (x := seqOf _) (y := y) fun j j1 j2 => seqOf_fin y j1 j2]
    exact h _ (by omega) (by omega)
  have := congrFun (dctLin_inj N e) ⟨j - 1, by omega⟩
  dsimp only at this
  rwa [show j - 1 + 1 = j by omega] at this

theorem dct_add_const {N k : Nat} {y : Nat → ℝ} {κ : ℝ} (h1 : 1 ≤ k) (h2 : k ≤ N) :
    dct N (fun j => y j + κ) k = dct N y k + if k = 1 then κ else 0 := by
  have hN : (N : ℝ) ≠ 0 := by
    have : N ≠ 0 := by omega
    exact_mod_cast this
  have h : dct N (fun j => y j + κ) k = dct N y k + dct N (fun _ => κ) k := by
    unfold dct
    rw [← add_div, ← Finset.sum_add_distrib]
    congr 1
    exact Finset.sum_congr rfl fun j _ => by ring
  have e : dct N (fun _ => κ) k = dct N (idct N fun k => if k = 1 then κ else 0) k := by
    refine dct_congr fun j _ _ => ?_
    have := idct_add_const (N := N) (j := j) (by omega) (fun _ => 0) κ
    rw [show (fun k => if k = 1 then κ else 0) = fun k : Nat => if k = 1 then (0 : ℝ) + κ else 0 by funext k; simp, ← this]
    unfold idct
    simp
  rw [h, e, dct_idct _ h1 h2]

/-- Every index lies in one block. -/
theorem block_of {J : List Nat} {l : Nat} (h1 : 1 ≤ l) (h2 : l ≤ J.sum) :
    ∃ i j, 1 ≤ i ∧ i ≤ J.length ∧ 1 ≤ j ∧ j ≤ len J i ∧ l = before J i + j := by
  induction J generalizing l with
  | nil => simp at h2; omega
  | cons a J ih =>
    rw [List.sum_cons] at h2
    by_cases c : l ≤ a
    · exact ⟨1, l, le_rfl, by simp, h1, by simpa [len] using c, by simp [before]⟩
    · obtain ⟨i, j, i1, i2, j1, j2, e⟩ := ih (l := l - a) (by omega) (by omega)
      obtain ⟨i', rfl⟩ : ∃ i', i = i' + 1 := ⟨i - 1, by omega⟩
      refine ⟨i' + 2, j, by omega, by simpa using i2, j1, ?_, ?_⟩
      · simpa [len] using j2
      · unfold before at e ⊢
        simp only [Nat.add_sub_cancel] at e
        rw [show i' + 2 - 1 = i' + 1 by omega, List.take_succ_cons, List.sum_cons]
        omega

/-- Two residuals with the same shape differ by a constant. -/
theorem hasShape_unique {S : Shape} {L : Nat} {x y : Nat → ℝ} (hl : (S.lens.getD L []).length = 4) (hs : (S.lens.getD L []).sum = L)
    (h2 : ∀ i, 1 ≤ i → i ≤ 4 → 2 ≤ len (S.lens.getD L []) i)
    (hx : HasShape S L x) (hy : HasShape S L y) : ∃ κ : ℝ, ∀ l, 1 ≤ l → l ≤ L → x l = y l + κ := by
  unfold HasShape at hx hy
  generalize S.lens.getD L [] = J at *
  obtain ⟨x1, x2⟩ := hx
  obtain ⟨y1, y2⟩ := hy
  refine ⟨dct 8 (vector8 J x) 1 - dct 8 (vector8 J y) 1, fun l l1 l2 => ?_⟩
  generalize hκ : dct 8 (vector8 J x) 1 - dct 8 (vector8 J y) 1 = κ
  have hv : ∀ n, 1 ≤ n → n ≤ 8 → vector8 J x n = vector8 J y n + κ := by
    intro n n1 n2
    refine dct_inj (N := 8) (y := fun n => vector8 J y n + κ) (fun m m1 m2 => ?_) n1 n2
    rw [dct_add_const m1 m2]
    by_cases c : m = 1
    · subst c
      rw [if_pos rfl, ← hκ]
      ring
    · rw [if_neg c, x1 m (by omega) m2, y1 m (by omega) m2, add_zero]
  obtain ⟨i, j, i1, i2, j1, j2, rfl⟩ := block_of l1 (show l ≤ J.sum by omega)
  rw [hl] at i2
  have hl2 := h2 i i1 i2
  have ho := hv (2 * i - 1) (by omega) (by omega)
  have he := hv (2 * i) (by omega) (by omega)
  unfold vector8 at ho he
  rw [if_pos (by omega), if_pos (by omega), show (2 * i - 1 + 1) / 2 = i by omega] at ho
  rw [if_neg (by omega), if_neg (by omega), show 2 * i / 2 = i by omega] at he
  have hB1 : blockDct J x i 1 = blockDct J y i 1 + κ := by linarith
  have hB2 : blockDct J x i 2 = blockDct J y i 2 := by
    have h3 : Real.sqrt 2 * blockDct J x i 2 = Real.sqrt 2 * blockDct J y i 2 := by linarith
    exact mul_left_cancel₀ sqrtTwo_ne h3
  refine dct_inj (N := len J i) (x := fun j => x (before J i + j)) (y := fun j => y (before J i + j) + κ) (fun k k1 k2 => ?_) j1 j2
  rw [dct_add_const (y := fun j => y (before J i + j)) k1 k2]
  show blockDct J x i k = blockDct J y i k + _
  by_cases c : k = 1
  · subst c; rw [if_pos rfl]; exact hB1
  · rw [if_neg c, add_zero]
    by_cases c2 : k = 2
    · subst c2; exact hB2
    · rw [x2 i i1 i2 k (by omega) k2, y2 i i1 i2 k (by omega) k2]

end Verif.Model
