import Verif.Lemmas.FftDft
import Verif.Lemmas.UnvoicedReal

/-!
# The transforms of the environment
-/

namespace Verif.Model
open Verif Verif.Spec Verif.Num Arith Complex Finset

/-- An array as a function on the integers. -/
def ext {F : Type} [Arith F] (a : Arr 256 F) (i : Int) : F := if h : 0 ≤ i ∧ i < 256 then a ⟨i.toNat, by omega⟩ else fi 0

theorem ext_nat {F : Type} [Arith F] (a : Arr 256 F) (j : Fin 256) : ext a (j.val : Int) = a j := by
  rw [ext, dif_pos ⟨by omega, by omega⟩]
  congr 1

theorem filled_eq {F : Type} [Arith F] (a : Arr 256 F) : filled a = full 256 (ext a) :=
  funext fun j => by rw [full, ext_nat]; rfl

/-- What the forward transform writes. -/
def outF {F : Type} [Arith F] (a : Arr 256 F) : Arr 256 F := fun j => reoF (passesF (ext a)) (j.val : Int)

/-- What the backward transform writes. -/
def outB {F : Type} [Arith F] (a : Arr 256 F) : Arr 256 F := fun j => passesB (reoB (ext a)) (j.val : Int)

theorem runs_out {F : Type} [Arith F] (a : Arr 256 F) (μ : Mem F) (h : μ .input = filled a) :
    (∃ ν, transformFwd setup256 μ = .ok ν ∧ ν .output = filled (outF a) ∧ ν .input = filled a) ∧
    (∃ ν, transformBwd setup256 μ = .ok ν ∧ ν .output = filled (outB a) ∧ ν .input = filled a) := by
  have h' := h
  rw [filled_eq] at h
  obtain ⟨ν, e1, e2, e3⟩ := transformFwd_eq (ext a) μ h
  obtain ⟨ν', f1, f2, f3⟩ := transformBwd_eq (ext a) μ h
  exact ⟨⟨ν, e1, e2, e3.trans h'⟩, ⟨ν', f1, f2, f3.trans h'⟩⟩

theorem filled_inj {F : Type} {a b : Arr 256 F} (h : filled a = filled b) : a = b :=
  funext fun j => Option.some.inj (congrFun h j)

theorem runs_eq {F : Type} [Arith F] {E : Env F} (h : Runs E) : E.fwd = outF ∧ E.bwd = outB := by
  obtain ⟨S, hS, h⟩ := h
  rw [newSetup256_eq] at hS
  cases hS
  have k : ∀ a : Arr 256 F, E.fwd a = outF a ∧ E.bwd a = outB a := by
    intro a
    obtain ⟨⟨ν, a1, a2, _⟩, ν', b1, b2, _⟩ := h a (fun _ => filled a) rfl
    obtain ⟨⟨ξ, c1, c2, _⟩, ξ', d1, d2, _⟩ := runs_out a (fun _ => filled a) rfl
    rw [a1] at c1
    rw [b1] at d1
    cases c1
    cases d1
    exact ⟨filled_inj (a2.symm.trans c2), filled_inj (b2.symm.trans d2)⟩
  exact ⟨funext fun a => (k a).1, funext fun a => (k a).2⟩

theorem ext_seq (a : Arr 256 ℝ) : ∀ n : ℕ, n < 256 → ext a (n : Int) = seqOf a n := by
  intro n hn
  rw [seqOf, dif_pos hn]
  exact ext_nat a ⟨n, hn⟩

theorem dft_congr {N : ℕ} {x y : ℕ → ℝ} (h : ∀ n, n < N → x n = y n) (k : ℕ) : dft N x k = dft N y k :=
  Finset.sum_congr rfl fun n hn => by rw [h n (mem_range.1 hn)]

theorem outF_ordered (a : Arr 256 ℝ) : Ordered (outF a) (dft 256 (seqOf a)) := by
  have h := ordered_reoF (passesF_stage (ext a))
  have e : dft 256 (fun n => ext a (n : Int)) = dft 256 (seqOf a) := funext fun k => dft_congr (ext_seq a) k
  rw [e] at h
  exact h

theorem outB_ordered {a : Arr 256 ℝ} {x : ℕ → ℝ} (h : Ordered a (dft 256 x)) (j : Fin 256) : outB a j = 256 * x j.val := by
  have e : (fun j : Fin 256 => ext a (j.val : Int)) = a := funext fun j => ext_nat a j
  refine passesB_stage (stage_reoB (c := ext a) (x := x) ?_) j.val j.isLt
  rw [e]
  exact h

/-- The layout determines all bins. -/
theorem ordered_iff (a : Arr 256 ℝ) (x : ℕ → ℝ) : Ordered a (dft 256 x) ↔ ∀ k, k < 256 → binAt a k = dft 256 x k := by
  have hc : ∀ k, 0 < k → k < 256 → dft 256 x (256 - k) = (starRingEnd ℂ) (dft 256 x k) := fun k h1 h2 =>
    dft_conj (by decide) x (by omega)
  constructor
  · rintro ⟨h0, h1, h⟩ k hk
    have lo : ∀ k, 0 < k → k < 128 → (⟨seqOf a (2 * k), seqOf a (2 * k + 1)⟩ : ℂ) = dft 256 x k := by
      intro k k1 k2
      obtain ⟨r, i⟩ := h ⟨k, k2⟩ (fun e => by have := congrArg Fin.val e; dsimp at this; omega)
      rw [seqOf, dif_pos (by omega), seqOf, dif_pos (by omega)]
      exact Complex.ext r i
    rw [binAt]
    split_ifs with e1 e2 e3
    · subst e1
      exact Complex.ext h0 (dft_zero_im _ _).symm
    · subst e2
      exact Complex.ext h1 (dft_half_im (L := 128) (by decide) x).symm
    · exact lo k (by omega) e3
    · have := hc (256 - k) (by omega) (by omega)
      rw [show 256 - (256 - k) = k by omega] at this
      rw [this, ← lo (256 - k) (by omega) (by omega)]
      rfl
  · intro h
    refine ⟨?_, ?_, fun k hk => ?_⟩
    · have := h 0 (by decide)
      rw [binAt, if_pos rfl] at this
      rw [← this]; rfl
    · have := h 128 (by decide)
      rw [binAt, if_neg (by decide), if_pos rfl] at this
      rw [← this]; rfl
    · have hk0 : k.val ≠ 0 := fun e => hk (Fin.ext e)
      have := k.isLt
      have e := h k.val (by omega)
      rw [binAt, if_neg hk0, if_neg (by omega), if_pos (by omega), seqOf, dif_pos (by omega), seqOf, dif_pos (by omega)] at e
      rw [← e]
      exact ⟨rfl, rfl⟩

theorem binAt_zero (a : Arr 256 ℝ) : (starRingEnd ℂ) (binAt a 0) = binAt a 0 := by
  rw [binAt, if_pos rfl]; exact conj_ofReal _

theorem binAt_conj (a : Arr 256 ℝ) {k : ℕ} (h0 : 0 < k) (h1 : k < 256) : binAt a (256 - k) = (starRingEnd ℂ) (binAt a k) := by
  rw [binAt, binAt]
  rcases lt_trichotomy k 128 with h | h | h
  · rw [if_neg (by omega), if_neg (by omega), if_neg (by omega), if_neg (by omega), if_neg (by omega), if_pos h,
      show 256 - (256 - k) = k by omega]
    rfl
  · subst h
    rw [if_neg (by omega), if_pos rfl, conj_ofReal]
  · rw [if_neg (by omega), if_neg (by omega), if_pos (by omega), if_neg (by omega), if_neg (by omega), if_neg (by omega)]
    apply Complex.ext
    · rfl
    · rw [conj_im, neg_neg]

/-- Every array in the ordered layout is the spectrum of a real sequence. -/
theorem ordered_exists (a : Arr 256 ℝ) : ∃ x : ℕ → ℝ, (∀ n, ((256 * x n : ℝ) : ℂ) = invSum 256 (binAt a) n) ∧ Ordered a (dft 256 x) := by
  have hre := invSum_re (N := 256) (Z := binAt a) (by decide) (binAt_zero a) (fun k h0 h1 => binAt_conj a h0 h1)
  obtain ⟨y, hy⟩ : ∃ y : ℕ → ℝ, y = fun n => (invSum 256 (binAt a) n).re := ⟨_, rfl⟩
  have hy' : ∀ n, (y n : ℂ) = invSum 256 (binAt a) n := fun n => by
    rw [hy]; exact conj_eq_iff_re.1 (hre n)
  refine ⟨fun n => 1 / 256 * y n, fun n => ?_, ?_⟩
  · rw [← hy' n]
    congr 1
    ring
  · rw [ordered_iff]
    intro k hk
    rw [dft_smul, dft_inv (by decide) hy' hk]
    push_cast
    ring

theorem outB_inv (a : Arr 256 ℝ) (j : Fin 256) : ((outB a j : ℝ) : ℂ) = invSum 256 (binAt a) j.val := by
  obtain ⟨x, h1, h2⟩ := ordered_exists a
  rw [outB_ordered h2, h1]

theorem outB_dft (a : Arr 256 ℝ) {k : ℕ} (hk : k < 256) : dft 256 (seqOf (outB a)) k = 256 * binAt a k := by
  obtain ⟨x, h1, h2⟩ := ordered_exists a
  have e : ∀ n, n < 256 → seqOf (outB a) n = 256 * x n := fun n hn => by
    rw [seqOf, dif_pos hn, outB_ordered h2]
  rw [dft_congr e, dft_smul, (ordered_iff a x).1 h2 k hk]
  push_cast
  ring

theorem outB_outF (a : Arr 256 ℝ) (j : Fin 256) : outB (outF a) j = 256 * a j := by
  rw [outB_ordered (outF_ordered a), seqOf, dif_pos j.isLt]

theorem outF_outB (a : Arr 256 ℝ) (j : Fin 256) : outF (outB a) j = 256 * a j := by
  obtain ⟨x, h1, h2⟩ := ordered_exists a
  have h3 := outF_ordered (outB a)
  have e : ∀ n, n < 256 → seqOf (outB a) n = 256 * x n := fun n hn => by
    rw [seqOf, dif_pos hn, outB_ordered h2]
  obtain ⟨a0, a1, am⟩ := h2
  obtain ⟨b0, b1, bm⟩ := h3
  have r : ∀ k, (dft 256 (seqOf (outB a)) k).re = 256 * (dft 256 x k).re := fun k => by
    rw [dft_congr e, dft_smul]; simp
  have i : ∀ k, (dft 256 (seqOf (outB a)) k).im = 256 * (dft 256 x k).im := fun k => by
    rw [dft_congr e, dft_smul]; simp
  have hj := j.isLt
  by_cases j0 : j.val = 0
  · obtain rfl : j = 0 := Fin.ext j0
    rw [b0, a0, r]
  by_cases j1 : j.val = 1
  · obtain rfl : j = 1 := Fin.ext j1
    rw [b1, a1, r]
  have hk : (⟨j.val / 2, by omega⟩ : Fin 128) ≠ 0 := fun h => by have := congrArg Fin.val h; dsimp at this; omega
  obtain ⟨c1, c2⟩ := am _ hk
  obtain ⟨d1, d2⟩ := bm _ hk
  rcases Nat.mod_two_eq_zero_or_one j.val with h | h
  · have : j = ⟨2 * (j.val / 2), by omega⟩ := Fin.ext (by dsimp only; omega)
    rw [this, d1, c1, r]
  · have : j = ⟨2 * (j.val / 2) + 1, by omega⟩ := Fin.ext (by dsimp only; omega)
    rw [this, d2, c2, i]

theorem dft_parseval {N : ℕ} (hN : N ≠ 0) (x : ℕ → ℝ) :
    ∑ k ∈ range N, normSq (dft N x k) = N * ∑ n ∈ range N, x n ^ 2 := by
  apply ofReal_injective
  push_cast
  have e : ∀ k, ((normSq (dft N x k) : ℝ) : ℂ) = ∑ n ∈ range N, ∑ l ∈ range N, ((x n : ℂ) * x l) * om N ((N - l + n) * k) := by
    intro k
    rw [← mul_conj, dft, map_sum, sum_mul_sum]
    refine sum_congr rfl fun n hn => sum_congr rfl fun l hl => ?_
    have hl := mem_range.1 hl
    rw [map_mul, conj_ofReal, Nat.mul_comm k l, om_conj_sub hl.le hN, Nat.add_mul, om_add, Nat.mul_comm k n]
    ring
  rw [sum_congr rfl fun k _ => e k, sum_comm, mul_sum]
  refine sum_congr rfl fun n hn => ?_
  have hn := mem_range.1 hn
  rw [sum_comm]
  simp only [← mul_sum, om_sum hN]
  rw [sum_eq_single n]
  · rw [if_pos (by rw [show N - n + n = N by omega, Nat.mod_self])]
    ring
  · intro l hl hne
    have hl := mem_range.1 hl
    rw [if_neg, mul_zero]
    intro h
    rcases Nat.lt_or_ge l n with h1 | h1
    · rw [show N - l + n = (n - l) + N by omega, Nat.add_mod_right, Nat.mod_eq_of_lt (by omega)] at h
      omega
    · rw [Nat.mod_eq_of_lt (by omega)] at h
      omega
  · intro h
    exact absurd (mem_range.2 hn) h

theorem consts0 : IEEE.get (minusHsqt2 : IEEE libm0) = FP.fin true (-11863283 / 16777216) ∧
    IEEE.get (minusSqrt2 : IEEE libm0) = FP.fin true (-11863283 / 8388608) := by decide +kernel

/-! ## The unvoiced block -/

theorem dft_normalized (E : Env ℝ) (hE : Runs E) (X : Arr 256 ℝ) {k : ℕ} (hk : k < 256) :
    dft 256 (seqOf fun i => E.bwd X i *ᶠ (lit 1 1 /ᶠ ofInt 256)) k = binAt X k := by
  have e : ∀ n, n < 256 → seqOf (fun i => E.bwd X i *ᶠ (lit 1 1 /ᶠ ofInt 256)) n = 1 / 256 * seqOf (outB X) n := fun n hn => by
    rw [seqOf, dif_pos hn, seqOf, dif_pos hn, (runs_eq hE).2, RealArith.lit_r _ _ (by decide), RealArith.mul_r, RealArith.div_r, RealArith.ofInt_r]
    push_cast
    ring
  rw [dft_congr e, dft_smul, outB_dft X hk]
  push_cast
  ring

theorem binAt_scale (A : Arr 256 ℝ) (S : Fin 129 → ℝ) (k : Fin 129) :
    binAt (fun i => A i *ᶠ S ⟨binOf i.val, binOf_lt i⟩) k.val = (S k : ℂ) * binAt A k.val := by
  have hk := k.isLt
  have sq : ∀ (n : ℕ) (hn : n < 256), seqOf (fun i => A i *ᶠ S ⟨binOf i.val, binOf_lt i⟩) n = seqOf A n * S ⟨binOf n, binOf_lt ⟨n, hn⟩⟩ := fun n hn => by
    rw [seqOf, dif_pos hn, seqOf, dif_pos hn]; rfl
  rw [binAt, binAt]
  by_cases e0 : k.val = 0
  · rw [if_pos e0, if_pos e0, show k = ⟨0, by omega⟩ from Fin.ext e0]
    rw [← ofReal_mul, RealArith.mul_r, mul_comm]
    rfl
  by_cases e1 : k.val = 128
  · rw [if_neg e0, if_neg e0, if_pos e1, if_pos e1, show k = ⟨128, by omega⟩ from Fin.ext e1]
    rw [← ofReal_mul, RealArith.mul_r, mul_comm]
    rfl
  · rw [if_neg e0, if_neg e0, if_neg e1, if_neg e1, if_pos (by omega), if_pos (by omega), sq _ (by omega), sq _ (by omega)]
    have b1 : (⟨binOf (2 * k.val), binOf_lt ⟨2 * k.val, by omega⟩⟩ : Fin 129) = k := by
      apply Fin.ext
      dsimp only [binOf]
      rw [if_neg (by omega), if_neg (by omega)]
      omega
    have b2 : (⟨binOf (2 * k.val + 1), binOf_lt ⟨2 * k.val + 1, by omega⟩⟩ : Fin 129) = k := by
      apply Fin.ext
      dsimp only [binOf]
      rw [if_neg (by omega), if_neg (by omega)]
      omega
    rw [b1, b2]
    apply Complex.ext
    · simp [mul_comm]
    · simp [mul_comm]

theorem dft_scaled (E : Env ℝ) (hE : Runs E) (a : Arr 256 ℝ) (S : Fin 129 → ℝ) (k : Fin 129) :
    dft 256 (seqOf fun i => E.bwd (fun i => E.fwd a i *ᶠ S ⟨binOf i.val, binOf_lt i⟩) i *ᶠ (lit 1 1 /ᶠ ofInt 256)) k.val =
      (S k : ℂ) * dft 256 (seqOf a) k.val := by
  have hk := k.isLt
  rw [dft_normalized E hE _ (by omega), binAt_scale, (runs_eq hE).1, (ordered_iff _ _).1 (outF_ordered a) k.val (by omega)]

theorem binPower_normSq (A : Arr 256 ℝ) {k : ℕ} (hk : k < 128) : binPower A k = normSq (binAt A k) := by
  have rd : ∀ (n : ℕ), n < 256 → readOr A (n : Int) = seqOf A n := fun n hn => by
    rw [readOr_nat A hn, seqOf, dif_pos hn]
  rw [binPower, binAt]
  by_cases h0 : k = 0
  · rw [if_pos h0, if_pos h0, normSq_ofReal]
    rfl
  · rw [if_neg h0, if_neg h0, if_neg (by omega), if_neg (by omega), if_pos hk]
    have e1 : (2 * (k : Int)) = ((2 * k : ℕ) : Int) := by push_cast; rfl
    have e2 : (2 * (k : Int) + 1) = ((2 * k + 1 : ℕ) : Int) := by push_cast; rfl
    rw [e2, e1, rd _ (by omega), rd _ (by omega), normSq_mk]
    rfl

theorem bandPower_bins (A : Arr 256 ℝ) {lo hi : ℕ} (hh : hi ≤ 128) :
    bandPower A lo hi = ∑ k ∈ Finset.Ico lo hi, normSq (binAt A k) := by
  have e : ((hi : Int) - (lo : Int)).toNat = hi - lo := by omega
  rw [bandPower, e, Finset.sum_Ico_eq_sum_range]
  have key : ∀ n, n ≤ hi - lo → (List.range n).foldl (fun s i => s +ᶠ binPower A ((lo : Int).toNat + i)) (lit 0 1 : ℝ) =
      ∑ i ∈ range n, normSq (binAt A (lo + i)) := by
    intro n hn
    induction n with
    | zero => rw [List.range_zero, List.foldl_nil, RealArith.lit_r _ _ (by decide), sum_range_zero]; norm_num
    | succ n ih =>
      rw [List.range_succ, List.foldl_append, ih (by omega), sum_range_succ, List.foldl_cons, List.foldl_nil, Int.toNat_natCast,
        binPower_normSq A (by omega), RealArith.add_r]
  exact key _ le_rfl

end Verif.Model
