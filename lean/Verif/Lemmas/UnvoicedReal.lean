import Verif.Lemmas.UnvoicedNum

/-!
# Unvoiced synthesis in exact arithmetic
-/

namespace Verif.Model
open Verif Verif.Gen Verif.Spec Verif.Num Arith

/-- Over the reals the band edges are `⌈(l ∓ 1/2)·u⌉`, `u = 256 w0 / 2π`, clamped. -/
theorem edges_real {w : ℝ} (hw : 0 ≤ w) {l : Nat} (hl : 1 ≤ l) {lo hi : Int} (h : Edges w l lo hi) :
    lo = ⌈((l : ℝ) - 1 / 2) * (256 / (2 * Real.pi) * w)⌉ ∧ hi = min 128 ⌈((l : ℝ) + 1 / 2) * (256 / (2 * Real.pi) * w)⌉ := by
  obtain ⟨a, b, ha, hb, rfl, rfl⟩ := h
  have hm : binMultiplier w = 256 / (2 * Real.pi) * w := by
    unfold binMultiplier
    rw [show (lit 314159265358979323846 100000000000000000000 : ℝ) = Real.pi from RealArith.fpi_r,
      RealArith.lit_r _ _ (by decide), RealArith.lit_r _ _ (by decide)]
    show (((256 : Int) : ℝ) / ((1 : Nat) : ℝ)) / (((2 : Int) : ℝ) / ((1 : Nat) : ℝ) * Real.pi) * w = _
    norm_num
  have key : ∀ (x : ℝ) (c : Int), 0 ≤ x → toI32 (Arith.ceil x) = .ok c → c = ⌈x⌉ := by
    intro x c hx h
    have h0 : (0 : ℝ) ≤ (⌈x⌉ : ℝ) := by exact_mod_cast Int.ceil_nonneg hx
    unfold toI32 at h
    rw [RealArith.ceil_r, RealArith.trunc_nonneg h0, Int.floor_intCast] at h
    dsimp only at h
    split at h
    · exact (ok_inj h).symm
    · cases h
  have hh : (lit 5 10 : ℝ) = 1 / 2 := by
    rw [RealArith.lit_r _ _ (by decide)]
    norm_num
  have hu : 0 ≤ 256 / (2 * Real.pi) * w := mul_nonneg (div_nonneg (by norm_num) (by positivity)) hw
  have hl' : (1 : ℝ) ≤ l := by exact_mod_cast hl
  rw [hm, hh] at ha hb
  have e1 : ((ofInt (l : Int) : ℝ) -ᶠ 1 / 2) *ᶠ (256 / (2 * Real.pi) * w) = ((l : ℝ) - 1 / 2) * (256 / (2 * Real.pi) * w) := by
    show (((l : Int) : ℝ) - 1 / 2) * _ = _
    rw [Int.cast_natCast]
  have e2 : ((ofInt (l : Int) : ℝ) +ᶠ 1 / 2) *ᶠ (256 / (2 * Real.pi) * w) = ((l : ℝ) + 1 / 2) * (256 / (2 * Real.pi) * w) := by
    show (((l : Int) : ℝ) + 1 / 2) * _ = _
    rw [Int.cast_natCast]
  rw [e1] at ha
  rw [e2] at hb
  have n1 : 0 ≤ ((l : ℝ) - 1 / 2) * (256 / (2 * Real.pi) * w) := mul_nonneg (by linarith) hu
  rw [key _ a n1 ha, key _ b (mul_nonneg (by linarith) hu) hb]
  exact ⟨max_eq_right (Int.ceil_nonneg n1), rfl⟩

/-- Bands of lower number end before bands of higher number start. -/
theorem edges_real_disjoint {w : ℝ} (hw : 0 ≤ w) {l l' : Nat} (hl : 1 ≤ l) (hll : l < l') {lo hi lo' hi' : Int}
    (h : Edges w l lo hi) (h' : Edges w l' lo' hi') : hi ≤ lo' := by
  rw [(edges_real hw hl h).2, (edges_real hw (by omega) h').1]
  refine le_trans (min_le_right _ _) (Int.ceil_mono (mul_le_mul_of_nonneg_right ?_
    (mul_nonneg (div_nonneg (by norm_num) (by positivity)) hw)))
  have : (l : ℝ) + 1 ≤ l' := by exact_mod_cast hll
  linarith

theorem readOr_nat {F : Type} [Arith F] (a : Arr 256 F) {i : Nat} (h : i < 256) : readOr a (i : Int) = a ⟨i, h⟩ := by
  unfold readOr
  rw [dif_pos ⟨by omega, by omega⟩]
  rfl

/-- Scaling the two parts of a bin scales its power by the square. -/
theorem binPower_scale (fft : Arr 256 ℝ) (S : Arr 129 ℝ) {k : Nat} (hk : k < 128) :
    binPower (fun i => fft i *ᶠ S ⟨binOf i.val, binOf_lt i⟩) k = S ⟨k, by omega⟩ ^ 2 * binPower fft k := by
  have hb : ∀ (i : Nat) (hi : i < 256), binOf i = k → fft ⟨i, hi⟩ *ᶠ S ⟨binOf (⟨i, hi⟩ : Fin 256).val, binOf_lt ⟨i, hi⟩⟩ =
      fft ⟨i, hi⟩ * S ⟨k, by omega⟩ := by
    intro i hi e
    have : (⟨binOf i, binOf_lt ⟨i, hi⟩⟩ : Fin 129) = ⟨k, by omega⟩ := Fin.ext e
    show fft ⟨i, hi⟩ * S ⟨binOf i, binOf_lt ⟨i, hi⟩⟩ = _
    rw [this]
  unfold binPower
  by_cases h0 : k = 0
  · subst h0
    rw [if_pos rfl, if_pos rfl, show (0 : Int) = ((0 : Nat) : Int) from rfl, readOr_nat _ (show 0 < 256 by omega),
      readOr_nat _ (show 0 < 256 by omega), hb 0 (by omega) rfl]
    show _ * _ = _ * (_ * _)
    ring
  · rw [if_neg h0, if_neg h0, if_neg (by omega), if_neg (by omega),
      show (2 * (k : Int)) = ((2 * k : Nat) : Int) by push_cast; rfl,
      show (((2 * k : Nat) : Int) + 1) = ((2 * k + 1 : Nat) : Int) by push_cast; rfl,
      readOr_nat _ (show 2 * k < 256 by omega), readOr_nat _ (show 2 * k < 256 by omega),
      readOr_nat _ (show 2 * k + 1 < 256 by omega), readOr_nat _ (show 2 * k + 1 < 256 by omega),
      hb (2 * k) (by omega) (by unfold binOf; rw [if_neg (by omega), if_neg (by omega)]; omega),
      hb (2 * k + 1) (by omega) (by unfold binOf; rw [if_neg (by omega), if_neg (by omega)]; omega)]
    show _ * _ + _ * _ = _ * (_ * _ + _ * _)
    ring

theorem bandPower_scale (fft : Arr 256 ℝ) (S : Arr 129 ℝ) {a b : Int} (ha : 0 ≤ a) (hb : b ≤ 128) (v : ℝ)
    (h : ∀ k : Fin 129, a ≤ k.val → (k.val : Int) < b → S k = v) :
    bandPower (fun i => fft i *ᶠ S ⟨binOf i.val, binOf_lt i⟩) a b = v ^ 2 * bandPower fft a b := by
  unfold bandPower
  have key : ∀ n : Nat, (n : Int) ≤ b - a → (List.range n).foldl
      (fun s i => s +ᶠ binPower (fun i => fft i *ᶠ S ⟨binOf i.val, binOf_lt i⟩) (a.toNat + i)) (lit 0 1) =
      v ^ 2 * (List.range n).foldl (fun s i => s +ᶠ binPower fft (a.toNat + i)) (lit 0 1 : ℝ) := by
    intro n
    induction n with
    | zero =>
      intro _
      rw [List.range_zero, List.foldl_nil, List.foldl_nil, RealArith.lit_r _ _ (by decide)]
      simp
    | succ n ih =>
      intro hn
      rw [List.range_succ, List.foldl_append, List.foldl_append, ih (by omega)]
      have hk : a.toNat + n < 128 := by omega
      show v ^ 2 * _ + binPower _ (a.toNat + n) = v ^ 2 * (_ + binPower fft (a.toNat + n))
      rw [binPower_scale fft S hk, h ⟨a.toNat + n, by omega⟩ (by dsimp only; omega) (by dsimp only; omega)]
      ring
  by_cases h' : b ≤ a
  · rw [show (b - a).toNat = 0 by omega]
    rw [List.range_zero, List.foldl_nil, List.foldl_nil, RealArith.lit_r _ _ (by decide)]
    simp
  · exact key _ (by omega)

end Verif.Model
