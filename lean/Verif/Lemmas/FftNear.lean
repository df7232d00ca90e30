import Verif.Lemmas.FinFft
import Verif.Lemmas.FftDft
import Verif.Lemmas.ToneWave

/-!
# The transforms in binary32 against the exact transforms
-/

namespace Verif.Model
open Verif Verif.Gen Verif.Spec Verif.Num Arith
variable {m : Libm}

/-- The number `x` is within `e` of `y`, which is at most `B`. -/
def Near (e B : ℝ) (x : IEEE m) (y : ℝ) : Prop := ∃ q : ℚ, Val x q ∧ |(q : ℝ) - y| ≤ e ∧ |y| ≤ B

theorem Near.mono {e e' B B' : ℝ} {x : IEEE m} {y : ℝ} (h : Near e B x y) (he : e ≤ e') (hB : B ≤ B') : Near e' B' x y := by
  obtain ⟨q, v, h1, h2⟩ := h
  exact ⟨q, v, h1.trans he, h2.trans hB⟩

theorem rnd32_near (q : ℚ) : |((rnd F32 q : ℚ) : ℝ) - q| ≤ |(q : ℝ)| / 16777216 + 1 / 2 ^ 150 := by
  have h := rnd32_err q
  have e1 : pow2 (-24) = 1 / 16777216 := by rw [pow2_eq]; norm_num
  have e2 : pow2 (-150) = 1 / 2 ^ 150 := by rw [pow2_eq]; norm_num
  rw [e1, e2] at h
  have : ((|rnd F32 q - q| : ℚ) : ℝ) ≤ ((1 / 16777216 * |q| + 1 / 2 ^ 150 : ℚ) : ℝ) := by exact_mod_cast h
  push_cast at this
  linarith

theorem big_real {q : ℚ} {b : ℝ} (h : |(q : ℝ)| ≤ b) (hb : b ≤ 2 ^ 126) : |q| ≤ Val.big := by
  rw [Val.big_eq]
  have : ((|q| : ℚ) : ℝ) ≤ ((2 ^ 127 : ℚ) : ℝ) := by
    push_cast
    exact h.trans (hb.trans (by norm_num))
  exact_mod_cast this

theorem near_op {e0 e B : ℝ} {q : ℚ} {y : ℝ} (h : |(q : ℝ) - y| ≤ e0) (hy : |y| ≤ B) (he : e0 + (B + e0) / 16777216 + 1 / 2 ^ 150 ≤ e) :
    |((rnd F32 q : ℚ) : ℝ) - y| ≤ e := by
  have h1 := rnd32_near q
  have h2 : |(q : ℝ)| ≤ B + e0 := by
    have := abs_sub_abs_le_abs_sub (q : ℝ) y
    linarith
  have h3 := abs_sub_le ((rnd F32 q : ℚ) : ℝ) (q : ℝ) y
  have : |(q : ℝ)| / 16777216 ≤ (B + e0) / 16777216 := by linarith
  linarith

section
variable {e1 e2 e B1 B2 B : ℝ} {x x' : IEEE m} {y y' : ℝ}

theorem Near.add (h : Near e1 B1 x y) (h' : Near e2 B2 x' y') (hB : B1 + B2 ≤ B)
    (he : e1 + e2 + (B + (e1 + e2)) / 16777216 + 1 / 2 ^ 150 ≤ e) (hb : B + (e1 + e2) ≤ 2 ^ 126) : Near e B (x +ᶠ x' : IEEE m) (y +ᶠ y' : ℝ) := by
  obtain ⟨q, v, a1, a2⟩ := h
  obtain ⟨q', v', b1, b2⟩ := h'
  rw [RealArith.add_r]
  have k1 : |((q + q' : ℚ) : ℝ) - (y + y')| ≤ e1 + e2 := by
    rw [show ((q + q' : ℚ) : ℝ) - (y + y') = (q - y) + (q' - y') by push_cast; ring]
    exact (abs_add_le _ _).trans (by linarith)
  have k2 : |y + y'| ≤ B := (abs_add_le _ _).trans (by linarith)
  have k3 : |((q + q' : ℚ) : ℝ)| ≤ B + (e1 + e2) := by
    have := abs_sub_abs_le_abs_sub ((q + q' : ℚ) : ℝ) (y + y')
    linarith
  exact ⟨_, v.add v' (big_real k3 hb), near_op k1 k2 he, k2⟩

theorem Near.sub (h : Near e1 B1 x y) (h' : Near e2 B2 x' y') (hB : B1 + B2 ≤ B)
    (he : e1 + e2 + (B + (e1 + e2)) / 16777216 + 1 / 2 ^ 150 ≤ e) (hb : B + (e1 + e2) ≤ 2 ^ 126) : Near e B (x -ᶠ x' : IEEE m) (y -ᶠ y' : ℝ) := by
  obtain ⟨q, v, a1, a2⟩ := h
  obtain ⟨q', v', b1, b2⟩ := h'
  rw [RealArith.sub_r]
  have k1 : |((q - q' : ℚ) : ℝ) - (y - y')| ≤ e1 + e2 := by
    rw [show ((q - q' : ℚ) : ℝ) - (y - y') = (q - y) - (q' - y') by push_cast; ring]
    exact (abs_sub _ _).trans (by linarith)
  have k2 : |y - y'| ≤ B := (abs_sub _ _).trans (by linarith)
  have k3 : |((q - q' : ℚ) : ℝ)| ≤ B + (e1 + e2) := by
    have := abs_sub_abs_le_abs_sub ((q - q' : ℚ) : ℝ) (y - y')
    linarith
  exact ⟨_, v.sub v' (big_real k3 hb), near_op k1 k2 he, k2⟩

theorem Near.mul (h : Near e1 B1 x y) (h' : Near e2 B2 x' y') (hB : B1 * B2 ≤ B)
    (he : e1 * (B2 + e2) + B1 * e2 + (B + (e1 * (B2 + e2) + B1 * e2)) / 16777216 + 1 / 2 ^ 150 ≤ e)
    (hb : B + (e1 * (B2 + e2) + B1 * e2) ≤ 2 ^ 126) : Near e B (x *ᶠ x' : IEEE m) (y *ᶠ y' : ℝ) := by
  obtain ⟨q, v, a1, a2⟩ := h
  obtain ⟨q', v', b1, b2⟩ := h'
  rw [RealArith.mul_r]
  have k0 : |(q' : ℝ)| ≤ B2 + e2 := by
    have := abs_sub_abs_le_abs_sub (q' : ℝ) y'
    linarith
  have k1 : |((q * q' : ℚ) : ℝ) - y * y'| ≤ e1 * (B2 + e2) + B1 * e2 := by
    rw [show ((q * q' : ℚ) : ℝ) - y * y' = (q - y) * q' + y * (q' - y') by push_cast; ring]
    refine (abs_add_le _ _).trans (add_le_add ?_ ?_)
    · rw [abs_mul]; exact mul_le_mul a1 k0 (abs_nonneg _) ((abs_nonneg _).trans a1)
    · rw [abs_mul]; exact mul_le_mul a2 b1 (abs_nonneg _) ((abs_nonneg _).trans a2)
  have k2 : |y * y'| ≤ B := by
    rw [abs_mul]
    exact (mul_le_mul a2 b2 (abs_nonneg _) ((abs_nonneg _).trans a2)).trans hB
  have k3 : |((q * q' : ℚ) : ℝ)| ≤ B + (e1 * (B2 + e2) + B1 * e2) := by
    have := abs_sub_abs_le_abs_sub ((q * q' : ℚ) : ℝ) (y * y')
    linarith
  exact ⟨_, v.mul v' (big_real k3 hb), near_op k1 k2 he, k2⟩
end

/-! ## Lists of stores -/

/-- Two lists of stores to the same subscripts with values close to each other. -/
def LNear (e B : ℝ) : List (Int × IEEE m) → List (Int × ℝ) → Prop := List.Forall₂ fun p p' => p.1 = p'.1 ∧ Near e B p.2 p'.2

theorem LNear.mono {e e' B B' : ℝ} {W : List (Int × IEEE m)} {W' : List (Int × ℝ)} (h : LNear e B W W') (he : e ≤ e') (hB : B ≤ B') :
    LNear e' B' W W' := List.Forall₂.imp (fun _ _ k => ⟨k.1, k.2.mono he hB⟩) h

theorem LNear.append {e B : ℝ} {a b : List (Int × IEEE m)} {a' b' : List (Int × ℝ)} (h : LNear e B a a') (h' : LNear e B b b') :
    LNear e B (a ++ b) (a' ++ b') := List.rel_append h h'

theorem LNear.flatMap {α : Type} {e B : ℝ} (l : List α) {f : α → List (Int × IEEE m)} {f' : α → List (Int × ℝ)}
    (h : ∀ a ∈ l, LNear e B (f a) (f' a)) : LNear e B (l.flatMap f) (l.flatMap f') := by
  induction l with
  | nil => exact .nil
  | cons a l ih =>
    rw [List.flatMap_cons, List.flatMap_cons]
    exact (h a (.head _)).append (ih fun b hb => h b (.tail _ hb))

theorem LNear.valAt {e B : ℝ} (he : 0 ≤ e) (hB : 0 ≤ B) {W : List (Int × IEEE m)} {W' : List (Int × ℝ)} (h : LNear e B W W') (a : Int) :
    Near e B (valAt (α := IEEE m) (fi 0) W a) (valAt (α := ℝ) (fi 0) W' a) := by
  have key : ∀ {W : List (Int × IEEE m)} {W' : List (Int × ℝ)}, LNear e B W W' →
      (W.find? (fun p => p.1 == a) = none ∧ W'.find? (fun p => p.1 == a) = none) ∨
      ∃ p p', W.find? (fun p => p.1 == a) = some p ∧ W'.find? (fun p => p.1 == a) = some p' ∧ Near e B p.2 p'.2 := by
    intro W W' h
    induction h with
    | nil => exact .inl ⟨rfl, rfl⟩
    | @cons p p' l l' h1 h2 ih =>
      rw [List.find?_cons, List.find?_cons, ← h1.1]
      cases p.1 == a with
      | true => exact .inr ⟨p, p', rfl, rfl, h1.2⟩
      | false => exact ih
  unfold Model.valAt
  rcases key h with ⟨h1, h2⟩ | ⟨p, p', h1, h2, h3⟩
  · rw [h1, h2]
    refine ⟨0, ⟨false, rfl⟩, ?_, ?_⟩
    · show |((0 : ℚ) : ℝ) - ((0 : Int) : ℝ)| ≤ e
      simpa using he
    · show |((0 : Int) : ℝ)| ≤ B
      simpa using hB
  · rw [h1, h2]
    exact h3

/-! ## The passes -/

theorem tiny_le {B : ℝ} (hB : 1 / 2 ^ 100 ≤ B) : (1 : ℝ) / 2 ^ 150 ≤ B / 2 ^ 50 := by
  have : (1 : ℝ) / 2 ^ 150 = 1 / 2 ^ 100 / 2 ^ 50 := by norm_num
  rw [this]
  exact div_le_div_of_nonneg_right hB (by positivity)

theorem hsqt2_near : Near (1 / 2 ^ 24) (3 / 4) (minusHsqt2 : IEEE m) (minusHsqt2 : ℝ) := by
  have h2 : Real.sqrt 2 * Real.sqrt 2 = 2 := Real.mul_self_sqrt (by norm_num)
  have h0 := Real.sqrt_nonneg 2
  have lo : 23726565 / 16777216 < Real.sqrt 2 := by
    by_contra hc
    nlinarith [not_lt.1 hc]
  have hi : Real.sqrt 2 < 23726567 / 16777216 := by
    by_contra hc
    nlinarith [not_lt.1 hc]
  refine ⟨-11863283 / 16777216, ⟨_, consts0.1⟩, ?_, ?_⟩
  · rw [minusHsqt2_r, abs_le]
    push_cast
    constructor <;> linarith
  · rw [minusHsqt2_r, abs_le]
    constructor <;> linarith

theorem sqrt2_near : Near (1 / 2 ^ 23) (3 / 2) (minusSqrt2 : IEEE m) (minusSqrt2 : ℝ) := by
  have h2 : Real.sqrt 2 * Real.sqrt 2 = 2 := Real.mul_self_sqrt (by norm_num)
  have h0 := Real.sqrt_nonneg 2
  have lo : 23726565 / 16777216 < Real.sqrt 2 := by
    by_contra hc
    nlinarith [not_lt.1 hc]
  have hi : Real.sqrt 2 < 23726567 / 16777216 := by
    by_contra hc
    nlinarith [not_lt.1 hc]
  refine ⟨-11863283 / 8388608, ⟨_, consts0.2⟩, ?_, ?_⟩
  · rw [minusSqrt2_r, abs_le]
    push_cast
    constructor <;> linarith
  · rw [minusSqrt2_r, abs_le]
    constructor <;> linarith

theorem fi2_near : Near 0 2 (fi 2 : IEEE m) (fi 2 : ℝ) := by
  have h : bndB (fi 2 : IEEE libm0) 2 = true := by decide +kernel
  refine ⟨2, Val.ofInt (n := 2) (by norm_num), ?_, ?_⟩
  · show |((2 : ℚ) : ℝ) - ((2 : Int) : ℝ)| ≤ 0
    norm_num
  · show |((2 : Int) : ℝ)| ≤ 2
    norm_num

section
variable {e B : ℝ} (h0 : 0 ≤ e) (hB : 1 / 2 ^ 100 ≤ B) (hb : 100 * (B + e) ≤ 2 ^ 126)

include h0 hB hb

/-- One product with a part of a twiddle factor. -/
theorem twProd_near {x w : IEEE m} {y v : ℝ} (hx : Near e B x y) (hw : Near (1 / 1048576) 1 w v) :
    Near (1001 / 1000 * e + 107 / 100 / 1048576 * B) B (x *ᶠ w : IEEE m) (y *ᶠ v : ℝ) := by
  have ht := tiny_le hB
  exact hx.mul hw (by linarith) (by linarith) (by linarith)

theorem mulConj_near {ar ai br bi : IEEE m} {ar' ai' br' bi' : ℝ} (har : Near e B ar ar') (hai : Near e B ai ai')
    (hbr : Near (1 / 1048576) 1 br br') (hbi : Near (1 / 1048576) 1 bi bi') :
    Near (2003 / 1000 * e + 227 / 100 / 1048576 * B) (2 * B) (mulConj ar ai br bi).1 (mulConj ar' ai' br' bi').1 ∧
    Near (2003 / 1000 * e + 227 / 100 / 1048576 * B) (2 * B) (mulConj ar ai br bi).2 (mulConj ar' ai' br' bi').2 := by
  have ht := tiny_le hB
  have k := @twProd_near m e B h0 hB hb
  exact ⟨(k har hbr).add (k hai hbi) (by linarith) (by linarith) (by linarith), (k hai hbr).sub (k har hbi) (by linarith) (by linarith) (by linarith)⟩

theorem mulCplx_near {ar ai br bi : IEEE m} {ar' ai' br' bi' : ℝ} (har : Near e B ar ar') (hai : Near e B ai ai')
    (hbr : Near (1 / 1048576) 1 br br') (hbi : Near (1 / 1048576) 1 bi bi') :
    Near (2003 / 1000 * e + 227 / 100 / 1048576 * B) (2 * B) (mulCplx ar ai br bi).1 (mulCplx ar' ai' br' bi').1 ∧
    Near (2003 / 1000 * e + 227 / 100 / 1048576 * B) (2 * B) (mulCplx ar ai br bi).2 (mulCplx ar' ai' br' bi').2 := by
  have ht := tiny_le hB
  have k := @twProd_near m e B h0 hB hb
  exact ⟨(k har hbr).sub (k hai hbi) (by linarith) (by linarith) (by linarith), (k hai hbr).add (k har hbi) (by linarith) (by linarith) (by linarith)⟩

variable {c w : Int → IEEE m} {d v : Int → ℝ} (hc : ∀ i, Near e B (c i) (d i)) (hw : ∀ i, Near (1 / 1048576) 1 (w i) (v i))
include hc

theorem addC_near (i j : Int) : Near (2001 / 1000 * e + 1 / 7 / 1048576 * B) (2 * B) (c i +ᶠ c j : IEEE m) (d i +ᶠ d j : ℝ) := by
  have ht := tiny_le hB
  exact (hc i).add (hc j) (by linarith) (by linarith) (by linarith)

theorem subC_near (i j : Int) : Near (2001 / 1000 * e + 1 / 7 / 1048576 * B) (2 * B) (c i -ᶠ c j : IEEE m) (d i -ᶠ d j : ℝ) := by
  have ht := tiny_le hB
  exact (hc i).sub (hc j) (by linarith) (by linarith) (by linarith)

theorem endsF_near (ido q c0 g0 : Int) : LNear (41 / 10 * e + 1 / 1048576 * B) (4 * B) (endsF ido q c c0 g0) (endsF ido q d c0 g0) := by
  have ht := tiny_le hB
  have s := addC_near h0 hB hb hc
  have t := subC_near h0 hB hb hc
  unfold endsF
  refine .cons ⟨rfl, (t _ _).mono (by linarith) (by linarith)⟩ <| .cons ⟨rfl, (t _ _).mono (by linarith) (by linarith)⟩ <|
    .cons ⟨rfl, (s _ _).add (s _ _) (by linarith) (by linarith) (by linarith)⟩ <| .cons ⟨rfl, (s _ _).sub (s _ _) (by linarith) (by linarith) (by linarith)⟩ .nil

theorem endsB_near (ido q c0 g0 : Int) : LNear (41 / 10 * e + 1 / 1048576 * B) (4 * B) (endsB ido q c c0 g0) (endsB ido q d c0 g0) := by
  have ht := tiny_le hB
  have s := addC_near h0 hB hb hc
  have t := subC_near h0 hB hb hc
  have w : ∀ i, Near (2001 / 1000 * e + 1 / 7 / 1048576 * B) (2 * B) (fi 2 *ᶠ c i : IEEE m) (fi 2 *ᶠ d i : ℝ) := fun i =>
    fi2_near.mul (hc i) (by linarith) (by linarith) (by linarith)
  unfold endsB
  refine .cons ⟨rfl, (s _ _).add (w _) (by linarith) (by linarith) (by linarith)⟩ <| .cons ⟨rfl, (s _ _).sub (w _) (by linarith) (by linarith) (by linarith)⟩ <|
    .cons ⟨rfl, (t _ _).sub (w _) (by linarith) (by linarith) (by linarith)⟩ <| .cons ⟨rfl, (t _ _).add (w _) (by linarith) (by linarith) (by linarith)⟩ .nil

theorem halfF_near (ido q k : Int) : LNear (71 / 10 * e + 8 / 1048576 * B) (7 * B) (halfF ido q c k) (halfF ido q d k) := by
  have ht := tiny_le hB
  have s := addC_near h0 hB hb hc
  have t := subC_near h0 hB hb hc
  have w : ∀ {x : IEEE m} {y : ℝ}, Near (2001 / 1000 * e + 1 / 7 / 1048576 * B) (2 * B) x y →
      Near (2 * e + 1 / 1048576 * B) (2 * B) (minusHsqt2 *ᶠ x : IEEE m) (minusHsqt2 *ᶠ y : ℝ) := fun h => hsqt2_near.mul h (by linarith) (by linarith) (by linarith)
  unfold halfF
  refine .cons ⟨rfl, (w (t _ _)).add (hc _) (by linarith) (by linarith) (by linarith)⟩ <| .cons ⟨rfl, (hc _).sub (w (t _ _)) (by linarith) (by linarith) (by linarith)⟩ <|
    .cons ⟨rfl, (w (s _ _)).sub (hc _) (by linarith) (by linarith) (by linarith)⟩ <| .cons ⟨rfl, (w (s _ _)).add (hc _) (by linarith) (by linarith) (by linarith)⟩ .nil

theorem halfB_near (ido q k : Int) : LNear (81 / 10 * e + 11 / 1048576 * B) (8 * B) (halfB ido q c k) (halfB ido q d k) := by
  have ht := tiny_le hB
  have s := addC_near h0 hB hb hc
  have t := subC_near h0 hB hb hc
  have w : ∀ {x : IEEE m} {y : ℝ}, Near (401 / 100 * e + 1 / 1048576 * B) (4 * B) x y →
      Near (81 / 10 * e + 11 / 1048576 * B) (8 * B) (minusSqrt2 *ᶠ x : IEEE m) (minusSqrt2 *ᶠ y : ℝ) := fun h => sqrt2_near.mul h (by linarith) (by linarith) (by linarith)
  have ss : ∀ {x x' : IEEE m} {y y' : ℝ}, Near (2001 / 1000 * e + 1 / 7 / 1048576 * B) (2 * B) x y →
      Near (2001 / 1000 * e + 1 / 7 / 1048576 * B) (2 * B) x' y' →
      Near (401 / 100 * e + 1 / 1048576 * B) (4 * B) (x +ᶠ x' : IEEE m) (y +ᶠ y' : ℝ) := fun h h' => h.add h' (by linarith) (by linarith) (by linarith)
  have dd : ∀ {x x' : IEEE m} {y y' : ℝ}, Near (2001 / 1000 * e + 1 / 7 / 1048576 * B) (2 * B) x y →
      Near (2001 / 1000 * e + 1 / 7 / 1048576 * B) (2 * B) x' y' →
      Near (401 / 100 * e + 1 / 1048576 * B) (4 * B) (x -ᶠ x' : IEEE m) (y -ᶠ y' : ℝ) := fun h h' => h.sub h' (by linarith) (by linarith) (by linarith)
  unfold halfB
  refine .cons ⟨rfl, (ss (s _ _) (s _ _)).mono (by linarith) (by linarith)⟩ <| .cons ⟨rfl, w (dd (s _ _) (t _ _))⟩ <|
    .cons ⟨rfl, (ss (t _ _) (t _ _)).mono (by linarith) (by linarith)⟩ <| .cons ⟨rfl, w (ss (s _ _) (t _ _))⟩ .nil

include hw

theorem midF_near (ido q w1 w2 w3 k i p : Int) :
    LNear (71 / 10 * e + 8 / 1048576 * B) (7 * B) (midF ido q c w w1 w2 w3 k i p) (midF ido q d v w1 w2 w3 k i p) := by
  have ht := tiny_le hB
  have t : ∀ a j, Near (2003 / 1000 * e + 227 / 100 / 1048576 * B) (2 * B) (twF q c w a i p j).1 (twF q d v a i p j).1 ∧
      Near (2003 / 1000 * e + 227 / 100 / 1048576 * B) (2 * B) (twF q c w a i p j).2 (twF q d v a i p j).2 := fun a j =>
    mulConj_near h0 hB hb (hc _) (hc _) (hw _) (hw _)
  have ss : ∀ {x x' : IEEE m} {y y' : ℝ}, Near (2003 / 1000 * e + 227 / 100 / 1048576 * B) (2 * B) x y →
      Near (2003 / 1000 * e + 227 / 100 / 1048576 * B) (2 * B) x' y' →
      Near (401 / 100 * e + 48 / 10 / 1048576 * B) (4 * B) (x +ᶠ x' : IEEE m) (y +ᶠ y' : ℝ) := fun h h' => h.add h' (by linarith) (by linarith) (by linarith)
  have dd : ∀ {x x' : IEEE m} {y y' : ℝ}, Near (2003 / 1000 * e + 227 / 100 / 1048576 * B) (2 * B) x y →
      Near (2003 / 1000 * e + 227 / 100 / 1048576 * B) (2 * B) x' y' →
      Near (401 / 100 * e + 48 / 10 / 1048576 * B) (4 * B) (x -ᶠ x' : IEEE m) (y -ᶠ y' : ℝ) := fun h h' => h.sub h' (by linarith) (by linarith) (by linarith)
  have cs : ∀ {x : IEEE m} {y : ℝ} (j : Int), Near (2003 / 1000 * e + 227 / 100 / 1048576 * B) (2 * B) x y →
      Near (301 / 100 * e + 25 / 10 / 1048576 * B) (3 * B) (c j +ᶠ x : IEEE m) (d j +ᶠ y : ℝ) := fun j h => (hc j).add h (by linarith) (by linarith) (by linarith)
  have cd : ∀ {x : IEEE m} {y : ℝ} (j : Int), Near (2003 / 1000 * e + 227 / 100 / 1048576 * B) (2 * B) x y →
      Near (301 / 100 * e + 25 / 10 / 1048576 * B) (3 * B) (c j -ᶠ x : IEEE m) (d j -ᶠ y : ℝ) := fun j h => (hc j).sub h (by linarith) (by linarith) (by linarith)
  have fa : ∀ {x x' : IEEE m} {y y' : ℝ}, Near (401 / 100 * e + 48 / 10 / 1048576 * B) (4 * B) x y →
      Near (301 / 100 * e + 25 / 10 / 1048576 * B) (3 * B) x' y' →
      Near (71 / 10 * e + 8 / 1048576 * B) (7 * B) (x +ᶠ x' : IEEE m) (y +ᶠ y' : ℝ) := fun h h' => h.add h' (by linarith) (by linarith) (by linarith)
  have fs : ∀ {x x' : IEEE m} {y y' : ℝ}, Near (401 / 100 * e + 48 / 10 / 1048576 * B) (4 * B) x y →
      Near (301 / 100 * e + 25 / 10 / 1048576 * B) (3 * B) x' y' →
      Near (71 / 10 * e + 8 / 1048576 * B) (7 * B) (x -ᶠ x' : IEEE m) (y -ᶠ y' : ℝ) := fun h h' => h.sub h' (by linarith) (by linarith) (by linarith)
  have fr : ∀ {x x' : IEEE m} {y y' : ℝ}, Near (301 / 100 * e + 25 / 10 / 1048576 * B) (3 * B) x y →
      Near (401 / 100 * e + 48 / 10 / 1048576 * B) (4 * B) x' y' →
      Near (71 / 10 * e + 8 / 1048576 * B) (7 * B) (x -ᶠ x' : IEEE m) (y -ᶠ y' : ℝ) := fun h h' => h.sub h' (by linarith) (by linarith) (by linarith)
  unfold midF
  exact .cons ⟨rfl, fa (ss (t _ _).1 (t _ _).1) (cs _ (t _ _).1)⟩ <|
    .cons ⟨rfl, fr (cs _ (t _ _).1) (ss (t _ _).1 (t _ _).1)⟩ <|
    .cons ⟨rfl, fa (dd (t _ _).2 (t _ _).2) (cd _ (t _ _).1)⟩ <|
    .cons ⟨rfl, fr (cd _ (t _ _).1) (dd (t _ _).2 (t _ _).2)⟩ <|
    .cons ⟨rfl, fa (ss (t _ _).2 (t _ _).2) (cs _ (t _ _).2)⟩ <|
    .cons ⟨rfl, fs (ss (t _ _).2 (t _ _).2) (cs _ (t _ _).2)⟩ <|
    .cons ⟨rfl, fa (dd (t _ _).1 (t _ _).1) (cd _ (t _ _).2)⟩ <|
    .cons ⟨rfl, fs (dd (t _ _).1 (t _ _).1) (cd _ (t _ _).2)⟩ .nil

theorem midB_near (hb' : 1000 * (B + e) ≤ 2 ^ 126) (ido q w1 w2 w3 i p g : Int) :
    LNear (81 / 10 * e + 11 / 1048576 * B) (8 * B) (midB ido q c w w1 w2 w3 i p g) (midB ido q d v w1 w2 w3 i p g) := by
  have ht := tiny_le hB
  have s := addC_near h0 hB hb hc
  have t := subC_near h0 hB hb hc
  have ss : ∀ {x x' : IEEE m} {y y' : ℝ}, Near (2001 / 1000 * e + 1 / 7 / 1048576 * B) (2 * B) x y →
      Near (2001 / 1000 * e + 1 / 7 / 1048576 * B) (2 * B) x' y' →
      Near (401 / 100 * e + 6 / 10 / 1048576 * B) (4 * B) (x +ᶠ x' : IEEE m) (y +ᶠ y' : ℝ) := fun h h' => h.add h' (by linarith) (by linarith) (by linarith)
  have dd : ∀ {x x' : IEEE m} {y y' : ℝ}, Near (2001 / 1000 * e + 1 / 7 / 1048576 * B) (2 * B) x y →
      Near (2001 / 1000 * e + 1 / 7 / 1048576 * B) (2 * B) x' y' →
      Near (401 / 100 * e + 6 / 10 / 1048576 * B) (4 * B) (x -ᶠ x' : IEEE m) (y -ᶠ y' : ℝ) := fun h h' => h.sub h' (by linarith) (by linarith) (by linarith)
  have k : ∀ {x x' : IEEE m} {y y' : ℝ} (a : Int), Near (401 / 100 * e + 6 / 10 / 1048576 * B) (4 * B) x y →
      Near (401 / 100 * e + 6 / 10 / 1048576 * B) (4 * B) x' y' →
      Near (81 / 10 * e + 11 / 1048576 * B) (8 * B) (mulCplx x x' (w (a + (i - 2))) (w (a + (i - 1)))).1
        (mulCplx y y' (v (a + (i - 2))) (v (a + (i - 1)))).1 ∧
      Near (81 / 10 * e + 11 / 1048576 * B) (8 * B) (mulCplx x x' (w (a + (i - 2))) (w (a + (i - 1)))).2
        (mulCplx y y' (v (a + (i - 2))) (v (a + (i - 1)))).2 := fun a hx hy => by
    have := mulCplx_near (e := 401 / 100 * e + 6 / 10 / 1048576 * B) (B := 4 * B) (by linarith) (by linarith) (by linarith)
      hx hy (hw (a + (i - 2))) (hw (a + (i - 1)))
    exact ⟨this.1.mono (by linarith) (by linarith), this.2.mono (by linarith) (by linarith)⟩
  unfold midB
  exact .cons ⟨rfl, (ss (s _ _) (s _ _)).mono (by linarith) (by linarith)⟩ <|
    .cons ⟨rfl, (ss (t _ _) (t _ _)).mono (by linarith) (by linarith)⟩ <|
    .cons ⟨rfl, (k _ (dd (t _ _) (s _ _)) (ss (s _ _) (t _ _))).1⟩ <|
    .cons ⟨rfl, (k _ (dd (t _ _) (s _ _)) (ss (s _ _) (t _ _))).2⟩ <|
    .cons ⟨rfl, (k _ (dd (s _ _) (s _ _)) (dd (t _ _) (t _ _))).1⟩ <|
    .cons ⟨rfl, (k _ (dd (s _ _) (s _ _)) (dd (t _ _) (t _ _))).2⟩ <|
    .cons ⟨rfl, (k _ (ss (t _ _) (s _ _)) (dd (s _ _) (t _ _))).1⟩ <|
    .cons ⟨rfl, (k _ (ss (t _ _) (s _ _)) (dd (s _ _) (t _ _))).2⟩ .nil

end

section
variable {e B : ℝ} (h0 : 0 ≤ e) (hB : 1 / 2 ^ 100 ≤ B) (hb : 1000 * (B + e) ≤ 2 ^ 126) {c w : Int → IEEE m} {d v : Int → ℝ}
  (hc : ∀ i, Near e B (c i) (d i)) (hw : ∀ i, Near (1 / 1048576) 1 (w i) (v i))
include h0 hB hb hc

theorem stepF1_near (l1 : Nat) (w1 w2 w3 : Int) (i : Int) :
    Near (41 / 10 * e + 1 / 1048576 * B) (4 * B) (stepF 1 l1 w w1 w2 w3 c i : IEEE m) (stepF 1 l1 v w1 w2 w3 d i : ℝ) := by
  have hp : 0 ≤ B := le_trans (by positivity) hB
  refine LNear.valAt (by linarith) (by linarith) ?_ i
  unfold passF
  rw [if_pos rfl, if_pos rfl]
  exact (LNear.flatMap _ fun t _ => endsF_near h0 hB (by linarith) hc _ _ _ _).append .nil

theorem stepB1_near (l1 : Nat) (w1 w2 w3 : Int) (i : Int) :
    Near (41 / 10 * e + 1 / 1048576 * B) (4 * B) (stepB 1 l1 w w1 w2 w3 c i : IEEE m) (stepB 1 l1 v w1 w2 w3 d i : ℝ) := by
  have hp : 0 ≤ B := le_trans (by positivity) hB
  refine LNear.valAt (by linarith) (by linarith) ?_ i
  unfold passB
  rw [if_pos rfl, if_pos rfl]
  exact (LNear.flatMap _ fun t _ => endsB_near h0 hB (by linarith) hc _ _ _ _).append .nil

include hw

theorem stepF_near {ido : Nat} (hi : ido ≠ 1) (l1 : Nat) (w1 w2 w3 : Int) (i : Int) :
    Near (71 / 10 * e + 8 / 1048576 * B) (7 * B) (stepF ido l1 w w1 w2 w3 c i : IEEE m) (stepF ido l1 v w1 w2 w3 d i : ℝ) := by
  have hp : 0 ≤ B := le_trans (by positivity) hB
  refine LNear.valAt (by linarith) (by linarith) ?_ i
  unfold passF
  rw [if_neg hi, if_neg hi]
  refine (LNear.flatMap _ fun t _ => (endsF_near h0 hB (by linarith) hc _ _ _ _).mono (by linarith) (by linarith)).append <|
    (LNear.flatMap _ fun t _ => LNear.flatMap _ fun u _ => midF_near h0 hB (by linarith) hc hw _ _ _ _ _ _ _ _).append <|
    LNear.flatMap _ fun t _ => halfF_near h0 hB (by linarith) hc _ _ _

theorem stepB_near {ido : Nat} (hi : ido ≠ 1) (l1 : Nat) (w1 w2 w3 : Int) (i : Int) :
    Near (81 / 10 * e + 11 / 1048576 * B) (8 * B) (stepB ido l1 w w1 w2 w3 c i : IEEE m) (stepB ido l1 v w1 w2 w3 d i : ℝ) := by
  have hp : 0 ≤ B := le_trans (by positivity) hB
  refine LNear.valAt (by linarith) (by linarith) ?_ i
  unfold passB
  rw [if_neg hi, if_neg hi]
  refine (LNear.flatMap _ fun t _ => (endsB_near h0 hB (by linarith) hc _ _ _ _).mono (by linarith) (by linarith)).append <|
    (LNear.flatMap _ fun t _ => LNear.flatMap _ fun u _ => midB_near h0 hB (by linarith) hc hw hb _ _ _ _ _ _ _ _).append <|
    LNear.flatMap _ fun t _ => halfB_near h0 hB (by linarith) hc _ _ _
end

/-! ## Twiddle factors -/

theorem argh_val : Val (argh256 : IEEE m) (13176795 / 536870912) :=
  ⟨false, show IEEE.get (argh256 : IEEE libm0) = FP.fin false (13176795 / 536870912) by decide +kernel⟩

theorem angle_near {n k : Int} (hn : 1 ≤ n) (hn' : n ≤ 64) (hk : 1 ≤ k) (hk' : k ≤ 64) (hnk : n * k ≤ 96) :
    ∃ q : ℚ, Val (ofInt n *ᶠ (ofInt k *ᶠ argh256) : IEEE m) q ∧
      |(q : ℝ) - (ofInt n *ᶠ (ofInt k *ᶠ argh256) : ℝ)| ≤ 37 / 100 / 1048576 ∧ |q| ≤ 8 := by
  have hpi := Real.pi_gt_d20
  have hpi' := Real.pi_lt_d20
  have er : (ofInt n *ᶠ (ofInt k *ᶠ argh256) : ℝ) = (n : ℝ) * (k * (2 * Real.pi / 256)) := by
    rw [RealArith.mul_r, RealArith.mul_r, argh_r]; rfl
  have n1 : (1 : ℝ) ≤ n := by exact_mod_cast hn
  have n2 : (n : ℝ) ≤ 64 := by exact_mod_cast hn'
  have k1 : (1 : ℝ) ≤ k := by exact_mod_cast hk
  have k2 : (k : ℝ) ≤ 64 := by exact_mod_cast hk'
  have nk : (n : ℝ) * k ≤ 96 := by exact_mod_cast hnk
  have nk1 : (1 : ℝ) ≤ n * k := by nlinarith
  have vn : Val (ofInt n : IEEE m) n := Val.ofInt (by rw [abs_of_nonneg (by omega)]; omega)
  have vk : Val (ofInt k : IEEE m) k := Val.ofInt (by rw [abs_of_nonneg (by omega)]; omega)
  set θ : ℝ := 2 * Real.pi / 256 with hθ
  have t1 : |((13176795 / 536870912 : ℚ) : ℝ) - θ| ≤ 7 / 10000000000 := by
    rw [abs_le, hθ]; push_cast; constructor <;> linarith
  have t2 : 0 ≤ θ ∧ θ ≤ 2455 / 100000 := by rw [hθ]; constructor <;> linarith
  -- first product
  have a1 : |(((k : ℚ) * (13176795 / 536870912) : ℚ) : ℝ) - k * θ| ≤ k * (7 / 10000000000) := by
    rw [show (((k : ℚ) * (13176795 / 536870912) : ℚ) : ℝ) - k * θ = k * (((13176795 / 536870912 : ℚ) : ℝ) - θ) by push_cast; ring, abs_mul,
      abs_of_nonneg (by linarith)]
    exact mul_le_mul_of_nonneg_left t1 (by linarith)
  have ka : |(k : ℝ) * θ| ≤ k * (2455 / 100000) := by
    rw [abs_of_nonneg (by nlinarith)]; nlinarith
  have tin : (1 : ℝ) / 2 ^ 150 ≤ k * (1 / 10000000000000) := by
    have : (1 : ℝ) / 2 ^ 150 ≤ 1 / 10000000000000 := by norm_num
    linarith
  have a2 := near_op (e := k * (217 / 100000000000)) a1 ka (by linarith)
  have va : Val (ofInt k *ᶠ argh256 : IEEE m) (rnd F32 ((k : ℚ) * (13176795 / 536870912))) := by
    refine vk.mul argh_val (big_real (b := 4) ?_ (by norm_num))
    have := abs_sub_abs_le_abs_sub (((k : ℚ) * (13176795 / 536870912) : ℚ) : ℝ) (k * θ)
    linarith
  set q1 : ℚ := rnd F32 ((k : ℚ) * (13176795 / 536870912)) with hq1
  -- second product
  have b1 : |(((n : ℚ) * q1 : ℚ) : ℝ) - n * (k * θ)| ≤ n * k * (217 / 100000000000) := by
    rw [show (((n : ℚ) * q1 : ℚ) : ℝ) - n * (k * θ) = n * ((q1 : ℝ) - k * θ) by push_cast; ring, abs_mul,
      abs_of_nonneg (show (0 : ℝ) ≤ n by linarith), mul_assoc]
    exact mul_le_mul_of_nonneg_left a2 (by linarith)
  have kb : |(n : ℝ) * (k * θ)| ≤ n * k * (2455 / 100000) := by
    rw [← mul_assoc, abs_of_nonneg (by nlinarith)]; nlinarith
  have tin2 : (1 : ℝ) / 2 ^ 150 ≤ n * k * (1 / 10000000000000) := by
    have : (1 : ℝ) / 2 ^ 150 ≤ 1 / 10000000000000 := by norm_num
    linarith
  have b2 := near_op (e := n * k * (3635 / 1000000000000)) b1 kb (by linarith)
  have b3 : |(((n : ℚ) * q1 : ℚ) : ℝ)| ≤ 4 := by
    have := abs_sub_abs_le_abs_sub (((n : ℚ) * q1 : ℚ) : ℝ) (n * (k * θ))
    linarith
  refine ⟨_, vn.mul va (big_real b3 (by norm_num)), ?_, ?_⟩
  · rw [er]
    linarith
  · have := abs_sub_abs_le_abs_sub ((rnd F32 ((n : ℚ) * q1) : ℚ) : ℝ) (n * (k * θ))
    have h8 : |((rnd F32 ((n : ℚ) * q1) : ℚ) : ℝ)| ≤ 8 := by linarith
    have : ((|rnd F32 ((n : ℚ) * q1)| : ℚ) : ℝ) ≤ ((8 : ℚ) : ℝ) := by push_cast; exact h8
    exact_mod_cast this

theorem toF_near {x : IEEE m} {r : ℚ} {y : ℝ} (v : Val x r) (h : |(r : ℝ) - y| ≤ 63 / 100 / 1048576) (hy : |y| ≤ 1) :
    Near (1 / 1048576) 1 (toF x : IEEE m) (toF y : ℝ) := by
  have k : |(r : ℝ)| ≤ 2 := by
    have := abs_sub_abs_le_abs_sub (r : ℝ) y
    linarith
  exact ⟨_, v.toF (big_real k (by norm_num)), near_op h hy (by norm_num), hy⟩

theorem rowW_near (hcos : CosAcc m) (hsin : SinAcc m) {ido : Nat} (hi : ido ≤ 64) {is k : Int} (hk : 1 ≤ k) (hk' : k ≤ 64) (h : ido * k ≤ 192) :
    LNear (1 / 1048576) 1 (rowW ido is (ofInt k *ᶠ argh256 : IEEE m)) (rowW ido is (ofInt k *ᶠ argh256 : ℝ)) := by
  unfold rowW
  refine LNear.flatMap _ fun u hu => ?_
  rw [List.mem_range] at hu
  have hu' : 2 * ((u : Int) + 1) ≤ ido := by omega
  obtain ⟨q, vq, e1, e2⟩ := angle_near (m := m) (n := (u : Int) + 1) (k := k) (by omega) (by omega) hk hk' (by nlinarith)
  obtain ⟨r1, v1, f1⟩ := hcos _ q vq e2
  obtain ⟨r2, v2, f2⟩ := hsin _ q vq e2
  have g1 := Real.abs_cos_sub_cos_le (q : ℝ) (ofInt ((u : Int) + 1) *ᶠ (ofInt k *ᶠ argh256) : ℝ)
  have g2 := Real.abs_sin_sub_sin_le (q : ℝ) (ofInt ((u : Int) + 1) *ᶠ (ofInt k *ᶠ argh256) : ℝ)
  have i1 := abs_sub_le (r1 : ℝ) (Real.cos q) (Real.cos (ofInt ((u : Int) + 1) *ᶠ (ofInt k *ᶠ argh256) : ℝ))
  have i2 := abs_sub_le (r2 : ℝ) (Real.sin q) (Real.sin (ofInt ((u : Int) + 1) *ᶠ (ofInt k *ᶠ argh256) : ℝ))
  refine .cons ⟨rfl, ?_⟩ (.cons ⟨rfl, ?_⟩ .nil)
  · exact toF_near v1 (y := Real.cos _) (by linarith) (Real.abs_cos_le_one _)
  · exact toF_near v2 (y := Real.sin _) (by linarith) (Real.abs_sin_le_one _)

theorem groupW_near (hcos : CosAcc m) (hsin : SinAcc m) {l1 : Int} {ido : Nat} (h1 : 1 ≤ l1) (h2 : l1 ≤ 16) (hi : ido ≤ 64) (h : ido * l1 ≤ 64)
    (base : Int) : LNear (1 / 1048576) 1 (groupW l1 ido base : List (Int × IEEE m)) (groupW l1 ido base) := by
  unfold groupW
  refine ((rowW_near hcos hsin hi h1 (by omega) (by omega)).append (rowW_near hcos hsin hi (by omega) (by omega) ?_)).append
    (rowW_near hcos hsin hi (by omega) (by omega) ?_)
  · have : (ido : Int) * (2 * l1) = 2 * (ido * l1) := by ring
    omega
  · have : (ido : Int) * (3 * l1) = 3 * (ido * l1) := by ring
    omega

theorem tw256_near (hcos : CosAcc m) (hsin : SinAcc m) (i : Int) : Near (1 / 1048576) 1 (tw256 i : IEEE m) (tw256 i : ℝ) := by
  refine LNear.valAt (by norm_num) (by norm_num) ?_ i
  unfold twW
  exact ((groupW_near hcos hsin (by decide) (by decide) (by decide) (by decide) _).append
    (groupW_near hcos hsin (by decide) (by decide) (by decide) (by decide) _)).append
    (groupW_near hcos hsin (by decide) (by decide) (by decide) (by decide) _)

/-! ## Whole transforms -/

theorem passesF_near (hcos : CosAcc m) (hsin : SinAcc m) {B : ℝ} (hB : 1 / 2 ^ 100 ≤ B) (hb : B ≤ 2 ^ 100) {c : Int → IEEE m} {d : Int → ℝ}
    (hc : ∀ i, Near 0 B (c i) (d i)) (i : Int) : Near (B / 200) (1372 * B) (passesF c i : IEEE m) (passesF d i : ℝ) := by
  have hp : 0 ≤ B := le_trans (by positivity) hB
  have hb' : 1000000 * B ≤ 2 ^ 126 := le_trans (mul_le_mul_of_nonneg_left hb (by norm_num)) (by norm_num)
  have w := tw256_near hcos hsin
  have s1 := stepF1_near (e := 0) (B := B) (le_refl _) hB (by linarith) hc (w := tw256) (v := tw256) 64 252 253 254
  have s2 := stepF_near (e := 1 / 1048576 * B) (B := 4 * B) (by linarith) (by linarith) (by linarith)
    (fun i => (s1 i).mono (by linarith) (by linarith)) w (ido := 4) (by decide) 16 240 244 248
  have s3 := stepF_near (e := 39.1 / 1048576 * B) (B := 28 * B) (by linarith) (by linarith) (by linarith)
    (fun i => (s2 i).mono (by linarith) (by linarith)) w (ido := 16) (by decide) 4 192 208 224
  have s4 := stepF_near (e := 502 / 1048576 * B) (B := 196 * B) (by linarith) (by linarith) (by linarith)
    (fun i => (s3 i).mono (by linarith) (by linarith)) w (ido := 64) (by decide) 1 0 64 128
  exact (s4 i).mono (by linarith) (by linarith)

theorem passesB_near (hcos : CosAcc m) (hsin : SinAcc m) {B : ℝ} (hB : 1 / 2 ^ 100 ≤ B) (hb : B ≤ 2 ^ 100) {c : Int → IEEE m} {d : Int → ℝ}
    (hc : ∀ i, Near 0 B (c i) (d i)) (i : Int) : Near (B / 100) (2048 * B) (passesB c i : IEEE m) (passesB d i : ℝ) := by
  have hp : 0 ≤ B := le_trans (by positivity) hB
  have hb' : 1000000 * B ≤ 2 ^ 126 := le_trans (mul_le_mul_of_nonneg_left hb (by norm_num)) (by norm_num)
  have w := tw256_near hcos hsin
  have s1 := stepB_near (e := 0) (B := B) (le_refl _) hB (by linarith) hc w (ido := 64) (by decide) 1 0 64 128
  have s2 := stepB_near (e := 11 / 1048576 * B) (B := 8 * B) (by linarith) (by linarith) (by linarith)
    (fun i => (s1 i).mono (by linarith) (by linarith)) w (ido := 16) (by decide) 4 192 208 224
  have s3 := stepB_near (e := 178 / 1048576 * B) (B := 64 * B) (by linarith) (by linarith) (by linarith)
    (fun i => (s2 i).mono (by linarith) (by linarith)) w (ido := 4) (by decide) 16 240 244 248
  have s4 := stepB1_near (e := 2146 / 1048576 * B) (B := 512 * B) (by linarith) (by linarith) (by linarith)
    (fun i => (s3 i).mono (by linarith) (by linarith)) (w := tw256) (v := tw256) 64 252 253 254
  exact (s4 i).mono (by linarith) (by linarith)

theorem ext_near {B : ℝ} (hB : 0 ≤ B) {a : Arr 256 (IEEE m)} {b : Arr 256 ℝ} (h : ∀ j, Near 0 B (a j) (b j)) (i : Int) :
    Near 0 B (ext a i : IEEE m) (ext b i : ℝ) := by
  unfold ext
  split
  · exact h _
  · refine ⟨0, ⟨false, rfl⟩, ?_, ?_⟩
    · show |((0 : ℚ) : ℝ) - ((0 : Int) : ℝ)| ≤ 0
      simp
    · show |((0 : Int) : ℝ)| ≤ B
      simpa using hB

/-- Both transforms in binary32 against the exact ones. -/
theorem runs_near (hcos : CosAcc m) (hsin : SinAcc m) {E : Env (IEEE m)} (hE : Runs E) {R : Env ℝ} (hR : Runs R) {B : ℝ} (hB : 1 / 2 ^ 100 ≤ B)
    (hb : B ≤ 2 ^ 100) {a : Arr 256 (IEEE m)} {b : Arr 256 ℝ} (h : ∀ j, Near 0 B (a j) (b j)) (j : Fin 256) :
    Near (B / 200) (1372 * B) (E.fwd a j) (R.fwd b j) ∧ Near (B / 100) (2048 * B) (E.bwd a j) (R.bwd b j) := by
  have hp : 0 ≤ B := le_trans (by positivity) hB
  rw [(runs_eq hE).1, (runs_eq hE).2, (runs_eq hR).1, (runs_eq hR).2]
  have hx := ext_near hp h
  constructor
  · have k := passesF_near hcos hsin hB hb hx
    show Near _ _ (reoF (passesF (ext a)) (j.val : Int) : IEEE m) (reoF (passesF (ext b)) (j.val : Int) : ℝ)
    unfold reoF
    split
    · exact k _
    · split
      · exact k _
      · exact k _
  · refine passesB_near hcos hsin hB hb (fun i => ?_) _
    unfold reoB
    split
    · exact hx _
    · split
      · exact hx _
      · exact hx _

end Verif.Model
