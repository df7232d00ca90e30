import Verif.Lemmas.AmbeFund
import Mathlib.Analysis.Complex.ExponentialBounds

/-!
# The AMBE voicing decisions in binary32 and in exact arithmetic

The band of a harmonic is the integral part of `16 * l * f0`. For 2450 this is the same number in both arithmetics. For 2400 it
may differ by the error of `exp2f`, but the rows of `AmbePlusVuv` are constant on the pairs of bands (0,1), (2,3), (4,5), (6,7), and
no harmonic is near enough to 2, 4 or 6 for the pair to differ.
-/

namespace Verif.Model
open Verif Verif.Gen Verif.Spec Verif.Num Arith

/-- What a run of the loop leaves. -/
theorem ambeVoicing_post {F : Type} [Arith F] (t : List (List Nat)) (b1 : Nat) (f0 : F) (sil : Bool) {L : Nat} (hL : L ≤ 56) (Vl : Arr 57 Int) :
    Post (ambeVoicing t b1 f0 sil (L : Int) Vl) fun V => ∀ l : Fin 57, 1 ≤ l.val → l.val ≤ L →
      if sil then V l = Vl l else ∃ jl v, toI32 ((ofInt (l.val : Int) *ᶠ toF (dlit 16 1)) *ᶠ f0) = .ok jl ∧ tab2 t b1 jl = .ok v ∧ V l = v := by
  unfold ambeVoicing
  rw [Int.toNat_natCast]
  refine (loopFT_post (fun i (V : Arr 57 Int) => ∀ l : Fin 57, 1 ≤ l.val → l.val ≤ L →
      if sil then V l = Vl l else l.val < i → ∃ jl v, toI32 ((ofInt (l.val : Int) *ᶠ toF (dlit 16 1)) *ᶠ f0) = .ok jl ∧ tab2 t b1 jl = .ok v ∧ V l = v)
    (lo := 1) (hi := L) (by omega) (fun l l1 _ => ?_) ?_).mono fun V h l l1 l2 => ?_
  · split
    · rfl
    · intro c; omega
  · intro i h1 h2 V hV
    refine Post.bind (fun jl hj => hj) fun jl hj => ?_
    cases sil with
    | true => exact Post.pure hV
    | false =>
      simp only [Bool.false_eq_true, if_false] at hV ⊢
      refine Post.bind (fun v hv => hv) fun v hv => ?_
      rw [Arr.wr_nat (by omega)]
      refine Post.pure fun l l1 l2 c => ?_
      by_cases e : l.val = i
      · exact ⟨jl, v, by rw [e]; exact hj, hv, Arr.set_same e⟩
      · rw [Arr.set_ne e]
        exact hV l l1 l2 (by omega)
  · have := h l l1 l2
    split at this
    · rename_i c; rw [if_pos c]; exact this
    · rename_i c; rw [if_neg c]; exact this (by omega)

variable {m : Libm}

/-! ## 2450 -/

theorem col2450_check : ∀ b0 < 120, ∀ l < 57, l ≤ (AmbeLtable.getD b0 0).toNat →
    colQ (f0Q b0) l = (16 * (l : Int) * AmbeW0table.getD b0 0 / (AmbeW0table_den : Int)).toNat := by decide +kernel

theorem col2450_eq {b0 l : Nat} (h : b0 < 120) (hl : l ≤ (AmbeLtable.getD b0 0).toNat) :
    colQ (f0Q b0) l = ⌊16 * (l : ℝ) * ((AmbeW0table.getD b0 0 : ℝ) / AmbeW0table_den)⌋.toNat := by
  have hr := ltab_check b0 h
  rw [col2450_check b0 h l (by omega) hl]
  have e : 16 * (l : ℝ) * ((AmbeW0table.getD b0 0 : ℝ) / AmbeW0table_den) =
      ((16 * (l : Int) * AmbeW0table.getD b0 0 : Int) : ℝ) / ((AmbeW0table_den : Nat) : ℝ) := by push_cast; ring
  rw [e, Int.floor_div_natCast, Int.floor_intCast]

theorem header_vl {F : Type} [Arith F] (b0 : Nat) (cur : Parms F) : Post (ambe2450Header b0 cur) fun h =>
    ((b0 == 124 || b0 == 125) = true → ∀ l : Fin 57, 1 ≤ l.val → (l.val : Int) ≤ h.2.2 → h.2.1.Vl l = 0) ∧
    ((b0 == 124 || b0 == 125) = false → h.1 = ftab (AmbeW0table.getD b0 0) AmbeW0table_den) := by
  unfold ambe2450Header
  refine Post.ite (fun h => ?_) fun h => ?_
  · have hL : (if b0 = 124 then 15 else 14) ≤ 56 := by split <;> omega
    obtain ⟨V, e, hV⟩ := clearVl_ok hL cur.Vl
    dsimp only
    rw [e, ok_bind]
    refine Post.pure ⟨fun _ l l1 l2 => ?_, fun c => by rw [h] at c; cases c⟩
    show V l = 0
    rw [hV l, if_pos ⟨l1, by dsimp only at l2; omega⟩]
  · refine Post.bind tab_post fun y hy => Post.bind Post.true fun _ _ => Post.bind Post.true fun _ _ => Post.pure ?_
    have hy' : AmbeW0table.getD b0 0 = y := getD_of_some hy
    exact ⟨fun c => absurd c h, fun _ => by rw [hy']⟩

/-- The voicing decisions of a 2450 frame are those of exact arithmetic. -/
theorem voicing2450_eq {b0 b1 : Nat} (hb : b0 < 120 ∨ b0 = 124 ∨ b0 = 125) {cur : Parms (IEEE m)} {cur' : Parms ℝ}
    {h : IEEE m × Parms (IEEE m) × Int} {h' : ℝ × Parms ℝ × Int} {L : Nat} (hL : L ≤ 56) (hLe : (L : Int) = ambeHarmonics2450 b0)
    (e1 : h.2.2 = (L : Int)) (e2 : h'.2.2 = (L : Int))
    (hh : ambe2450Header b0 cur = .ok h) (hh' : ambe2450Header b0 cur' = .ok h') {V V' : Arr 57 Int}
    (hv : ambeVoicing AmbeVuv b1 h.1 (b0 == 124 || b0 == 125) h.2.2 h.2.1.Vl = .ok V)
    (hv' : ambeVoicing AmbeVuv b1 h'.1 (b0 == 124 || b0 == 125) h'.2.2 h'.2.1.Vl = .ok V') (l : Fin 57) (l1 : 1 ≤ l.val) (l2 : l.val ≤ L) :
    V l = V' l := by
  obtain ⟨k1, k2⟩ := header_vl _ _ _ hh
  obtain ⟨k1', k2'⟩ := header_vl _ _ _ hh'
  have e1' := e1
  have e2' := e2
  rw [e1] at hv
  rw [e2] at hv'
  have p := ambeVoicing_post _ _ _ _ hL _ _ hv l l1 l2
  have p' := ambeVoicing_post _ _ _ _ hL _ _ hv' l l1 l2
  cases hs : (b0 == 124 || b0 == 125) with
  | true =>
    rw [hs, if_pos rfl] at p p'
    rw [p, p', k1 hs l l1 (by omega), k1' hs l l1 (by omega)]
  | false =>
    have hb' : b0 < 120 := by
      simp only [Bool.or_eq_false_iff, beq_eq_false_iff_ne, ne_eq] at hs
      omega
    rw [hs, if_neg (by decide)] at p p'
    obtain ⟨j, v, a1, a2, a3⟩ := p
    obtain ⟨j', v', a1', a2', a3'⟩ := p'
    have hLt : L = (AmbeLtable.getD b0 0).toNat := by
      unfold ambeHarmonics2450 at hLe
      rw [if_neg (by omega), if_neg (by omega)] at hLe
      omega
    have hq := f0Q_check b0 hb'
    have hr := ltab_check b0 hb'
    have hLq : ((L : ℚ)) = (AmbeLtable.getD b0 0 : ℚ) := by
      have : (L : Int) = AmbeLtable.getD b0 0 := by omega
      exact_mod_cast congrArg (Int.cast : Int → ℚ) this
    rw [k2 hs, (col_eval (f0_val hb') hq.1.1.le hL (by rw [hLq]; linarith [hq.2]) l2).1] at a1
    obtain ⟨f1, f2, f3⟩ := f0tab_r b0 hb'
    have ef : (ftab (AmbeW0table.getD b0 0) AmbeW0table_den : ℝ) = (AmbeW0table.getD b0 0 : ℝ) / (AmbeW0table_den : ℝ) :=
      ftab_r (b := 1000000000) (by rw [abs_of_nonneg f1]; exact f2) (by decide)
    have F0 : (0 : ℝ) ≤ (AmbeW0table.getD b0 0 : ℝ) / (AmbeW0table_den : ℝ) := by
      have : (0 : ℝ) ≤ (AmbeW0table.getD b0 0 : ℝ) := by exact_mod_cast f1
      positivity
    have F1 : 16 * (L : ℝ) * ((AmbeW0table.getD b0 0 : ℝ) / (AmbeW0table_den : ℝ)) < 8 := by
      have f3' : 16 * (AmbeLtable.getD b0 0 : ℝ) * (AmbeW0table.getD b0 0 : ℝ) < 8 * (AmbeW0table_den : ℝ) := by exact_mod_cast f3
      have hLr : (L : ℝ) = (AmbeLtable.getD b0 0 : ℝ) := by exact_mod_cast congrArg (Rat.cast : ℚ → ℝ) hLq
      have hden : (0 : ℝ) < (AmbeW0table_den : ℝ) := by exact_mod_cast (show 0 < AmbeW0table_den by decide)
      rw [hLr, ← mul_div_assoc, div_lt_iff₀ hden]; exact f3'
    rw [k2' hs, ef, col_eval_r F0 (col_lt_r F0 l2 F1).1, ← col2450_eq hb' (by omega)] at a1'
    have ej : j = j' := (ok_inj a1).symm.trans (ok_inj a1')
    subst ej
    rw [a3, a3', ok_inj (a2.symm.trans a2')]

/-! ## 2400 -/

/-- `65536` times the binary logarithm of `l`, rounded down. -/
def lgs : List Nat := [
  0, 0, 65536, 103872, 131072, 152169, 169408, 183982, 196608, 207744,
  217705, 226717, 234944, 242512, 249518, 256041, 262144, 267875, 273280, 278392,
  283241, 287854, 292253, 296456, 300480, 304339, 308048, 311616, 315054, 318372,
  321577, 324678, 327680, 330589, 333411, 336152, 338816, 341406, 343928, 346384,
  348777, 351112, 353390, 355615, 357789, 359914, 361992, 364025, 366016, 367965,
  369875, 371748, 373584, 375384, 377152, 378887, 380590]

theorem lgs_check : ∀ l < 57, 1 ≤ l → 2 ^ lgs.getD l 0 ≤ l ^ 65536 ∧ l ^ 65536 < 2 ^ (lgs.getD l 0 + 1) := by decide +kernel

theorem lgs_spec {l : Nat} (h1 : 1 ≤ l) (h2 : l < 57) :
    (2 : ℝ) ^ (((lgs.getD l 0 : ℚ) / 65536 : ℚ) : ℝ) ≤ l ∧ (l : ℝ) ≤ (2 : ℝ) ^ ((((lgs.getD l 0 : ℚ) + 1) / 65536 : ℚ) : ℝ) := by
  obtain ⟨a, b⟩ := lgs_check l h2 h1
  generalize lgs.getD l 0 = M at a b
  have key : ∀ K : Nat, ((2 : ℝ) ^ (((K : ℚ) / 65536 : ℚ) : ℝ)) ^ 65536 = (2 : ℝ) ^ K := by
    intro K
    rw [← Real.rpow_natCast, ← Real.rpow_mul (by norm_num), ← Real.rpow_natCast]
    congr 1
    push_cast
    ring
  constructor
  · refine le_of_pow_le_pow_left₀ (n := 65536) (by norm_num) (by positivity) ?_
    rw [key]
    exact_mod_cast a
  · refine le_of_pow_le_pow_left₀ (n := 65536) (by norm_num) (by positivity) ?_
    have := key (M + 1)
    push_cast at this ⊢
    rw [this]
    exact_mod_cast b.le

/-- The harmonic is safely below or above the threshold, whose binary logarithm is between `a` and `b`. -/
def clear2400 (b0 l : Nat) (a b : ℚ) : Bool :=
  decide (4 + ((lgs.getD l 0 : ℚ) + 1) / 65536 + y2400 b0 + 1 / 20000 < a) ||
    decide (b < 4 + (lgs.getD l 0 : ℚ) / 65536 + y2400 b0 - 1 / 20000)

theorem clear2400_check : ∀ b0 < 126, ∀ l < 57, 1 ≤ l → l ≤ (AmbePlusLtable.getD b0 0).toNat →
    (clear2400 b0 l 1 1 && clear2400 b0 l 2 2 &&
      clear2400 b0 l (1 + (lgs.getD 3 0 : ℚ) / 65536) (1 + ((lgs.getD 3 0 : ℚ) + 1) / 65536)) = true := by decide +kernel

theorem two_pow_ge {e : ℝ} (h0 : 0 ≤ e) : 1 + e / 2 ≤ (2 : ℝ) ^ e := by
  have h1 := Real.add_one_le_exp (Real.log 2 * e)
  have h2 : Real.exp (Real.log 2 * e) = (2 : ℝ) ^ e := (Real.rpow_def_of_pos (by norm_num) e).symm
  have h3 := Real.log_two_gt_d9
  nlinarith

/-- A number near the exact one is on the same side of the threshold. -/
theorem clear2400_side {b0 l : Nat} (h1 : 1 ≤ l) (h2 : l < 57) {a b : ℚ} {k : ℝ} (hc : clear2400 b0 l a b = true)
    (ka : (2 : ℝ) ^ (a : ℝ) ≤ k) (kb : k ≤ (2 : ℝ) ^ (b : ℝ)) {x : ℝ}
    (hx : |x - 16 * (l : ℝ) * (2 : ℝ) ^ ((y2400 b0 : ℚ) : ℝ)| ≤ 1 / 42000 * (16 * (l : ℝ) * (2 : ℝ) ^ ((y2400 b0 : ℚ) : ℝ))) :
    (x < k ↔ 16 * (l : ℝ) * (2 : ℝ) ^ ((y2400 b0 : ℚ) : ℝ) < k) := by
  obtain ⟨s1, s2⟩ := lgs_spec h1 h2
  unfold clear2400 at hc
  rw [Bool.or_eq_true, decide_eq_true_eq, decide_eq_true_eq] at hc
  generalize y2400 b0 = y at hc hx ⊢
  generalize lgs.getD l 0 = M at hc s1 s2
  have py : 0 < (2 : ℝ) ^ (y : ℝ) := by positivity
  have l0 : (0 : ℝ) < l := by exact_mod_cast h1
  have e16 : (16 : ℝ) = (2 : ℝ) ^ (4 : ℝ) := by norm_num
  have hlo : (2 : ℝ) ^ (((4 + (M : ℚ) / 65536 + y : ℚ)) : ℝ) ≤ 16 * (l : ℝ) * (2 : ℝ) ^ (y : ℝ) := by
    push_cast at s1 ⊢
    rw [Real.rpow_add (by norm_num), Real.rpow_add (by norm_num), ← e16]
    exact mul_le_mul_of_nonneg_right (mul_le_mul_of_nonneg_left s1 (by norm_num)) py.le
  have hhi : 16 * (l : ℝ) * (2 : ℝ) ^ (y : ℝ) ≤ (2 : ℝ) ^ (((4 + ((M : ℚ) + 1) / 65536 + y : ℚ)) : ℝ) := by
    push_cast at s2 ⊢
    rw [Real.rpow_add (by norm_num), Real.rpow_add (by norm_num), ← e16]
    exact mul_le_mul_of_nonneg_right (mul_le_mul_of_nonneg_left s2 (by norm_num)) py.le
  have X0 : 0 < 16 * (l : ℝ) * (2 : ℝ) ^ (y : ℝ) := by positivity
  generalize 16 * (l : ℝ) * (2 : ℝ) ^ (y : ℝ) = X at hlo hhi X0 hx ⊢
  have g := two_pow_ge (show (0 : ℝ) ≤ 1 / 20000 by norm_num)
  rw [abs_le] at hx
  rcases hc with hc | hc
  · generalize (4 + ((M : ℚ) + 1) / 65536 + y : ℚ) = z at hc hhi
    have hz : (z : ℝ) + 1 / 20000 ≤ a := by
      have : ((z + 1 / 20000 : ℚ) : ℝ) ≤ a := by exact_mod_cast hc.le
      push_cast at this
      exact this
    have : (2 : ℝ) ^ ((z : ℝ) + 1 / 20000) ≤ k := (Real.rpow_le_rpow_of_exponent_le (by norm_num) hz).trans ka
    rw [Real.rpow_add (by norm_num)] at this
    have pz : 0 < (2 : ℝ) ^ (z : ℝ) := by positivity
    have m1 : (2 : ℝ) ^ (z : ℝ) * (1 + 1 / 20000 / 2) ≤ (2 : ℝ) ^ (z : ℝ) * (2 : ℝ) ^ ((1 : ℝ) / 20000) := mul_le_mul_of_nonneg_left g pz.le
    exact ⟨fun _ => by linarith, fun _ => by linarith [hx.2]⟩
  · generalize (4 + (M : ℚ) / 65536 + y : ℚ) = z at hc hlo
    have hz : (b : ℝ) + 1 / 20000 ≤ z := by
      have : (b : ℝ) ≤ ((z - 1 / 20000 : ℚ) : ℝ) := by exact_mod_cast hc.le
      push_cast at this
      linarith
    have : (2 : ℝ) ^ ((b : ℝ) + 1 / 20000) ≤ X := (Real.rpow_le_rpow_of_exponent_le (by norm_num) hz).trans hlo
    rw [Real.rpow_add (by norm_num)] at this
    have m1 : k * (1 + 1 / 20000 / 2) ≤ (2 : ℝ) ^ (b : ℝ) * (2 : ℝ) ^ ((1 : ℝ) / 20000) :=
      mul_le_mul kb g (by norm_num) (by positivity)
    have k0 : 0 < k := lt_of_lt_of_le (by positivity) ka
    constructor
    · intro c; linarith [hx.1]
    · intro c; linarith [hx.1]

theorem lg3 : (2 : ℝ) ^ ((1 + (lgs.getD 3 0 : ℚ) / 65536 : ℚ) : ℝ) ≤ 6 ∧ (6 : ℝ) ≤ (2 : ℝ) ^ ((1 + ((lgs.getD 3 0 : ℚ) + 1) / 65536 : ℚ) : ℝ) := by
  obtain ⟨a, b⟩ := lgs_spec (l := 3) (by decide) (by decide)
  generalize lgs.getD 3 0 = M at a b
  push_cast at a b ⊢
  rw [Real.rpow_add (by norm_num), Real.rpow_add (by norm_num), Real.rpow_one]
  constructor <;> linarith

theorem half_floor {x y : ℝ} (hx : 0 ≤ x) (hy : 0 ≤ y) (hx8 : x < 8) (hy8 : y < 8) (h2 : x < 2 ↔ y < 2) (h4 : x < 4 ↔ y < 4) (h6 : x < 6 ↔ y < 6) :
    ⌊x⌋.toNat / 2 = ⌊y⌋.toNat / 2 := by
  have a := Int.floor_nonneg.2 hx
  have b := Int.floor_nonneg.2 hy
  have c1 : ∀ n : Int, ⌊x⌋ < n ↔ x < n := fun n => Int.floor_lt
  have c2 : ∀ n : Int, ⌊y⌋ < n ↔ y < n := fun n => Int.floor_lt
  have d2 : ⌊x⌋ < 2 ↔ ⌊y⌋ < 2 := by rw [c1, c2]; push_cast; exact h2
  have d4 : ⌊x⌋ < 4 ↔ ⌊y⌋ < 4 := by rw [c1, c2]; push_cast; exact h4
  have d6 : ⌊x⌋ < 6 ↔ ⌊y⌋ < 6 := by rw [c1, c2]; push_cast; exact h6
  have d8 : ⌊x⌋ < 8 := by rw [c1]; push_cast; exact hx8
  have e8 : ⌊y⌋ < 8 := by rw [c2]; push_cast; exact hy8
  omega

/-- The rows are constant on pairs of columns. -/
theorem vuvPlus_pair : ∀ i < 16, ∀ j < 8, (AmbePlusVuv.getD i []).getD j 0 = (AmbePlusVuv.getD i []).getD (2 * (j / 2)) 0 := by decide +kernel

theorem f0_near (hm : LibmAcc m) {b0 : Nat} (h : b0 < 126) :
    ∃ q : ℚ, Val (f0Of2400 b0 : IEEE m) q ∧ 999 / 128000 ≤ q ∧ 16 * ((AmbePlusLtable.getD b0 0).toNat : ℚ) * q ≤ 784 / 100 ∧
      |(q : ℝ) - (2 : ℝ) ^ ((y2400 b0 : ℚ) : ℝ)| ≤ 1 / 60000 * (2 : ℝ) ^ ((y2400 b0 : ℚ) : ℝ) := by
  have he : Exp2Acc m := by
    intro x y v h1 h2
    obtain ⟨r, vr, er⟩ := hm.exp2 x y v (by linarith) (by linarith)
    have : 0 < (2 : ℝ) ^ (y : ℝ) := by positivity
    exact ⟨r, vr, by linarith⟩
  obtain ⟨f, vf, f1, f2⟩ := f0_2400' he h
  obtain ⟨y, vy, y1, y2⟩ := rng_of (x := (f0Arg b0 : IEEE m)) (arg_near0 b0 h)
  have b1 : ((b0 : ℚ)) ≤ 125 := by exact_mod_cast (show b0 ≤ 125 by omega)
  have b2 : (0 : ℚ) ≤ b0 := by positivity
  obtain ⟨r, vr, er⟩ := hm.exp2 (f0Arg b0 : IEEE m) y vy (by linarith) (by linarith)
  have hrf : r = f := (Val.fq_eq vr).symm.trans (Val.fq_eq vf)
  subst hrf
  refine ⟨r, vf, f1, f2, ?_⟩
  have ey : |(y : ℝ) - ((y2400 b0 : ℚ) : ℝ)| ≤ 1 / 1000000 := by
    have : |y - y2400 b0| ≤ 1 / 1000000 := by
      unfold y2400
      rw [abs_le]
      constructor <;> linarith
    have : ((|y - y2400 b0| : ℚ) : ℝ) ≤ ((1 / 1000000 : ℚ) : ℝ) := by exact_mod_cast this
    push_cast at this
    exact this
  generalize ((y2400 b0 : ℚ) : ℝ) = a at ey
  rw [abs_le] at ey
  have pa : 0 < (2 : ℝ) ^ a := by positivity
  have py : 0 < (2 : ℝ) ^ (y : ℝ) := by positivity
  have q1 : (2 : ℝ) ^ (y : ℝ) ≤ (2 : ℝ) ^ a * (1 + 1 / 1000000) := by
    have : (2 : ℝ) ^ (y : ℝ) ≤ (2 : ℝ) ^ (a + 1 / 1000000) := Real.rpow_le_rpow_of_exponent_le (by norm_num) (by linarith [ey.2])
    rw [Real.rpow_add (by norm_num)] at this
    exact this.trans (mul_le_mul_of_nonneg_left (two_pow_le (by norm_num) (by norm_num)) pa.le)
  have q2 : (2 : ℝ) ^ a ≤ (2 : ℝ) ^ (y : ℝ) * (1 + 1 / 1000000) := by
    have : (2 : ℝ) ^ a ≤ (2 : ℝ) ^ ((y : ℝ) + 1 / 1000000) := Real.rpow_le_rpow_of_exponent_le (by norm_num) (by linarith [ey.1])
    rw [Real.rpow_add (by norm_num)] at this
    exact this.trans (mul_le_mul_of_nonneg_left (two_pow_le (by norm_num) (by norm_num)) py.le)
  rw [abs_le] at er ⊢
  generalize (2 : ℝ) ^ a = A at *
  generalize (2 : ℝ) ^ (y : ℝ) = Y at *
  constructor <;> linarith [er.1, er.2]

/-- The band of a harmonic is in the same pair in both arithmetics. -/
theorem col2400_pair (hm : LibmAcc m) {b0 l : Nat} (h : b0 < 126) (h1 : 1 ≤ l) (h2 : l ≤ (AmbePlusLtable.getD b0 0).toNat) :
    ∃ j : Nat, toI32 ((ofInt (l : Int) *ᶠ toF (dlit 16 1)) *ᶠ (f0Of2400 b0 : IEEE m)) = .ok (j : Int) ∧ j < 8 ∧
      toI32 ((ofInt (l : Int) *ᶠ toF (dlit 16 1)) *ᶠ (f0Of2400 b0 : ℝ)) = .ok ((⌊16 * (l : ℝ) * f0Of2400 b0⌋.toNat : Nat) : Int) ∧
      ⌊16 * (l : ℝ) * f0Of2400 b0⌋.toNat < 8 ∧ j / 2 = ⌊16 * (l : ℝ) * f0Of2400 b0⌋.toNat / 2 := by
  obtain ⟨q, vq, q1, q2, eq⟩ := f0_near hm h
  have hr := ltabPlus_check _ h
  have hl : l < 57 := by omega
  obtain ⟨c1, c2⟩ := col_eval vq (by linarith) (L := (AmbePlusLtable.getD b0 0).toNat) (by omega) (by linarith) h2
  have c3 := c2 (by linarith)
  -- exact arithmetic
  obtain ⟨y1, y2⟩ := y2400_check b0 h
  have hb := pow_bound y1 y2
  have F0 : 0 ≤ (f0Of2400 b0 : ℝ) := by rw [f0Of2400_r]; positivity
  have F1 : 16 * ((AmbePlusLtable.getD b0 0).toNat : ℝ) * (f0Of2400 b0 : ℝ) < 8 := by
    rw [f0Of2400_r]
    have : 0 ≤ 16 * ((AmbePlusLtable.getD b0 0).toNat : ℝ) * (2 : ℝ) ^ ((y2400 b0 : ℚ) : ℝ) := by positivity
    linarith
  obtain ⟨d1, d2⟩ := col_lt_r F0 h2 F1
  have d3 := col_eval_r F0 d1
  refine ⟨_, c1, c3, d3, d2, ?_⟩
  have lr : (l : ℝ) ≤ (AmbePlusLtable.getD b0 0).toNat := by exact_mod_cast h2
  have X8 : 16 * (l : ℝ) * (f0Of2400 b0 : ℝ) < 8 := by
    refine lt_of_le_of_lt ?_ F1
    exact mul_le_mul_of_nonneg_right (mul_le_mul_of_nonneg_left lr (by norm_num)) F0
  have l0 : (0 : ℝ) < l := by exact_mod_cast h1
  rw [f0Of2400_r] at X8 ⊢
  have P0 : 0 < (2 : ℝ) ^ ((y2400 b0 : ℚ) : ℝ) := by positivity
  -- the product in binary32
  have q0 : 0 < q := by linarith
  have lq : (1 : ℚ) ≤ l := by exact_mod_cast h1
  have z0 : 0 < (l : ℚ) * 16 * q := by positivity
  have ez := rnd32_err ((l : ℚ) * 16 * q)
  rw [abs_of_pos z0] at ez
  have p24' : pow2 (-24) = 1 / 16777216 := by rw [pow2_eq]; norm_num
  have p150' : pow2 (-150) ≤ 1 / 16777216 / 16 := by rw [pow2_eq]; norm_num
  rw [p24'] at ez
  have zl : 1 / 16 ≤ (l : ℚ) * 16 * q := by
    have : (1 : ℚ) * 16 * q ≤ (l : ℚ) * 16 * q := by
      refine mul_le_mul_of_nonneg_right ?_ q0.le
      linarith
    linarith
  have cq : colQ q l = ⌊rnd F32 ((l : ℚ) * 16 * q)⌋.toNat := rfl
  rw [cq] at c3 ⊢
  generalize rnd F32 ((l : ℚ) * 16 * q) = x at ez c3
  have x0 : 0 ≤ x := by
    have := (abs_le.mp ez).1
    linarith
  have ef : ⌊x⌋ = ⌊(x : ℝ)⌋ := (Rat.floor_cast x).symm
  have ez2 : |x - (l : ℚ) * 16 * q| ≤ 1 / 8000000 * ((l : ℚ) * 16 * q) := by linarith
  have ez3 : |(x : ℝ) - (l : ℝ) * 16 * q| ≤ 1 / 8000000 * ((l : ℝ) * 16 * q) := by
    have : ((|x - (l : ℚ) * 16 * q| : ℚ) : ℝ) ≤ ((1 / 8000000 * ((l : ℚ) * 16 * q) : ℚ) : ℝ) := by exact_mod_cast ez2
    push_cast at this
    exact this
  have near : |(x : ℝ) - 16 * (l : ℝ) * (2 : ℝ) ^ ((y2400 b0 : ℚ) : ℝ)| ≤ 1 / 42000 * (16 * (l : ℝ) * (2 : ℝ) ^ ((y2400 b0 : ℚ) : ℝ)) := by
    have e1 : |(l : ℝ) * 16 * q - 16 * (l : ℝ) * (2 : ℝ) ^ ((y2400 b0 : ℚ) : ℝ)| ≤ 1 / 60000 * (16 * (l : ℝ) * (2 : ℝ) ^ ((y2400 b0 : ℚ) : ℝ)) := by
      have : (l : ℝ) * 16 * q - 16 * (l : ℝ) * (2 : ℝ) ^ ((y2400 b0 : ℚ) : ℝ) = 16 * (l : ℝ) * (q - (2 : ℝ) ^ ((y2400 b0 : ℚ) : ℝ)) := by ring
      rw [this, abs_mul, abs_of_pos (show 0 < 16 * (l : ℝ) by positivity)]
      have := mul_le_mul_of_nonneg_left eq (show 0 ≤ 16 * (l : ℝ) by positivity)
      linarith
    have X0 : 0 < 16 * (l : ℝ) * (2 : ℝ) ^ ((y2400 b0 : ℚ) : ℝ) := by positivity
    generalize 16 * (l : ℝ) * (2 : ℝ) ^ ((y2400 b0 : ℚ) : ℝ) = X at *
    generalize (l : ℝ) * 16 * q = Z at *
    rw [abs_le] at *
    constructor <;> linarith [e1.1, e1.2, ez3.1, ez3.2]
  have ck := clear2400_check b0 h l hl h1 h2
  rw [Bool.and_eq_true, Bool.and_eq_true] at ck
  obtain ⟨⟨k1, k2⟩, k3⟩ := ck
  rw [ef]
  have x8 : (x : ℝ) < 8 := by
    have : ⌊x⌋ < 8 := by omega
    rw [Int.floor_lt] at this
    exact_mod_cast this
  exact half_floor (by exact_mod_cast x0) (by positivity) x8 X8
    (clear2400_side h1 hl k1 (by norm_num) (by norm_num) near) (clear2400_side h1 hl k2 (by norm_num) (by norm_num) near)
    (clear2400_side h1 hl k3 lg3.1 lg3.2 near)

/-- The voicing decisions of a 2400 frame are those of exact arithmetic. -/
theorem voicing2400_eq (hm : LibmAcc m) {b0 b1 : Nat} (hb : b0 < 126) {cur cur' : Arr 57 Int} {L : Nat} (hLe : AmbePlusLtable.getD b0 0 = (L : Int))
    {V V' : Arr 57 Int} (hb1 : b1 < 16)
    (hv : ambeVoicing AmbePlusVuv b1 (f0Of2400 b0 : IEEE m) false (L : Int) cur = .ok V)
    (hv' : ambeVoicing AmbePlusVuv b1 (f0Of2400 b0 : ℝ) false (L : Int) cur' = .ok V') (l : Fin 57) (l1 : 1 ≤ l.val) (l2 : l.val ≤ L) :
    V l = V' l := by
  have hr := ltabPlus_check _ hb
  have p := ambeVoicing_post _ _ _ _ (by omega) _ _ hv l l1 l2
  have p' := ambeVoicing_post _ _ _ _ (by omega) _ _ hv' l l1 l2
  rw [if_neg (by decide)] at p p'
  obtain ⟨j, v, a1, a2, a3⟩ := p
  obtain ⟨j', v', a1', a2', a3'⟩ := p'
  obtain ⟨c, c1, c2, c3, c4, c5⟩ := col2400_pair hm hb l1 (by omega)
  generalize ⌊16 * (l.val : ℝ) * f0Of2400 b0⌋.toNat = c' at c3 c4 c5
  have e1 := ok_inj (a1.symm.trans c1)
  have e2 := ok_inj (a1'.symm.trans c3)
  subst e1
  subst e2
  have hl : AmbePlusVuv.length = 16 := by decide +kernel
  rw [tab2_ok 0 vuvPlus_shape (by omega) c2] at a2
  rw [tab2_ok 0 vuvPlus_shape (by omega) c4] at a2'
  rw [a3, a3', ← ok_inj a2, ← ok_inj a2', vuvPlus_pair b1 hb1 c c2, vuvPlus_pair b1 hb1 c' c4, c5]

end Verif.Model
