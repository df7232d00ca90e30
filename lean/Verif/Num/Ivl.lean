import Verif.Lemmas.FPOps
import Mathlib.Analysis.SpecialFunctions.Trigonometric.Basic
import Mathlib.Analysis.SpecialFunctions.Pow.Real
import Mathlib.Analysis.Complex.Exponential

/-!
# Interval arithmetic

A carrier whose elements are intervals of rationals (or no information). Running a model function on intervals gives, by
the relation `In`, bounds on the IEEE-754 run. The end points are rounded like the data themselves, which is sound because
rounding is monotone, so a computation without libm stays exact. libm enters through stated error bounds.
-/

namespace Verif.Num
open Verif Arith

/-- An interval, or no information. -/
inductive Ivl
  | top
  | mk (lo hi : ℚ)
  deriving DecidableEq

/-- The datum is finite and lies in the interval. -/
def In (x : FP) : Ivl → Prop
  | .top => True
  | .mk lo hi => ∃ q, Val x q ∧ lo ≤ q ∧ q ≤ hi

namespace Ivl

/-- Round both ends; no information beyond a range in which nothing overflows. -/
def fit (f : Fmt) (lo hi : ℚ) : Ivl := if -Val.big ≤ lo ∧ hi ≤ Val.big then mk (rnd f lo) (rnd f hi) else top

def add (f : Fmt) : Ivl → Ivl → Ivl
  | mk a b, mk c d => fit f (a + c) (b + d)
  | _, _ => top

def sub (f : Fmt) : Ivl → Ivl → Ivl
  | mk a b, mk c d => fit f (a - d) (b - c)
  | _, _ => top

def mul (f : Fmt) : Ivl → Ivl → Ivl
  | mk a b, mk c d => if a = 0 ∧ b = 0 then fit f 0 0 else
      fit f (min (min (a * c) (a * d)) (min (b * c) (b * d))) (max (max (a * c) (a * d)) (max (b * c) (b * d)))
  | _, _ => top

/-- Division by a positive number. -/
def div (f : Fmt) : Ivl → Ivl → Ivl
  | mk a b, mk c d => if 0 < c ∧ c = d then fit f (a / c) (b / c) else top
  | _, _ => top

def conv (f : Fmt) : Ivl → Ivl
  | mk a b => fit f a b
  | top => top

def neg : Ivl → Ivl
  | mk a b => mk (-b) (-a)
  | top => top

def trunc : Ivl → Option Int
  | mk a b => if FP.truncQ a = FP.truncQ b then some (FP.truncQ a) else none
  | top => none

/-- Taylor polynomial of the cosine with `n` terms. -/
def cosPoly (q : ℚ) : Nat → ℚ
  | 0 => 0
  | n + 1 => cosPoly q n + (-1) ^ n * q ^ (2 * n) / (2 * n).factorial

/-- Error allowed for `cosf` (absolute) and `exp2f` (relative). -/
def eps : ℚ := 1 / 65536

/-- The cosine of a single value of at most 22 in absolute value; a bound on the cosine of other values up to 64. -/
def cos : Ivl → Ivl
  | mk a b => if a = b ∧ |a| ≤ 22 then
      let c := Rat.floor (cosPoly a 40 * 1048576)
      mk (mkRat c 1048576 - 9 / 8 * eps) (mkRat c 1048576 + 5 / 4 * eps)
    else if -64 ≤ a ∧ b ≤ 64 then mk (-2) 2
    else top
  | top => top

/-- Powers of two at the integers around the interval. -/
def exp2 : Ivl → Ivl
  | mk a b => if -16 ≤ a ∧ b ≤ 64 then mk (pow2 (Rat.floor a) * (1 - eps)) (pow2 (-Rat.floor (-b)) * (1 + eps)) else top
  | top => top

instance : Arith Ivl where
  add := add F32
  sub := sub F32
  mul := mul F32
  div := div F32
  sqrt _ := top
  dadd := add F64
  dsub := sub F64
  dmul := mul F64
  ddiv := div F64
  toF := conv F32
  lit n d := fit F32 (mkRat n d) (mkRat n d)
  dlit n d := fit F64 (mkRat n d) (mkRat n d)
  ofInt n := fit F32 n n
  dofInt n := fit F64 n n
  lt _ _ := false
  le _ _ := false
  eq _ _ := false
  neg := neg
  abs _ := top
  floor _ := top
  ceil _ := top
  fmod _ _ := top
  trunc := trunc
  cos := cos
  sin _ := top
  exp2 := exp2
  log2 _ := top
  exp _ := top

end Ivl

/-- The accuracy that the interval run assumes of libm: `cosf` within `2^-16` and `exp2f` within a factor `1 ± 2^-16`. -/
structure LibmAcc (m : Libm) : Prop where
  cos : ∀ (x : FP) (q : ℚ), Val x q → |q| ≤ 64 → ∃ r : ℚ, Val (m.cos x) r ∧ |(r : ℝ) - Real.cos q| ≤ 1 / 65536
  exp2 : ∀ (x : FP) (q : ℚ), Val x q → -16 ≤ q → q ≤ 64 →
    ∃ r : ℚ, Val (m.exp2 x) r ∧ |(r : ℝ) - (2 : ℝ) ^ (q : ℝ)| ≤ (2 : ℝ) ^ (q : ℝ) / 65536

variable {m : Libm}

namespace In

theorem fit {f : Fmt} (hf : f = F32 ∨ f = F64) {s : Bool} {lo hi q : ℚ} (h1 : lo ≤ q) (h2 : q ≤ hi) :
    In (FP.round f s q) (Ivl.fit f lo hi) := by
  unfold Ivl.fit
  split
  · rename_i h
    have hq : |q| ≤ Val.big := abs_le.mpr ⟨by linarith [h.1], by linarith [h.2]⟩
    rcases hf with rfl | rfl
    · exact ⟨_, Val.round32 hq, rnd_mono F32_p h1, rnd_mono F32_p h2⟩
    · exact ⟨_, Val.round64 hq, rnd_mono F64_p h1, rnd_mono F64_p h2⟩
  · trivial

theorem addR {f : Fmt} (hf : f = F32 ∨ f = F64) {x y : FP} {A B : Ivl} (hx : In x A) (hy : In y B) :
    In (FP.addR f x y) (Ivl.add f A B) := by
  cases A <;> cases B <;> try trivial
  obtain ⟨p, ⟨s, rfl⟩, h1, h2⟩ := hx
  obtain ⟨q, ⟨t, rfl⟩, h3, h4⟩ := hy
  exact fit hf (add_le_add h1 h3) (add_le_add h2 h4)

theorem neg {x : FP} {A : Ivl} (hx : In x A) : In (FP.neg x) (Ivl.neg A) := by
  cases A <;> try trivial
  obtain ⟨p, ⟨s, rfl⟩, h1, h2⟩ := hx
  exact ⟨-p, ⟨_, rfl⟩, neg_le_neg h2, neg_le_neg h1⟩

theorem subR {f : Fmt} (hf : f = F32 ∨ f = F64) {x y : FP} {A B : Ivl} (hx : In x A) (hy : In y B) :
    In (FP.subR f x y) (Ivl.sub f A B) := by
  cases A <;> cases B <;> try trivial
  obtain ⟨p, ⟨s, rfl⟩, h1, h2⟩ := hx
  obtain ⟨q, ⟨t, rfl⟩, h3, h4⟩ := hy
  refine fit hf ?_ ?_ <;> linarith

theorem mul_bounds {a b c d p q : ℚ} (h1 : a ≤ p) (h2 : p ≤ b) (h3 : c ≤ q) (h4 : q ≤ d) :
    min (min (a * c) (a * d)) (min (b * c) (b * d)) ≤ p * q ∧
    p * q ≤ max (max (a * c) (a * d)) (max (b * c) (b * d)) := by
  have key : ∀ u v w : ℚ, ∀ z, v ≤ z → z ≤ w → min (u * v) (u * w) ≤ u * z ∧ u * z ≤ max (u * v) (u * w) := by
    intro u v w z hv hw
    rcases le_total 0 u with hu | hu
    · exact ⟨(min_le_left _ _).trans (mul_le_mul_of_nonneg_left hv hu),
        (mul_le_mul_of_nonneg_left hw hu).trans (le_max_right _ _)⟩
    · exact ⟨(min_le_right _ _).trans (mul_le_mul_of_nonpos_left hw hu),
        (mul_le_mul_of_nonpos_left hv hu).trans (le_max_left _ _)⟩
  have k1 := key q a b p h1 h2
  rw [mul_comm q a, mul_comm q b, mul_comm q p] at k1
  have k2 := key a c d q h3 h4
  have k3 := key b c d q h3 h4
  exact ⟨le_trans (min_le_min k2.1 k3.1) k1.1, k1.2.trans (max_le_max k2.2 k3.2)⟩

theorem mulR {f : Fmt} (hf : f = F32 ∨ f = F64) {x y : FP} {A B : Ivl} (hx : In x A) (hy : In y B) :
    In (FP.mulR f x y) (Ivl.mul f A B) := by
  cases A <;> cases B <;> try trivial
  obtain ⟨p, ⟨s, rfl⟩, h1, h2⟩ := hx
  obtain ⟨q, ⟨t, rfl⟩, h3, h4⟩ := hy
  unfold Ivl.mul
  dsimp only
  split
  · rename_i h
    have : p = 0 := le_antisymm (h2.trans_eq h.2) (h.1.symm.trans_le h1)
    subst this
    rw [FP.mulR, zero_mul]
    exact fit hf le_rfl le_rfl
  · have := mul_bounds h1 h2 h3 h4
    exact fit hf this.1 this.2

theorem divR {f : Fmt} (hf : f = F32 ∨ f = F64) {x y : FP} {A B : Ivl} (hx : In x A) (hy : In y B) :
    In (FP.divR f x y) (Ivl.div f A B) := by
  cases A <;> cases B <;> try trivial
  obtain ⟨p, ⟨s, rfl⟩, h1, h2⟩ := hx
  obtain ⟨q, ⟨t, rfl⟩, h3, h4⟩ := hy
  unfold Ivl.div
  dsimp only
  split
  · rename_i h
    obtain ⟨hc, rfl⟩ := h
    obtain rfl := le_antisymm h3 h4
    rw [FP.divR, if_neg hc.ne']
    exact fit hf (div_le_div_of_nonneg_right h1 hc.le) (div_le_div_of_nonneg_right h2 hc.le)
  · trivial

theorem conv {f : Fmt} (hf : f = F32 ∨ f = F64) {x : FP} {A : Ivl} (hx : In x A) : In (FP.conv f x) (Ivl.conv f A) := by
  cases A <;> try trivial
  obtain ⟨p, ⟨s, rfl⟩, h1, h2⟩ := hx
  exact fit hf h1 h2

theorem truncQ_mono {a b : ℚ} (h : a ≤ b) : FP.truncQ a ≤ FP.truncQ b := by
  unfold FP.truncQ
  simp only [Verif.Num.floor_eq]
  split <;> split
  · exact Int.floor_mono h
  · linarith
  · have h1 : 0 ≤ ⌊b⌋ := Int.floor_nonneg.mpr (by assumption)
    have h2 : 0 ≤ ⌊-a⌋ := Int.floor_nonneg.mpr (by linarith)
    omega
  · have : ⌊-b⌋ ≤ ⌊-a⌋ := Int.floor_mono (by linarith)
    omega

theorem trunc {x : FP} {A : Ivl} {n : Int} (hx : In x A) (h : Ivl.trunc A = some n) : FP.truncR x = some n := by
  cases A with
  | top => exact absurd h (by simp [Ivl.trunc])
  | mk a b =>
    obtain ⟨p, ⟨s, rfl⟩, h1, h2⟩ := hx
    unfold Ivl.trunc at h
    dsimp only at h
    split at h
    · rename_i e
      have e1 := truncQ_mono h1
      have e2 := truncQ_mono h2
      injection h with h
      show some _ = some _
      congr 1
      omega
    · exact absurd h (by simp)

end In

/-! ## Cosine -/

theorem cosPoly_eq (q : ℚ) (n : Nat) : ((Ivl.cosPoly q n : ℚ) : ℝ) = ∑ k ∈ Finset.range n, (-1) ^ k * (q : ℝ) ^ (2 * k) / (2 * k).factorial := by
  induction n with
  | zero => simp [Ivl.cosPoly]
  | succ n ih => rw [Finset.sum_range_succ, Ivl.cosPoly, ← ih]; push_cast; ring

theorem exp_sum_re (q : ℝ) (n : Nat) : (∑ k ∈ Finset.range (2 * n), ((q : ℂ) * Complex.I) ^ k / (k.factorial : ℂ)).re =
    ∑ k ∈ Finset.range n, (-1) ^ k * q ^ (2 * k) / (2 * k).factorial := by
  induction n with
  | zero => simp
  | succ n ih =>
    have h1 : ((q : ℂ) * Complex.I) ^ (2 * n) / ((2 * n).factorial : ℂ) = (((-1) ^ n * q ^ (2 * n) / (2 * n).factorial : ℝ) : ℂ) := by
      rw [mul_pow, pow_mul Complex.I, Complex.I_sq]
      push_cast
      ring
    have h2 : (((q : ℂ) * Complex.I) ^ (2 * n + 1) / ((2 * n + 1).factorial : ℂ)).re = 0 := by
      have : ((q : ℂ) * Complex.I) ^ (2 * n + 1) / ((2 * n + 1).factorial : ℂ) =
          (((-1) ^ n * q ^ (2 * n + 1) / (2 * n + 1).factorial : ℝ) : ℂ) * Complex.I := by
        rw [mul_pow, pow_succ Complex.I, pow_mul Complex.I, Complex.I_sq]
        push_cast
        ring
      rw [this, Complex.re_ofReal_mul, Complex.I_re, mul_zero]
    rw [show 2 * (n + 1) = 2 * n + 1 + 1 by ring, Finset.sum_range_succ, Finset.sum_range_succ, Complex.add_re, Complex.add_re,
      ih, h2, h1, Complex.ofReal_re, add_zero, Finset.sum_range_succ]

theorem cosPoly_close {q : ℚ} (h : |q| ≤ 22) : |((Ivl.cosPoly q 40 : ℚ) : ℝ) - Real.cos q| ≤ 1 / 1048576 := by
  have hq : |(q : ℝ)| ≤ 22 := by exact_mod_cast h
  have hn : ‖((q : ℝ) : ℂ) * Complex.I‖ = |(q : ℝ)| := by rw [norm_mul, Complex.norm_I, mul_one, Complex.norm_real, Real.norm_eq_abs]
  have hb := Complex.exp_bound' (x := ((q : ℝ) : ℂ) * Complex.I) (n := 80) (by
    rw [hn, div_le_iff₀ (by norm_num)]
    norm_num
    linarith)
  rw [hn] at hb
  have hr := (Complex.abs_re_le_norm _).trans hb
  rw [Complex.sub_re, show (80 : Nat) = 2 * 40 from rfl, exp_sum_re, Complex.exp_ofReal_mul_I_re, ← cosPoly_eq] at hr
  rw [abs_sub_comm]
  refine hr.trans ?_
  have : |(q : ℝ)| ^ (2 * 40) ≤ 22 ^ 80 := pow_le_pow_left₀ (abs_nonneg _) hq 80
  calc |(q : ℝ)| ^ (2 * 40) / ((2 * 40).factorial : ℝ) * 2 ≤ 22 ^ 80 / ((2 * 40).factorial : ℝ) * 2 := by gcongr
    _ ≤ 1 / 1048576 := by
      norm_num [Nat.factorial]

theorem In.cos (hm : LibmAcc m) {x : FP} {A : Ivl} (hx : In x A) : In (m.cos x) (Ivl.cos A) := by
  cases A with
  | top => trivial
  | mk a b =>
    obtain ⟨p, hp, h1, h2⟩ := hx
    unfold Ivl.cos
    dsimp only
    split
    · rename_i h
      obtain ⟨rfl, h22⟩ := h
      obtain rfl := le_antisymm h1 h2
      obtain ⟨r, hr, e⟩ := hm.cos x a hp (h22.trans (by norm_num))
      have hc := cosPoly_close h22
      rw [abs_le] at e hc
      have hf1 : ((Rat.floor (Ivl.cosPoly a 40 * 1048576) : ℚ)) ≤ Ivl.cosPoly a 40 * 1048576 := Int.floor_le _
      have hf2 : Ivl.cosPoly a 40 * 1048576 < (Rat.floor (Ivl.cosPoly a 40 * 1048576) : ℚ) + 1 := Int.lt_floor_add_one _
      have hk : mkRat (Rat.floor (Ivl.cosPoly a 40 * 1048576)) 1048576 = (Rat.floor (Ivl.cosPoly a 40 * 1048576) : ℚ) / 1048576 := by
        rw [Rat.mkRat_eq_div]; norm_num
      generalize Rat.floor (Ivl.cosPoly a 40 * 1048576) = z at *
      generalize Ivl.cosPoly a 40 = c at *
      have g1 : (z : ℝ) ≤ c * 1048576 := by exact_mod_cast hf1
      have g2 : (c : ℝ) * 1048576 < z + 1 := by exact_mod_cast hf2
      refine ⟨r, hr, ?_, ?_⟩
      · have : ((mkRat z 1048576 - 9 / 8 * Ivl.eps : ℚ) : ℝ) ≤ r := by
          rw [hk]; unfold Ivl.eps; push_cast
          linarith [e.1, hc.2]
        exact_mod_cast this
      · have : (r : ℝ) ≤ ((mkRat z 1048576 + 5 / 4 * Ivl.eps : ℚ) : ℝ) := by
          rw [hk]; unfold Ivl.eps; push_cast
          linarith [e.2, hc.1]
        exact_mod_cast this
    · split
      · rename_i h
        obtain ⟨r, hr, e⟩ := hm.cos x p hp (abs_le.mpr ⟨h.1.trans h1, h2.trans h.2⟩)
        rw [abs_le] at e
        have c1 := Real.neg_one_le_cos (p : ℝ)
        have c2 := Real.cos_le_one (p : ℝ)
        refine ⟨r, hr, ?_, ?_⟩
        · have : ((-2 : ℚ) : ℝ) ≤ r := by push_cast; linarith [e.1]
          exact_mod_cast this
        · have : (r : ℝ) ≤ ((2 : ℚ) : ℝ) := by push_cast; linarith [e.2]
          exact_mod_cast this
      · trivial

theorem pow2_real (k : Int) : ((pow2 k : ℚ) : ℝ) = (2 : ℝ) ^ ((k : ℤ) : ℝ) := by
  rw [pow2_eq, Real.rpow_intCast]; push_cast; rfl

theorem In.exp2 (hm : LibmAcc m) {x : FP} {A : Ivl} (hx : In x A) : In (m.exp2 x) (Ivl.exp2 A) := by
  cases A with
  | top => trivial
  | mk a b =>
    obtain ⟨p, hp, h1, h2⟩ := hx
    unfold Ivl.exp2
    dsimp only
    split
    · rename_i h
      obtain ⟨r, hr, e⟩ := hm.exp2 x p hp (h.1.trans h1) (h2.trans h.2)
      rw [abs_le] at e
      have l1 : ((Rat.floor a : Int) : ℝ) ≤ p := by
        have : ((Rat.floor a : Int) : ℚ) ≤ p := (Int.floor_le a).trans h1
        exact_mod_cast this
      have l2 : (p : ℝ) ≤ ((-Rat.floor (-b) : Int) : ℝ) := by
        have h3 : ((Rat.floor (-b) : Int) : ℚ) ≤ -b := Int.floor_le _
        have : (p : ℚ) ≤ ((-Rat.floor (-b) : Int) : ℚ) := by push_cast; linarith
        exact_mod_cast this
      have k1 := Real.rpow_le_rpow_of_exponent_le (x := 2) (by norm_num) l1
      have k2 := Real.rpow_le_rpow_of_exponent_le (x := 2) (by norm_num) l2
      rw [← pow2_real] at k1 k2
      have p1 : (0 : ℝ) < (pow2 (Rat.floor a) : ℚ) := by exact_mod_cast pow2_pos _
      refine ⟨r, hr, ?_, ?_⟩
      · have : ((pow2 (Rat.floor a) * (1 - Ivl.eps) : ℚ) : ℝ) ≤ r := by
          unfold Ivl.eps; push_cast
          nlinarith [e.1]
        exact_mod_cast this
      · have : (r : ℝ) ≤ ((pow2 (-Rat.floor (-b)) * (1 + Ivl.eps) : ℚ) : ℝ) := by
          unfold Ivl.eps; push_cast
          nlinarith [e.2]
        exact_mod_cast this
    · trivial

end Verif.Num
