import Mathlib.Data.Rat.Floor
import Mathlib.Algebra.Order.Field.Power
import Mathlib.Algebra.Order.Field.Rat
import Mathlib.Tactic.Ring
import Mathlib.Tactic.FieldSimp
import Mathlib.Tactic.Linarith
import Mathlib.Tactic.Positivity
import Mathlib.Tactic.NormNum

/-!
# Rounding to nearest even on the rationals (IEEE-754 4.3.1)
-/

namespace Verif.Num

/-- A binary format: precision `p`, exponent `emin` of the least significant bit of subnormals, overflow at `2^emax`. -/
structure Fmt where
  p : Nat
  emin : Int
  emax : Int

/-- IEEE-754 binary32. -/
def F32 : Fmt := ⟨24, -149, 128⟩
/-- IEEE-754 binary64. -/
def F64 : Fmt := ⟨53, -1074, 1024⟩

/-- `2^k`, written so that the kernel evaluates it with natural-number arithmetic. -/
def pow2 (k : Int) : ℚ := if 0 ≤ k then ((2 ^ k.toNat : Nat) : ℚ) else mkRat 1 (2 ^ (-k).toNat)

/-- `⌊log2 q⌋` for positive `q`. -/
def ilog2 (q : ℚ) : Int :=
  let k : Int := (Nat.log2 q.num.natAbs : Int) - (Nat.log2 q.den : Int)
  if q < pow2 k then k - 1 else k

/-- Nearest integer, ties to even. -/
def rne (x : ℚ) : Int :=
  let f := Rat.floor x
  let r := x - f
  if r < 1 / 2 then f else if 1 / 2 < r then f + 1 else if f % 2 = 0 then f else f + 1

/-- Exponent of the last place of the rounding of `q ≠ 0`. -/
def ulpExp (f : Fmt) (q : ℚ) : Int := max (ilog2 |q| - (f.p - 1)) f.emin

/-- Round to nearest even with unbounded exponent range above. -/
def rnd (f : Fmt) (q : ℚ) : ℚ :=
  if q = 0 then 0 else (rne (q * pow2 (-(ulpExp f q))) : ℚ) * pow2 (ulpExp f q)

/-! ## Basic facts -/

theorem pow2_eq (k : Int) : pow2 k = (2 : ℚ) ^ k := by
  unfold pow2
  by_cases h : 0 ≤ k
  · rw [if_pos h]
    lift k to Nat using h
    simp
  · rw [if_neg h]
    obtain ⟨n, rfl⟩ : ∃ n : Nat, k = -(n : Int) := ⟨(-k).toNat, by omega⟩
    rw [Rat.mkRat_eq_div]
    simp

theorem pow2_pos (k : Int) : 0 < pow2 k := by rw [pow2_eq]; positivity
theorem pow2_ne (k : Int) : pow2 k ≠ 0 := (pow2_pos k).ne'
theorem pow2_add (a b : Int) : pow2 (a + b) = pow2 a * pow2 b := by
  simp only [pow2_eq]; exact zpow_add₀ (by norm_num) a b
theorem pow2_neg (a : Int) : pow2 (-a) = (pow2 a)⁻¹ := by simp only [pow2_eq]; exact zpow_neg _ _
theorem pow2_le {a b : Int} (h : a ≤ b) : pow2 a ≤ pow2 b := by
  simp only [pow2_eq]; exact zpow_le_zpow_right₀ (by norm_num) h
theorem pow2_lt {a b : Int} (h : a < b) : pow2 a < pow2 b := by
  simp only [pow2_eq]; exact zpow_lt_zpow_right₀ (by norm_num) h
theorem pow2_lt_iff {a b : Int} : pow2 a < pow2 b ↔ a < b :=
  ⟨fun h => by by_contra hc; exact absurd (pow2_le (not_lt.mp hc)) (not_le.mpr h), pow2_lt⟩
theorem pow2_nat (n : Nat) : pow2 n = ((2 ^ n : Nat) : ℚ) := by simp [pow2]
theorem pow2_nat_int (n : Nat) : pow2 n = (((2 ^ n : Nat) : Int) : ℚ) := by rw [pow2_nat]; norm_cast
@[simp] theorem pow2_zero : pow2 0 = 1 := by simp [pow2_eq]
theorem pow2_succ (a : Int) : pow2 (a + 1) = 2 * pow2 a := by rw [pow2_add, pow2_eq 1]; simp; ring

theorem ilog2_spec {q : ℚ} (h : 0 < q) : pow2 (ilog2 q) ≤ q ∧ q < pow2 (ilog2 q + 1) := by
  have hn : 0 < q.num := Rat.num_pos.mpr h
  have hn' : q.num.natAbs ≠ 0 := by omega
  have hd : q.den ≠ 0 := q.den_nz
  set a := Nat.log2 q.num.natAbs with ha
  set b := Nat.log2 q.den with hb
  have a1 : 2 ^ a ≤ q.num.natAbs := Nat.log2_self_le hn'
  have a2 : q.num.natAbs < 2 ^ (a + 1) := (Nat.log2_lt hn').mp (by omega)
  have b1 : 2 ^ b ≤ q.den := Nat.log2_self_le hd
  have b2 : q.den < 2 ^ (b + 1) := (Nat.log2_lt hd).mp (by omega)
  have eq : q = (q.num.natAbs : ℚ) / (q.den : ℚ) := by
    have : (q.num.natAbs : ℚ) = (q.num : ℚ) := by
      rw [← Int.cast_natCast, Int.natAbs_of_nonneg hn.le]
    rw [this]; exact (Rat.num_div_den q).symm
  have dpos : (0 : ℚ) < q.den := by exact_mod_cast Nat.pos_of_ne_zero hd
  have A1 : pow2 a ≤ (q.num.natAbs : ℚ) := by rw [pow2_nat]; exact_mod_cast a1
  have A2 : (q.num.natAbs : ℚ) < pow2 (a + 1) := by
    have := pow2_nat (a + 1); push_cast at this; rw [this]; exact_mod_cast a2
  have B1 : pow2 b ≤ (q.den : ℚ) := by rw [pow2_nat]; exact_mod_cast b1
  have B2 : (q.den : ℚ) < pow2 (b + 1) := by
    have := pow2_nat (b + 1); push_cast at this; rw [this]; exact_mod_cast b2
  have lo : pow2 ((a : Int) - b - 1) < q := by
    rw [eq, lt_div_iff₀ dpos]
    calc pow2 ((a : Int) - b - 1) * q.den < pow2 ((a : Int) - b - 1) * pow2 (b + 1) :=
          mul_lt_mul_of_pos_left B2 (pow2_pos _)
      _ = pow2 a := by rw [← pow2_add]; congr 1; ring
      _ ≤ _ := A1
  have hi : q < pow2 ((a : Int) - b + 1) := by
    rw [eq, div_lt_iff₀ dpos]
    calc (q.num.natAbs : ℚ) < pow2 (a + 1) := A2
      _ = pow2 ((a : Int) - b + 1) * pow2 b := by rw [← pow2_add]; congr 1; ring
      _ ≤ _ := mul_le_mul_of_nonneg_left B1 (pow2_pos _).le
  unfold ilog2
  rw [← ha, ← hb]
  dsimp only
  split
  · next hlt => exact ⟨lo.le, by rwa [show (a : Int) - b - 1 + 1 = (a : Int) - b by ring]⟩
  · next hlt => exact ⟨not_lt.mp hlt, hi⟩

theorem ilog2_unique {q : ℚ} {k : Int} (h1 : pow2 k ≤ q) (h2 : q < pow2 (k + 1)) : ilog2 q = k := by
  have hq : 0 < q := lt_of_lt_of_le (pow2_pos k) h1
  obtain ⟨a, b⟩ := ilog2_spec hq
  have e1 : k < ilog2 q + 1 := pow2_lt_iff.mp (lt_of_le_of_lt h1 b)
  have e2 : ilog2 q < k + 1 := pow2_lt_iff.mp (lt_of_le_of_lt a h2)
  omega

theorem ilog2_mono {a b : ℚ} (ha : 0 < a) (h : a ≤ b) : ilog2 a ≤ ilog2 b := by
  obtain ⟨a1, _⟩ := ilog2_spec ha
  obtain ⟨_, b2⟩ := ilog2_spec (lt_of_lt_of_le ha h)
  have : ilog2 a < ilog2 b + 1 := pow2_lt_iff.mp (lt_of_le_of_lt (a1.trans h) b2)
  omega

theorem ilog2_lt {a : ℚ} {k : Int} (ha : 0 < a) (h : a < pow2 k) : ilog2 a < k :=
  pow2_lt_iff.mp (lt_of_le_of_lt (ilog2_spec ha).1 h)

theorem le_ilog2 {a : ℚ} {k : Int} (h : pow2 k ≤ a) : k ≤ ilog2 a := by
  have ha : 0 < a := lt_of_lt_of_le (pow2_pos k) h
  have := pow2_lt_iff.mp (lt_of_le_of_lt h (ilog2_spec ha).2)
  omega

/-! ## Nearest integer -/

theorem floor_eq (x : ℚ) : Rat.floor x = ⌊x⌋ := rfl

theorem rne_int (n : Int) : rne (n : ℚ) = n := by
  unfold rne
  simp [floor_eq]

theorem rne_dist (x : ℚ) : |(rne x : ℚ) - x| ≤ 1 / 2 := by
  unfold rne
  rw [floor_eq]
  have h1 := Int.floor_le x
  have h2 := Int.lt_floor_add_one x
  dsimp only
  split
  · rw [abs_le]; constructor <;> linarith
  · split
    · push_cast; rw [abs_le]; constructor <;> linarith
    · split
      · rw [abs_le]; constructor <;> linarith
      · push_cast; rw [abs_le]; constructor <;> linarith

theorem rne_cases (x : ℚ) : rne x = ⌊x⌋ ∨ rne x = ⌊x⌋ + 1 := by
  unfold rne; rw [floor_eq]; dsimp only; split <;> (try split) <;> (try split) <;> simp

theorem rne_mono {x y : ℚ} (h : x ≤ y) : rne x ≤ rne y := by
  have hf : ⌊x⌋ ≤ ⌊y⌋ := Int.floor_le_floor h
  rcases hf.lt_or_eq with hlt | heq
  · rcases rne_cases x with e | e <;> rcases rne_cases y with e' | e' <;> omega
  · unfold rne
    rw [floor_eq, floor_eq, heq]
    dsimp only
    have : x - (⌊y⌋ : ℚ) ≤ y - (⌊y⌋ : ℚ) := by linarith
    split <;> split <;> (try split) <;> (try split) <;> (try split) <;>
      first | omega | (exfalso; linarith)

theorem rne_neg (x : ℚ) : rne (-x) = -rne x := by
  by_cases hx : (⌊x⌋ : ℚ) = x
  · have e : x = ((⌊x⌋ : Int) : ℚ) := hx.symm
    rw [e, ← Int.cast_neg, rne_int, rne_int]
  · have h1 : (⌊x⌋ : ℚ) < x := lt_of_le_of_ne (Int.floor_le x) hx
    have h2 := Int.lt_floor_add_one x
    have e : ⌊-x⌋ = -⌊x⌋ - 1 := by
      rw [Int.floor_eq_iff]; push_cast; constructor <;> linarith
    unfold rne
    rw [floor_eq, floor_eq, e]
    push_cast
    by_cases a : x - (⌊x⌋ : ℚ) < 1 / 2
    · rw [if_pos a, if_neg (by linarith), if_pos (by linarith)]; ring
    · rw [if_neg a]
      by_cases b : 1 / 2 < x - (⌊x⌋ : ℚ)
      · rw [if_pos b, if_pos (by linarith)]; ring
      · rw [if_neg b, if_neg (by linarith), if_neg (by linarith)]
        split <;> split <;> omega

/-! ## Rounding -/

@[simp] theorem rnd_zero (f : Fmt) : rnd f 0 = 0 := by simp [rnd]

theorem ulpExp_neg (f : Fmt) (q : ℚ) : ulpExp f (-q) = ulpExp f q := by simp [ulpExp]

theorem rnd_neg (f : Fmt) (q : ℚ) : rnd f (-q) = -rnd f q := by
  unfold rnd
  by_cases h : q = 0
  · simp [h]
  · rw [if_neg h, if_neg (by simpa using h), ulpExp_neg, neg_mul, rne_neg]
    push_cast; ring

/-- A value whose quotient by the last place is an integer is unchanged. -/
theorem rnd_of_int {f : Fmt} {q : ℚ} {n : Int} (h : q = n * pow2 (ulpExp f q)) : rnd f q = q := by
  by_cases h0 : q = 0
  · simp [h0]
  · unfold rnd
    rw [if_neg h0]
    have : q * pow2 (-(ulpExp f q)) = n := by
      rw [pow2_neg]; nth_rewrite 1 [h]; field_simp [pow2_ne]
    rw [this, rne_int]; exact h.symm

/-- Representable: an integer of at most `p` bits scaled by a power of two not below the subnormal quantum. -/
def Repr (f : Fmt) (q : ℚ) : Prop := ∃ m e : Int, q = m * pow2 e ∧ |m| ≤ 2 ^ f.p ∧ f.emin ≤ e

theorem rnd_repr {f : Fmt} (hp : 1 ≤ f.p) {q : ℚ} (h : Repr f q) : rnd f q = q := by
  obtain ⟨m, e, hq, hm, he⟩ := h
  by_cases h0 : q = 0
  · simp [h0]
  have hm0 : m ≠ 0 := by rintro rfl; simp at hq; exact h0 hq
  have habs : |q| = (|m| : Int) * pow2 e := by
    rw [hq, abs_mul, abs_of_pos (pow2_pos e)]; push_cast; rfl
  have hpos : 0 < |q| := abs_pos.mpr h0
  by_cases hlt : |m| < 2 ^ f.p
  · have hl : ilog2 |q| < e + f.p := by
      apply ilog2_lt hpos
      rw [habs, pow2_add, mul_comm]
      apply mul_lt_mul_of_pos_left _ (pow2_pos e)
      rw [pow2_nat]; exact_mod_cast hlt
    have hle : ulpExp f q ≤ e := by unfold ulpExp; omega
    obtain ⟨d, hd⟩ : ∃ d : Nat, e = ulpExp f q + d := ⟨(e - ulpExp f q).toNat, by omega⟩
    apply rnd_of_int (n := m * 2 ^ d)
    rw [hq]
    nth_rewrite 1 [hd]
    rw [← hq, pow2_add, pow2_nat]; push_cast; ring
  · have hm' : |m| = 2 ^ f.p := le_antisymm hm (not_lt.mp hlt)
    have habs' : |q| = pow2 (e + f.p) := by
      rw [habs, hm', pow2_add, pow2_nat]; push_cast; ring
    have hl : ilog2 |q| = e + f.p :=
      ilog2_unique habs'.ge (by rw [habs']; exact pow2_lt (by omega))
    have hle : ulpExp f q = e + 1 := by unfold ulpExp; rw [hl]; omega
    have hmm : m = 2 ^ f.p ∨ m = -2 ^ f.p := by
      rcases abs_choice m with h | h <;> omega
    obtain ⟨p', hp'⟩ : ∃ p', f.p = p' + 1 := ⟨f.p - 1, by omega⟩
    rcases hmm with h | h
    · apply rnd_of_int (n := 2 ^ p')
      rw [hle, pow2_succ, hq, h, hp']; push_cast; ring
    · apply rnd_of_int (n := -2 ^ p')
      rw [hle, pow2_succ, hq, h, hp']; push_cast; ring

theorem rnd_nonneg {f : Fmt} {q : ℚ} (h : 0 ≤ q) : 0 ≤ rnd f q := by
  unfold rnd
  split
  · exact le_refl _
  · apply mul_nonneg _ (pow2_pos _).le
    have : rne (0 : Int) ≤ rne (q * pow2 (-(ulpExp f q))) := rne_mono (by
      push_cast; exact mul_nonneg h (pow2_pos _).le)
    rw [rne_int] at this
    exact_mod_cast this

theorem rnd_mono_pos {f : Fmt} (hp : 1 ≤ f.p) {a b : ℚ} (ha : 0 < a) (h : a ≤ b) : rnd f a ≤ rnd f b := by
  have hb : 0 < b := lt_of_lt_of_le ha h
  have hab := ilog2_mono ha h
  have ea : ulpExp f a = max (ilog2 a - (f.p - 1)) f.emin := by rw [ulpExp, abs_of_pos ha]
  have eb : ulpExp f b = max (ilog2 b - (f.p - 1)) f.emin := by rw [ulpExp, abs_of_pos hb]
  have hle : ulpExp f a ≤ ulpExp f b := by omega
  have ra : rnd f a = (rne (a * pow2 (-(ulpExp f a))) : ℚ) * pow2 (ulpExp f a) := by
    unfold rnd; rw [if_neg ha.ne']
  have rb : rnd f b = (rne (b * pow2 (-(ulpExp f b))) : ℚ) * pow2 (ulpExp f b) := by
    unfold rnd; rw [if_neg hb.ne']
  rcases hle.eq_or_lt with heq | hlt
  · rw [ra, rb, heq]
    apply mul_le_mul_of_nonneg_right _ (pow2_pos _).le
    exact_mod_cast rne_mono (mul_le_mul_of_nonneg_right h (pow2_pos _).le)
  · -- the boundary 2^(ilog2 b) separates the two
    have hb' : ulpExp f b = ilog2 b - (f.p - 1) := by omega
    have hil : ilog2 a < ilog2 b := by omega
    have h1 : rnd f a ≤ pow2 (ilog2 b) := by
      obtain ⟨d, hd⟩ : ∃ d : Nat, ilog2 b = ulpExp f a + d := ⟨(ilog2 b - ulpExp f a).toNat, by omega⟩
      have ha2 : a ≤ pow2 (ilog2 b) := ((ilog2_spec ha).2.trans_le (pow2_le (by omega))).le
      rw [ra]
      have : rne (a * pow2 (-(ulpExp f a))) ≤ (2 ^ d : Int) := by
        have e : pow2 (ilog2 b) * pow2 (-(ulpExp f a)) = ((2 ^ d : Int) : ℚ) := by
          rw [hd, pow2_add, pow2_neg, pow2_nat]; field_simp [pow2_ne]; push_cast; rfl
        rw [← rne_int (2 ^ d), ← e]
        exact rne_mono (mul_le_mul_of_nonneg_right ha2 (pow2_pos _).le)
      calc _ ≤ ((2 ^ d : Int) : ℚ) * pow2 (ulpExp f a) :=
            mul_le_mul_of_nonneg_right (by exact_mod_cast this) (pow2_pos _).le
        _ = pow2 (ilog2 b) := by rw [hd, pow2_add, pow2_nat]; push_cast; ring
    have h2 : pow2 (ilog2 b) ≤ rnd f b := by
      obtain ⟨d, hd⟩ : ∃ d : Nat, ilog2 b = ulpExp f b + d := ⟨(ilog2 b - ulpExp f b).toNat, by omega⟩
      rw [rb]
      have : (2 ^ d : Int) ≤ rne (b * pow2 (-(ulpExp f b))) := by
        have e : pow2 (ilog2 b) * pow2 (-(ulpExp f b)) = ((2 ^ d : Int) : ℚ) := by
          nth_rewrite 1 [hd]
          rw [pow2_add, pow2_neg, pow2_nat]; field_simp [pow2_ne]; push_cast; rfl
        rw [← rne_int (2 ^ d), ← e]
        exact rne_mono (mul_le_mul_of_nonneg_right (ilog2_spec hb).1 (pow2_pos _).le)
      calc pow2 (ilog2 b) = ((2 ^ d : Int) : ℚ) * pow2 (ulpExp f b) := by
            nth_rewrite 1 [hd]; rw [pow2_add, pow2_nat]; push_cast; ring
        _ ≤ _ := mul_le_mul_of_nonneg_right (by exact_mod_cast this) (pow2_pos _).le
    exact h1.trans h2

/-- Rounding is monotone. -/
theorem rnd_mono {f : Fmt} (hp : 1 ≤ f.p) {a b : ℚ} (h : a ≤ b) : rnd f a ≤ rnd f b := by
  rcases lt_trichotomy a 0 with ha | ha | ha
  · rcases lt_or_ge b 0 with hb | hb
    · have := rnd_mono_pos hp (a := -b) (b := -a) (by linarith) (by linarith)
      rw [rnd_neg, rnd_neg] at this; linarith
    · have h1 := rnd_nonneg (f := f) hb
      have h2 := rnd_nonneg (f := f) (q := -a) (by linarith)
      rw [rnd_neg] at h2; linarith
  · subst ha; rw [rnd_zero]; exact rnd_nonneg h
  · exact rnd_mono_pos hp ha h

/-- Error bound: half a unit in the last place. -/
theorem rnd_err (f : Fmt) (q : ℚ) : |rnd f q - q| ≤ pow2 (ulpExp f q) / 2 := by
  unfold rnd
  by_cases h : q = 0
  · subst h; rw [if_pos rfl]; simp only [sub_zero, abs_zero]; have := pow2_pos (ulpExp f 0); linarith
  · rw [if_neg h]
    have e : (rne (q * pow2 (-(ulpExp f q))) : ℚ) * pow2 (ulpExp f q) - q
        = ((rne (q * pow2 (-(ulpExp f q))) : ℚ) - q * pow2 (-(ulpExp f q))) * pow2 (ulpExp f q) := by
      rw [sub_mul, mul_assoc, pow2_neg, inv_mul_cancel₀ (pow2_ne _), mul_one]
    rw [e, abs_mul, abs_of_pos (pow2_pos _)]
    have := rne_dist (q * pow2 (-(ulpExp f q)))
    calc _ ≤ 1 / 2 * pow2 (ulpExp f q) := mul_le_mul_of_nonneg_right this (pow2_pos _).le
      _ = _ := by ring

/-- Relative error bound in the normal range. -/
theorem rnd_rel {f : Fmt} {q : ℚ} (h : pow2 (f.emin + f.p - 1) ≤ |q|) : |rnd f q - q| ≤ pow2 (-f.p) * |q| := by
  have hpos : 0 < |q| := lt_of_lt_of_le (pow2_pos _) h
  have hl := le_ilog2 h
  have e : ulpExp f q = ilog2 |q| - (f.p - 1) := by unfold ulpExp; omega
  refine (rnd_err f q).trans ?_
  have : pow2 (ulpExp f q) / 2 = pow2 (-f.p) * pow2 (ilog2 |q|) := by
    rw [e, ← pow2_add, show ilog2 |q| - ((f.p : Int) - 1) = (-f.p + ilog2 |q|) + 1 by ring, pow2_succ]; ring
  rw [this]
  exact mul_le_mul_of_nonneg_left (ilog2_spec hpos).1 (pow2_pos _).le

/-- The result of rounding is representable. -/
theorem rnd_isRepr (f : Fmt) (q : ℚ) : Repr f (rnd f q) := by
  by_cases h : q = 0
  · exact ⟨0, f.emin, by simp [h], by simp, le_refl _⟩
  · refine ⟨rne (q * pow2 (-(ulpExp f q))), ulpExp f q, by unfold rnd; rw [if_neg h], ?_, by unfold ulpExp; omega⟩
    have hpos : 0 < |q| := abs_pos.mpr h
    have hb : |q| ≤ pow2 (ulpExp f q + f.p) := by
      refine (ilog2_spec hpos).2.le.trans (pow2_le ?_)
      unfold ulpExp; omega
    have hx : |q * pow2 (-(ulpExp f q))| ≤ ((2 ^ f.p : Int) : ℚ) := by
      rw [abs_mul, abs_of_pos (pow2_pos _)]
      calc |q| * pow2 (-(ulpExp f q)) ≤ pow2 (ulpExp f q + f.p) * pow2 (-(ulpExp f q)) :=
            mul_le_mul_of_nonneg_right hb (pow2_pos _).le
        _ = _ := by rw [← pow2_add, show ulpExp f q + (f.p : Int) + -(ulpExp f q) = (f.p : Int) by ring, pow2_nat]; push_cast; rfl
    rw [abs_le] at hx ⊢
    constructor
    · have := rne_mono hx.1
      rw [← Int.cast_neg, rne_int] at this; exact this
    · have := rne_mono hx.2
      rw [rne_int] at this; exact this

theorem repr_int {f : Fmt} (hf : f.emin ≤ 0) {n : Int} (h : |n| ≤ 2 ^ f.p) : Repr f (n : ℚ) :=
  ⟨n, 0, by simp, h, hf⟩

theorem rnd_int {f : Fmt} (hp : 1 ≤ f.p) (hf : f.emin ≤ 0) {n : Int} (h : |n| ≤ 2 ^ f.p) : rnd f (n : ℚ) = n :=
  rnd_repr hp (repr_int hf h)

theorem repr_neg {f : Fmt} {q : ℚ} (h : Repr f q) : Repr f (-q) := by
  obtain ⟨m, e, a, b, c⟩ := h
  exact ⟨-m, e, by rw [a]; push_cast; ring, by rwa [abs_neg], c⟩

/-- Every binary32 value is a binary64 value. -/
theorem repr_32_64 {q : ℚ} (h : Repr F32 q) : Repr F64 q := by
  obtain ⟨m, e, a, b, c⟩ := h
  refine ⟨m, e, a, b.trans ?_, ?_⟩
  · simp only [F32, F64]; norm_num
  · simp only [F32, F64] at *; omega

example : rnd F32 (1/10) = 13421773 / 134217728 := by decide +kernel
example : rnd F32 (16777217) = 16777216 := by decide +kernel
example : rnd F64 (1/3) = 6004799503160661 / 18014398509481984 := by decide +kernel

end Verif.Num
