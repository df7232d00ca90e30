import Verif.Num.FP

/-!
# Floating-point operations on finite data
-/

namespace Verif.Num
open Verif Arith

theorem F32_p : (1 : Nat) ≤ F32.p := by decide
theorem F64_p : (1 : Nat) ≤ F64.p := by decide
theorem F32_emin : F32.emin ≤ 0 := by decide

/-- `x` is finite with value `q`. -/
def Val (x : FP) (q : ℚ) : Prop := ∃ s, x = FP.fin s q

theorem Val.unique {x : FP} {p q : ℚ} (h : Val x p) (h' : Val x q) : p = q := by
  obtain ⟨s, rfl⟩ := h
  obtain ⟨t, ht⟩ := h'
  injection ht

/-- Rounding keeps a bound that is itself representable. -/
theorem rnd_le_of_repr {f : Fmt} (hp : 1 ≤ f.p) {q b : ℚ} (hb : Repr f b) (h : q ≤ b) : rnd f q ≤ b := by
  have := rnd_mono hp h
  rwa [rnd_repr hp hb] at this

theorem le_rnd_of_repr {f : Fmt} (hp : 1 ≤ f.p) {q b : ℚ} (hb : Repr f b) (h : b ≤ q) : b ≤ rnd f q := by
  have := rnd_mono hp h
  rwa [rnd_repr hp hb] at this

theorem abs_rnd_le {f : Fmt} (hp : 1 ≤ f.p) {q b : ℚ} (hb : Repr f b) (h : |q| ≤ b) : |rnd f q| ≤ b := by
  rw [abs_le] at h ⊢
  exact ⟨le_rnd_of_repr hp (repr_neg hb) h.1, rnd_le_of_repr hp hb h.2⟩

theorem repr_pow2 {f : Fmt} {k : Int} (h : f.emin ≤ k) : Repr f (pow2 k) :=
  ⟨1, k, by simp, by simpa using one_le_pow₀ (by norm_num : (1 : Int) ≤ 2), h⟩

/-- Relative form of the rounding error for positive normal values. -/
theorem rnd_le_rel {f : Fmt} {q : ℚ} (h : pow2 (f.emin + f.p - 1) ≤ q) : rnd f q ≤ q * (1 + pow2 (-f.p)) := by
  have hq : 0 < q := lt_of_lt_of_le (pow2_pos _) h
  have := rnd_rel (f := f) (q := q) (by rwa [abs_of_pos hq])
  rw [abs_of_pos hq, abs_le] at this
  nlinarith [this.2]

theorem rnd_ge_rel {f : Fmt} {q : ℚ} (h : pow2 (f.emin + f.p - 1) ≤ q) : q * (1 - pow2 (-f.p)) ≤ rnd f q := by
  have hq : 0 < q := lt_of_lt_of_le (pow2_pos _) h
  have := rnd_rel (f := f) (q := q) (by rwa [abs_of_pos hq])
  rw [abs_of_pos hq, abs_le] at this
  nlinarith [this.1]

namespace Val

theorem round {f : Fmt} {s : Bool} {q : ℚ} (h : |rnd f q| < pow2 f.emax) : Val (FP.round f s q) (rnd f q) := by
  unfold FP.round
  by_cases h0 : q = 0
  · rw [if_pos h0, h0, rnd_zero]; exact ⟨s, rfl⟩
  · rw [if_neg h0]
    simp only
    rw [if_neg (not_le.mpr h)]
    exact ⟨_, rfl⟩

theorem round' {f : Fmt} {s : Bool} {q : ℚ} (hp : 1 ≤ f.p) (he : f.emin ≤ f.emax - 1) (h : |q| ≤ pow2 (f.emax - 1)) :
    Val (FP.round f s q) (rnd f q) :=
  round (lt_of_le_of_lt (abs_rnd_le hp (repr_pow2 he) h) (pow2_lt (by omega)))

variable {m : Libm} {x y : IEEE m} {a b : ℚ}

/-- A bound under which no operation in binary32 overflows. -/
def big : ℚ := pow2 127
theorem big_eq : big = 170141183460469231731687303715884105728 := by unfold big; rw [pow2_eq]; norm_num
theorem big_pos : 0 < big := pow2_pos _

theorem round32 {s : Bool} {q : ℚ} (h : |q| ≤ big) : Val (FP.round F32 s q) (rnd F32 q) :=
  round' F32_p (by decide) h
theorem round64 {s : Bool} {q : ℚ} (h : |q| ≤ big) : Val (FP.round F64 s q) (rnd F64 q) :=
  round' F64_p (by decide) (h.trans (pow2_le (by decide)))

theorem add (hx : Val x a) (hy : Val y b) (h : |a + b| ≤ big) : Val (x +ᶠ y : IEEE m) (rnd F32 (a + b)) := by
  obtain ⟨s, rfl⟩ := hx
  obtain ⟨t, rfl⟩ := hy
  exact round32 h

theorem neg (hx : Val x a) : Val (Arith.neg x : IEEE m) (-a) := by
  obtain ⟨s, rfl⟩ := hx
  exact ⟨_, rfl⟩

theorem sub (hx : Val x a) (hy : Val y b) (h : |a - b| ≤ big) : Val (x -ᶠ y : IEEE m) (rnd F32 (a - b)) := by
  obtain ⟨s, rfl⟩ := hx
  obtain ⟨t, rfl⟩ := hy
  rw [sub_eq_add_neg] at h ⊢
  exact round32 h

theorem mul (hx : Val x a) (hy : Val y b) (h : |a * b| ≤ big) : Val (x *ᶠ y : IEEE m) (rnd F32 (a * b)) := by
  obtain ⟨s, rfl⟩ := hx
  obtain ⟨t, rfl⟩ := hy
  exact round32 h

theorem div (hx : Val x a) (hy : Val y b) (h0 : b ≠ 0) (h : |a / b| ≤ big) :
    Val (x /ᶠ y : IEEE m) (rnd F32 (a / b)) := by
  obtain ⟨s, rfl⟩ := hx
  obtain ⟨t, rfl⟩ := hy
  show Val (FP.divR F32 (.fin s a) (.fin t b)) _
  rw [FP.divR, if_neg h0]
  exact round32 h

theorem dadd (hx : Val x a) (hy : Val y b) (h : |a + b| ≤ big) : Val (x +ᵈ y : IEEE m) (rnd F64 (a + b)) := by
  obtain ⟨s, rfl⟩ := hx
  obtain ⟨t, rfl⟩ := hy
  exact round64 h

theorem dsub (hx : Val x a) (hy : Val y b) (h : |a - b| ≤ big) : Val (x -ᵈ y : IEEE m) (rnd F64 (a - b)) := by
  obtain ⟨s, rfl⟩ := hx
  obtain ⟨t, rfl⟩ := hy
  rw [sub_eq_add_neg] at h ⊢
  exact round64 h

theorem dmul (hx : Val x a) (hy : Val y b) (h : |a * b| ≤ big) : Val (x *ᵈ y : IEEE m) (rnd F64 (a * b)) := by
  obtain ⟨s, rfl⟩ := hx
  obtain ⟨t, rfl⟩ := hy
  exact round64 h

theorem ddiv (hx : Val x a) (hy : Val y b) (h0 : b ≠ 0) (h : |a / b| ≤ big) :
    Val (x /ᵈ y : IEEE m) (rnd F64 (a / b)) := by
  obtain ⟨s, rfl⟩ := hx
  obtain ⟨t, rfl⟩ := hy
  show Val (FP.divR F64 (.fin s a) (.fin t b)) _
  rw [FP.divR, if_neg h0]
  exact round64 h

theorem toF (hx : Val x a) (h : |a| ≤ big) : Val (Arith.toF x : IEEE m) (rnd F32 a) := by
  obtain ⟨s, rfl⟩ := hx
  exact round32 h

/-- Integers up to `2^24` convert to `float` exactly. -/
theorem ofInt {n : Int} (h : |n| ≤ 2 ^ 24) : Val (Arith.ofInt n : IEEE m) n := by
  have e : rnd F32 (n : ℚ) = n := rnd_int F32_p F32_emin h
  have := round32 (s := false) (q := (n : ℚ)) (by
    have : ((|n| : Int) : ℚ) ≤ ((2 ^ 24 : Int) : ℚ) := Int.cast_le.mpr h
    rw [Int.cast_abs] at this
    refine this.trans ?_
    rw [big_eq]; norm_num)
  rw [e] at this
  exact this

theorem fi {n : Int} (h : |n| ≤ 2 ^ 24) : Val (Verif.fi n : IEEE m) n := ofInt h

theorem lit {n : Int} {d : Nat} (h : |mkRat n d| ≤ big) : Val (Arith.lit n d : IEEE m) (rnd F32 (mkRat n d)) := round32 h
theorem dlit {n : Int} {d : Nat} (h : |mkRat n d| ≤ big) : Val (Arith.dlit n d : IEEE m) (rnd F64 (mkRat n d)) := round64 h

theorem lt (hx : Val x a) (hy : Val y b) : Arith.lt x y = decide (a < b) := by
  obtain ⟨s, rfl⟩ := hx
  obtain ⟨t, rfl⟩ := hy
  rfl

theorem le (hx : Val x a) (hy : Val y b) : Arith.le x y = decide (a ≤ b) := by
  obtain ⟨s, rfl⟩ := hx
  obtain ⟨t, rfl⟩ := hy
  rfl

theorem eq (hx : Val x a) (hy : Val y b) : Arith.eq x y = decide (a = b) := by
  obtain ⟨s, rfl⟩ := hx
  obtain ⟨t, rfl⟩ := hy
  rfl

theorem trunc (hx : Val x a) : Arith.trunc x = some (FP.truncQ a) := by
  obtain ⟨s, rfl⟩ := hx
  rfl

theorem toI32 (hx : Val x a) (h0 : 0 ≤ a) (h : a < 2147483648) : Verif.toI32 x = .ok ⌊a⌋ := by
  unfold Verif.toI32
  rw [hx.trunc]
  have e : FP.truncQ a = ⌊a⌋ := by unfold FP.truncQ; rw [if_pos h0]; rfl
  have h1 : (0 : Int) ≤ ⌊a⌋ := Int.floor_nonneg.mpr h0
  have h2 : ⌊a⌋ < 2147483648 := by rw [Int.floor_lt]; exact_mod_cast h
  simp only [e]
  rw [if_pos ⟨by omega, h2⟩]

end Val

/-- `x` is finite and at most `b` in absolute value. -/
def Bnd (x : FP) (b : ℚ) : Prop := ∃ q, Val x q ∧ |q| ≤ b

end Verif.Num
