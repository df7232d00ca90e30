import Verif.Lemmas.UnvoicedAcc
import Verif.Props.Accuracy

/-!
# The unvoiced block in binary32
-/

namespace Verif.Model
open Verif Verif.Gen Verif.Spec Verif.Num Arith
variable {m : Libm}

theorem binAt_norm' (a : Arr 256 ℝ) {B : ℝ} (h : ∀ i, |a i| ≤ B) {k : ℕ} : ‖binAt a k‖ ≤ 3 / 2 * B := by
  have hB : 0 ≤ B := (abs_nonneg _).trans (h 0)
  have s : ∀ i : ℕ, |seqOf a i| ≤ B := fun i => by
    rw [seqOf]
    split
    · exact h _
    · simpa using hB
  have r2 : Real.sqrt 2 ≤ 3 / 2 := by
    rw [Real.sqrt_le_left (by norm_num)]
    norm_num
  have key : ∀ z : ℂ, |z.re| ≤ B → |z.im| ≤ B → ‖z‖ ≤ 3 / 2 * B := fun z h1 h2 =>
    (Complex.norm_le_sqrt_two_mul_max z).trans (mul_le_mul r2 (max_le h1 h2) (le_max_of_le_left (abs_nonneg _)) (by norm_num))
  rw [binAt]
  split
  · exact key _ (by simpa using h 0) (by simpa using hB)
  split
  · exact key _ (by simpa using h 1) (by simpa using hB)
  split
  · exact key _ (s _) (s _)
  · exact key _ (s _) (by rw [abs_neg]; exact s _)

/-- A part of a bin is no larger than the bin. -/
theorem part_le (a : Arr 256 ℝ) (i : Fin 256) : a i ^ 2 ≤ Complex.normSq (binAt a (binOf i.val)) := by
  have hi := i.isLt
  unfold binOf
  by_cases h0 : i.val = 0
  · rw [if_pos h0, binAt, if_pos rfl, Complex.normSq_ofReal, show (0 : Fin 256) = i from Fin.ext h0.symm, sq]
  by_cases h1 : i.val = 1
  · rw [if_neg h0, if_pos h1, binAt, if_neg (by decide), if_pos rfl, Complex.normSq_ofReal, show (1 : Fin 256) = i from Fin.ext h1.symm, sq]
  rw [if_neg h0, if_neg h1, binAt, if_neg (by omega), if_neg (by omega), if_pos (by omega), Complex.normSq_mk]
  have s1 := mul_self_nonneg (seqOf a (2 * (i.val / 2)))
  have s2 := mul_self_nonneg (seqOf a (2 * (i.val / 2) + 1))
  rcases Nat.mod_two_eq_zero_or_one i.val with e | e
  · have : seqOf a (2 * (i.val / 2)) = a i := by
      rw [seqOf, dif_pos (by omega)]
      congr 1
      exact Fin.ext (by dsimp only; omega)
    rw [this] at s1 ⊢
    rw [sq]
    linarith
  · have : seqOf a (2 * (i.val / 2) + 1) = a i := by
      rw [seqOf, dif_pos (by omega)]
      congr 1
      exact Fin.ext (by dsimp only; omega)
    rw [this] at s2 ⊢
    rw [sq]
    linarith

theorem dft_perturb {a b : ℕ → ℝ} {d : ℝ} (h : ∀ n, n < 256 → |a n - b n| ≤ d) (k : ℕ) : ‖dft 256 a k - dft 256 b k‖ ≤ 256 * d := by
  unfold dft
  rw [← Finset.sum_sub_distrib]
  refine (norm_sum_le_of_le (Finset.range 256) (n := fun _ => d) fun n hn => ?_).trans ?_
  · rw [← sub_mul, norm_mul, ← Complex.ofReal_sub, Complex.norm_real, Real.norm_eq_abs, om, Complex.norm_exp_ofReal_mul_I, mul_one]
    exact h n (Finset.mem_range.1 hn)
  · rw [Finset.sum_const, Finset.card_range, nsmul_eq_mul]
    push_cast
    exact le_rfl

/-- The transforms of `E` are those of exact arithmetic within the bounds of `C68`. -/
def FftNear (E : Env (IEEE m)) : Prop :=
  ∀ {R : Env ℝ}, Runs R → ∀ {B : ℝ}, 1 / 2 ^ 100 ≤ B → B ≤ 2 ^ 100 → ∀ {a : Arr 256 (IEEE m)} {b : Arr 256 ℝ},
    (∀ j, Near 0 B (a j) (b j)) → ∀ j : Fin 256,
    Near (B / 200) (1372 * B) (E.fwd a j) (R.fwd b j) ∧ Near (B / 100) (2048 * B) (E.bwd a j) (R.bwd b j)

theorem fftNear_scalar (hcos : CosAcc m) (hsin : SinAcc m) {E : Env (IEEE m)} (hE : Runs E) : FftNear E :=
  fun hR _ hB hb _ _ h j => runs_near hcos hsin hE hR hB hb h j

/-- The spectrum of the windowed noise. -/
theorem noiseSpectrum_near {E : Env (IEEE m)} (hF : FftNear E) {noise : Arr 256 (IEEE m)} (hn : ∀ i, Bnd (noise i) (2 ^ 16)) :
    ∃ x : Fin 256 → ℚ, (∀ i, Val (E.fwd (fun i => noise i *ᶠ winAt ((i.val : Int) - 128)) i) (x i)) ∧ (∀ i, |(x i : ℝ)| ≤ 2 ^ 30) ∧
      ∀ k, k < 256 → ‖binAt (fun i => (x i : ℝ)) k - dft 256 (seqOf fun i => number (noise i) * winAt ((i.val : Int) - 128)) k‖ ≤ 512 := by
  obtain ⟨R, hR, _⟩ := (Props.C61_env (F := ℝ) true true).1
  have hU : ∀ i : Fin 256, Near (1 / 100) 65536 (noise i *ᶠ winAt ((i.val : Int) - 128) : IEEE m) (number (noise i) *ᶠ winAt ((i.val : Int) - 128)) := fun i =>
    Near.mul (near_self (B := 65536) (hn i) (by norm_num)) (winAt_near ((i.val : Int) - 128)) (by norm_num) (by norm_num) (by norm_num)
  choose u hu eu bu using hU
  have bu' : ∀ i, |(u i : ℝ)| ≤ 65537 := fun i => by
    have := abs_sub_abs_le_abs_sub (u i : ℝ) (number (noise i) *ᶠ winAt ((i.val : Int) - 128))
    have h1 := eu i
    have h2 := bu i
    linarith
  have key := fun j => (hF hR (B := 65537) (by norm_num) (by norm_num) (Props.near_exact hu bu') j).1
  choose x hx ex bx using key
  refine ⟨x, hx, fun i => ?_, fun k hk => ?_⟩
  · have := abs_sub_abs_le_abs_sub (x i : ℝ) (R.fwd (fun i => (u i : ℝ)) i)
    have h1 := ex i
    have h2 := bx i
    norm_num at h1 h2 ⊢
    linarith
  · have f := (ordered_iff _ _).1 (Props.C62_forward R hR fun i => (u i : ℝ)) k hk
    have d1 : ‖binAt (fun i => (x i : ℝ)) k - binAt (R.fwd fun i => (u i : ℝ)) k‖ ≤ 3 / 2 * (65537 / 200) := by
      rw [Props.binAt_sub]
      exact binAt_norm' _ fun i => ex i
    have d2 : ‖dft 256 (seqOf fun i => (u i : ℝ)) k - dft 256 (seqOf fun i => number (noise i) * winAt ((i.val : Int) - 128)) k‖ ≤ 256 * (1 / 100) := by
      refine dft_perturb (fun n hn => ?_) k
      rw [seqOf, dif_pos hn, seqOf, dif_pos hn]
      exact eu ⟨n, hn⟩
    rw [f] at d1
    have := norm_add_le (binAt (fun i => (x i : ℝ)) k - dft 256 (seqOf fun i => (u i : ℝ)) k)
      (dft 256 (seqOf fun i => (u i : ℝ)) k - dft 256 (seqOf fun i => number (noise i) * winAt ((i.val : Int) - 128)) k)
    rw [sub_add_sub_cancel] at this
    norm_num at d1 d2
    linarith

theorem normalized_val : Val (lit 1 1 /ᶠ ofInt 256 : IEEE m) (1 / 256) :=
  val_of_rng (show rngB (lit 1 1 /ᶠ ofInt 256 : IEEE libm0) (1 / 256) (1 / 256) = true by decide +kernel)

/-- From the scaled spectrum to the block. -/
theorem block_near {E : Env (IEEE m)} (hF : FftNear E) {R : Env ℝ} (hR : Runs R) {fft : Arr 256 (IEEE m)} {S : Arr 129 (IEEE m)}
    {x : Fin 256 → ℚ} {g : Fin 129 → ℚ} (hx : ∀ i, Val (fft i) (x i)) (hg : ∀ k, Val (S k) (g k)) {B : ℝ} (hB0 : 0 ≤ B) (hB : B ≤ 2 ^ 60)
    (hb : ∀ i : Fin 256, |(x i : ℝ)| * |(g ⟨binOf i.val, binOf_lt i⟩ : ℝ)| ≤ B) (n : Fin 256) :
    ∃ q : ℚ, Val (E.bwd (fun i => fft i *ᶠ S ⟨binOf i.val, binOf_lt i⟩) n *ᶠ (lit 1 1 /ᶠ ofInt 256) : IEEE m) q ∧
      |(q : ℝ) - R.bwd (fun i => (x i : ℝ) *ᶠ (g ⟨binOf i.val, binOf_lt i⟩ : ℝ)) n *ᶠ (lit 1 1 /ᶠ ofInt 256 : ℝ)| ≤ B / 20000 + 1 / 2 ^ 90 := by
  have hp : ∀ i : Fin 256, Near (B / 2 ^ 24 + 1 / 2 ^ 150) B (fft i *ᶠ S ⟨binOf i.val, binOf_lt i⟩ : IEEE m) ((x i : ℝ) *ᶠ (g ⟨binOf i.val, binOf_lt i⟩ : ℝ)) := fun i => by
    have a1 : Near 0 |(x i : ℝ)| (fft i) (x i : ℝ) := ⟨_, hx i, by simp, le_rfl⟩
    have a2 : Near 0 |(g ⟨binOf i.val, binOf_lt i⟩ : ℝ)| (S ⟨binOf i.val, binOf_lt i⟩) (g ⟨binOf i.val, binOf_lt i⟩ : ℝ) := ⟨_, hg _, by simp, le_rfl⟩
    refine Near.mul a1 a2 (hb i) ?_ ?_
    · norm_num
    · norm_num at hB ⊢
      linarith
  choose y hy ey by' using hp
  have yB : ∀ i, |(y i : ℝ)| ≤ 1001 / 1000 * B + 1 / 2 ^ 100 := fun i => by
    have := abs_sub_abs_le_abs_sub (y i : ℝ) ((x i : ℝ) *ᶠ (g ⟨binOf i.val, binOf_lt i⟩ : ℝ))
    have h1 := ey i
    have h2 := by' i
    norm_num at h1 ⊢
    linarith
  have k1 := (hF hR (B := 1001 / 1000 * B + 1 / 2 ^ 100) (by norm_num; linarith) (by norm_num at hB ⊢; linarith) (Props.near_exact hy yB) n).2
  have k2 := Props.bwd_perturb R hR (fun i => (y i : ℝ)) (fun i => (x i : ℝ) *ᶠ (g ⟨binOf i.val, binOf_lt i⟩ : ℝ)) (d := B / 2 ^ 24 + 1 / 2 ^ 150) ey n
  have a3 : Near 0 (1 / 256) (lit 1 1 /ᶠ ofInt 256 : IEEE m) (1 / 256) := ⟨_, normalized_val, by norm_num, by norm_num [abs_of_pos]⟩
  have e256 : (lit 1 1 /ᶠ ofInt 256 : ℝ) = 1 / 256 := by
    rw [RealArith.lit_r _ _ (by decide), RealArith.div_r, RealArith.ofInt_r]
    norm_num
  obtain ⟨q, vq, hq, _⟩ := Near.mul (e := 1 / 22000 * B + 1 / 2 ^ 95) (B := 8 * (1001 / 1000 * B + 1 / 2 ^ 100)) k1 a3 (by norm_num; linarith) (by norm_num; linarith)
    (by norm_num at hB ⊢; linarith)
  refine ⟨q, vq, ?_⟩
  rw [e256]
  rw [RealArith.mul_r] at hq ⊢
  have k3 : |R.bwd (fun i => (y i : ℝ)) n * (1 / 256) - R.bwd (fun i => (x i : ℝ) *ᶠ (g ⟨binOf i.val, binOf_lt i⟩ : ℝ)) n * (1 / 256)| ≤
      512 * (B / 2 ^ 24 + 1 / 2 ^ 150) * (1 / 256) := by
    rw [← sub_mul, abs_mul, abs_of_pos (show (0 : ℝ) < 1 / 256 by norm_num)]
    exact mul_le_mul_of_nonneg_right k2 (by norm_num)
  refine (abs_sub_le _ _ _).trans ((add_le_add hq k3).trans ?_)
  norm_num
  linarith

theorem power_le {x : Arr 256 ℝ} (hx : ∀ i, |x i| ≤ 2 ^ 30) {a b : ℕ} (hb : b ≤ 128) : powerOf (binAt x) a b ≤ 2 ^ 70 := by
  unfold powerOf
  refine (Finset.sum_le_card_nsmul _ _ (2 ^ 62) fun k _ => ?_).trans ?_
  · have h := binAt_norm' x hx (k := k)
    rw [Complex.normSq_eq_norm_sq]
    refine (pow_le_pow_left₀ (norm_nonneg _) h 2).trans ?_
    norm_num
  · rw [Nat.card_Ico, nsmul_eq_mul]
    have : ((b - a : ℕ) : ℝ) ≤ 128 := by exact_mod_cast (by omega : b - a ≤ 128)
    refine (mul_le_mul_of_nonneg_right this (by positivity)).trans ?_
    norm_num

theorem power_nonneg (X : ℕ → ℂ) (a b : ℕ) : 0 ≤ powerOf X a b := Finset.sum_nonneg fun k _ => Complex.normSq_nonneg _

/-- An element of the scaled spectrum. -/
theorem scaled_le {x : Arr 256 ℝ} {g c d : ℝ} {a b : ℕ} (hb : b ≤ 128) (i : Fin 256) (h1 : a ≤ binOf i.val) (h2 : binOf i.val < b)
    (hg : |g * Real.sqrt (powerOf (binAt x) a b / ((b : ℝ) - a)) - c| ≤ d) : |x i| * |g| ≤ 12 * (|c| + d) := by
  have hp : |x i| ≤ Real.sqrt (powerOf (binAt x) a b) := by
    refine Real.abs_le_sqrt ((part_le x i).trans ?_)
    exact Finset.single_le_sum (f := fun k => Complex.normSq (binAt x k)) (fun k _ => Complex.normSq_nonneg _) (Finset.mem_Ico.2 ⟨h1, h2⟩)
  have n0 : (0 : ℝ) < (b : ℝ) - a := by
    have : (a : ℝ) < b := by exact_mod_cast (by omega : a < b)
    linarith
  have n1 : (b : ℝ) - a ≤ 128 := by
    have : (b : ℝ) ≤ 128 := by exact_mod_cast hb
    have := Nat.cast_nonneg (α := ℝ) a
    linarith
  have s : Real.sqrt (powerOf (binAt x) a b) ≤ Real.sqrt (powerOf (binAt x) a b / ((b : ℝ) - a)) * 12 := by
    have e : powerOf (binAt x) a b = powerOf (binAt x) a b / ((b : ℝ) - a) * ((b : ℝ) - a) := by field_simp
    conv_lhs => rw [e, Real.sqrt_mul (div_nonneg (power_nonneg _ _ _) n0.le)]
    refine mul_le_mul_of_nonneg_left ?_ (Real.sqrt_nonneg _)
    rw [Real.sqrt_le_left (by norm_num)]
    linarith
  generalize hT : Real.sqrt (powerOf (binAt x) a b / ((b : ℝ) - a)) = T at *
  have T0 : 0 ≤ T := hT ▸ Real.sqrt_nonneg _
  have h3 := mul_le_mul_of_nonneg_right (hp.trans s) (abs_nonneg g)
  have h4 : |g * T| ≤ |c| + d := by
    have := abs_sub_abs_le_abs_sub (g * T) c
    linarith
  rw [abs_mul, abs_of_nonneg T0] at h4
  linarith

/-- A computation of the power of a band is accurate. -/
def PowerNear (pw : Arr 256 (IEEE m) → Int → Int → IEEE m) : Prop :=
  ∀ {fft : Arr 256 (IEEE m)} {x : Fin 256 → ℚ}, (∀ i, Val (fft i) (x i)) → (∀ i, |(x i : ℝ)| ≤ 2 ^ 30) → ∀ {a b : ℕ}, b ≤ 128 →
    Near (1 / 2 ^ 14 * powerOf (binAt fun i => (x i : ℝ)) a b + 1 / 2 ^ 130) (powerOf (binAt fun i => (x i : ℝ)) a b)
      (pw fft (a : Int) (b : Int)) (powerOf (binAt fun i => (x i : ℝ)) a b)

/-- As `Owns`, with a given power. -/
def OwnsW (pw : Int → Int → IEEE m) (Vl : Arr 57 Int) (Ml : Arr 57 (IEEE m)) (lo hi : Nat → Int) (l : Fin 57) (k : Nat) (v : IEEE m) : Prop :=
  Vl l = 0 ∧ lo l.val ≤ k ∧ (k : Int) < hi l.val ∧ lt (lit 1 10000000000) (pw (lo l.val) (hi l.val)) = true ∧
    v = (lit 14617696 100000 *ᶠ Ml l) /ᶠ sqrt (pw (lo l.val) (hi l.val) /ᶠ ofInt (hi l.val - lo l.val))

/-- As `GainAt`, with a given power. -/
def GainW (pw : Int → Int → IEEE m) (Vl : Arr 57 Int) (Ml : Arr 57 (IEEE m)) (lo hi : Nat → Int) (n k : Nat) (v : IEEE m) : Prop :=
  (v = fi 0 ∧ ∀ l : Fin 57, 1 ≤ l.val → l.val ≤ n → ∀ v', ¬ OwnsW pw Vl Ml lo hi l k v') ∨
  ∃ l : Fin 57, 1 ≤ l.val ∧ l.val ≤ n ∧ OwnsW pw Vl Ml lo hi l k v ∧
    ∀ l' : Fin 57, l.val < l'.val → l'.val ≤ n → ∀ v', ¬ OwnsW pw Vl Ml lo hi l' k v'

/-- What an unvoiced synthesis computes, with a given power. -/
def BlockW (pw : Arr 256 (IEEE m) → Int → Int → IEEE m) (E : Env (IEEE m)) (noise : Arr 256 (IEEE m)) (cur : Parms (IEEE m)) (u : Arr 256 (IEEE m)) : Prop :=
  ∃ (lo hi : Nat → Int) (S : Arr 129 (IEEE m)),
    (∀ l : Nat, 1 ≤ l → (l : Int) ≤ cur.L → Edges cur.w0 l (lo l) (hi l)) ∧
    (∀ k : Fin 129, GainW (pw (E.fwd fun i => noise i *ᶠ winAt ((i.val : Int) - 128))) cur.Vl cur.Ml lo hi cur.L.toNat k.val (S k)) ∧
    u = (fun i => E.bwd (fun i => E.fwd (fun i => noise i *ᶠ winAt ((i.val : Int) - 128)) i *ᶠ
      S ⟨binOf i.val, binOf_lt i⟩) i *ᶠ (lit 1 1 /ᶠ ofInt 256))

/-- The unvoiced block is shaped noise. -/
theorem shape_of {pw : Arr 256 (IEEE m) → Int → Int → IEEE m} (hpw : PowerNear pw) {E : Env (IEEE m)} (hF : FftNear E) {noise : Arr 256 (IEEE m)}
    {cur : Parms (IEEE m)} (hL : cur.L ≤ 56) (hw : ∃ q, Val cur.w0 q ∧ (q = 0 ∨ 1 / 64 ≤ q) ∧ q ≤ 5 / 8) (hn : ∀ i, Bnd (noise i) (2 ^ 16))
    {A : ℚ} (hA0 : 0 ≤ A) (hA1 : A ≤ 2 ^ 32) (hA : UnvoicedBnd A cur) {u : Arr 256 (IEEE m)} (hu : BlockW pw E noise cur u) :
    (∀ i, ∃ q, Val (u i) q) ∧ ShapedNoise (A / 10 + 1 / 2 ^ 80) (valuesOf cur) (windowed noise) (seqOf fun n => number (u n)) := by
  obtain ⟨R, hR, _⟩ := (Props.C61_env (F := ℝ) true true).1
  obtain ⟨q, vq, q1, q2⟩ := hw
  obtain ⟨e, eL, e128, emono, eE⟩ := limits_near vq q1 q2
  obtain ⟨x, hx, xb, hX⟩ := noiseSpectrum_near hF hn
  have hA0' : (0 : ℝ) ≤ A := by exact_mod_cast hA0
  have hA1' : (A : ℝ) ≤ 2 ^ 32 := by
    have : (A : ℝ) ≤ ((2 ^ 32 : ℚ) : ℝ) := by exact_mod_cast hA1
    push_cast at this
    exact this
  obtain ⟨lo, hi, S, he, hS, h2⟩ := hu
  generalize hfft : E.fwd (fun i => noise i *ᶠ winAt ((i.val : Int) - 128)) = fft at *
  -- limits of one band
  have lim : ∀ l : Fin 57, 1 ≤ l.val → (l.val : Int) ≤ cur.L → 0 ≤ lo l.val ∧ (e l.val : Int) = min 128 (lo l.val) ∧ (e (l.val + 1) : Int) = hi l.val :=
    fun l l1 l2 => eE l.val _ _ l1 (by omega) (he l.val l1 l2)
  have own : ∀ l : Fin 57, 1 ≤ l.val → (l.val : Int) ≤ cur.L → ∀ k : ℕ, (lo l.val ≤ k ∧ (k : Int) < hi l.val) ↔ (e l.val ≤ k ∧ k < e (l.val + 1)) := by
    intro l l1 l2 k
    have := lim l l1 l2
    have := e128 (l.val + 1)
    omega
  have uniq : ∀ l l' : Fin 57, 1 ≤ l.val → 1 ≤ l'.val → ∀ k, e l.val ≤ k → k < e (l.val + 1) → e l'.val ≤ k → k < e (l'.val + 1) → l = l' := by
    intro l l' l1 l1' k a b c d
    refine Fin.ext (le_antisymm ?_ ?_) <;> by_contra h
    · have := emono (l'.val + 1) l.val (by omega) (by omega)
      omega
    · have := emono (l.val + 1) l'.val (by omega) (by omega)
      omega
  -- the gain of one band
  have gain : ∀ l : Fin 57, 1 ≤ l.val → (l.val : Int) ≤ cur.L → cur.Vl l = 0 → e l.val < e (l.val + 1) →
      lt (lit 1 10000000000) (pw fft (lo l.val) (hi l.val)) = true →
      ∃ g : ℚ, Val ((lit 14617696 100000 *ᶠ cur.Ml l) /ᶠ sqrt (pw fft (lo l.val) (hi l.val) /ᶠ ofInt (hi l.val - lo l.val)) : IEEE m) g ∧
        1 / (2 * 10 ^ 10) ≤ powerOf (binAt fun i => (x i : ℝ)) (e l.val) (e (l.val + 1)) ∧ |number (cur.Ml l)| ≤ A ∧
        |(g : ℝ) * Real.sqrt (powerOf (binAt fun i => (x i : ℝ)) (e l.val) (e (l.val + 1)) / ((e (l.val + 1) : ℝ) - e l.val)) - 146.17696 * number (cur.Ml l)| ≤
          |146.17696 * number (cur.Ml l)| / 10000 + 1 / 2 ^ 80 := by
    intro l l1 l2 lv lt' hlt
    have hl := lim l l1 l2
    have hh := e128 (l.val + 1)
    have e1 : lo l.val = (e l.val : ℕ) := by omega
    have e2 : hi l.val = (e (l.val + 1) : ℕ) := by omega
    have hM : Bnd (cur.Ml l) A := by
      rcases hA with h | h
      · exact h l l1 l2 lv
      · have := edges_zero h l.isLt (he l.val l1 l2)
        omega
    obtain ⟨t, vt, te, tb⟩ := bnd_number hM
    have hp := hpw hx xb (a := e l.val) hh
    rw [e1, e2] at hlt ⊢
    have e3 : ((e (l.val + 1) : ℕ) : Int) - ((e l.val : ℕ) : Int) = ((e (l.val + 1) - e l.val : ℕ) : Int) := by omega
    have e4 : (e (l.val + 1) : ℝ) - e l.val = ((e (l.val + 1) - e l.val : ℕ) : ℝ) := by rw [Nat.cast_sub lt'.le]
    rw [e3, e4]
    obtain ⟨g, vg, hg⟩ := gain_near vt (by rw [← te]; exact tb.trans hA1') (power_nonneg _ _ _) (power_le xb hh) hp hlt
      (show 1 ≤ e (l.val + 1) - e l.val by omega) (by omega)
    exact ⟨g, vg, (silent_near (power_nonneg _ _ _) hp).1 hlt, tb, by rw [te]; exact hg⟩
  -- the gain of one bin
  have gains : ∀ k : Fin 129, ∃ g : ℚ, Val (S k) g ∧
      (g = 0 ∨ ∃ l : Fin 57, 1 ≤ l.val ∧ (l.val : Int) ≤ cur.L ∧ cur.Vl l = 0 ∧ e l.val ≤ k.val ∧ k.val < e (l.val + 1) ∧ |number (cur.Ml l)| ≤ A ∧
        |(g : ℝ) * Real.sqrt (powerOf (binAt fun i => (x i : ℝ)) (e l.val) (e (l.val + 1)) / ((e (l.val + 1) : ℝ) - e l.val)) - 146.17696 * number (cur.Ml l)| ≤
          |146.17696 * number (cur.Ml l)| / 10000 + 1 / 2 ^ 80) := by
    intro k
    rcases hS k with ⟨h, _⟩ | ⟨l, l1, l2, ⟨o1, o2, o3, o4, o5⟩, _⟩
    · exact ⟨0, by rw [h]; exact ⟨_, rfl⟩, .inl rfl⟩
    · have l2' : (l.val : Int) ≤ cur.L := by omega
      have hk := (own l l1 l2' k.val).1 ⟨o2, o3⟩
      obtain ⟨g, vg, _, a, b⟩ := gain l l1 l2' o1 (by omega) o4
      exact ⟨g, by rw [o5]; exact vg, .inr ⟨l, l1, l2', o1, hk.1, hk.2, a, b⟩⟩
  choose g hg gk using gains
  have hb : ∀ i : Fin 256, |(x i : ℝ)| * |(g ⟨binOf i.val, binOf_lt i⟩ : ℝ)| ≤ 1755 * (A : ℝ) + 1 / 2 ^ 75 := by
    intro i
    rcases gk ⟨binOf i.val, binOf_lt i⟩ with h | ⟨l, _, _, _, a, b, c, d⟩
    · rw [h, Rat.cast_zero, abs_zero, mul_zero]
      positivity
    · refine (scaled_le (x := fun i => (x i : ℝ)) (e128 _) i a b d).trans ?_
      rw [abs_mul, abs_of_nonneg (show (0 : ℝ) ≤ 146.17696 by norm_num)]
      generalize |number (cur.Ml l)| = M at *
      norm_num
      linarith
  have hB0 : (0 : ℝ) ≤ 1755 * (A : ℝ) + 1 / 2 ^ 75 := by positivity
  have hB1 : 1755 * (A : ℝ) + 1 / 2 ^ 75 ≤ 2 ^ 60 := by
    norm_num at hA1' ⊢
    linarith
  have key := block_near hF hR hx hg hB0 hB1 hb
  refine ⟨fun i => ?_, e, binAt fun i => (x i : ℝ), fun k => if h : k < 129 then (g ⟨k, h⟩ : ℝ) else 0,
    seqOf fun n => R.bwd (fun i => (x i : ℝ) *ᶠ (g ⟨binOf i.val, binOf_lt i⟩ : ℝ)) n *ᶠ (lit 1 1 /ᶠ ofInt 256), ?_, fun k hk => hX k (by omega), fun k hk => ?_, fun k hk h => ?_, ?_, fun n hn => ?_⟩
  · obtain ⟨y, vy, _⟩ := key i
    rw [h2]
    exact ⟨y, vy⟩
  · show LimitsWithin _ (number cur.w0) e
    rw [Val.number vq]
    exact eL
  · rw [dft_normalized R hR _ (by omega)]
    dsimp only
    rw [dif_pos (show k < 129 by omega)]
    exact binAt_scale (fun i => (x i : ℝ)) (fun k => (g k : ℝ)) ⟨k, by omega⟩
  · dsimp only
    rw [dif_pos (show k < 129 by omega)]
    rcases gk ⟨k, by omega⟩ with z | ⟨l, l1, l2, lv, a, b, _⟩
    · rw [z, Rat.cast_zero]
    · exact absurd ⟨a, b⟩ (h l l1 l2 lv)
  · intro l l1 l2 lv hlt
    have l2 : (l.val : Int) ≤ cur.L := l2
    have hh := e128 (l.val + 1)
    have hl := lim l l1 l2
    by_cases p : lt (lit 1 10000000000) (pw fft (lo l.val) (hi l.val)) = true
    · obtain ⟨γ, vγ, a, _, b⟩ := gain l l1 l2 lv hlt p
      refine ⟨γ, fun k k1 k2 => ?_, .inr ⟨a, b⟩⟩
      dsimp only
      rw [dif_pos (show k < 129 by omega)]
      have hk := (own l l1 l2 k).2 ⟨k1, k2⟩
      rcases hS ⟨k, by omega⟩ with ⟨_, h⟩ | ⟨l', l1', l2', ⟨o1, o2, o3, o4, o5⟩, _⟩
      · exact absurd ⟨lv, hk.1, hk.2, p, rfl⟩ (h l l1 (by omega) _)
      · have hk' := (own l' l1' (by omega) k).1 ⟨o2, o3⟩
        obtain rfl := uniq l l' l1 l1' k k1 k2 hk'.1 hk'.2
        have v := hg ⟨k, by omega⟩
        rw [o5] at v
        rw [v.unique vγ]
    · refine ⟨0, fun k k1 k2 => ?_, .inl ⟨rfl, ?_⟩⟩
      · dsimp only
        rw [dif_pos (show k < 129 by omega)]
        rcases hS ⟨k, by omega⟩ with ⟨z, _⟩ | ⟨l', l1', l2', ⟨o1, o2, o3, o4, o5⟩, _⟩
        · have v := hg ⟨k, by omega⟩
          rw [z] at v
          have v0 : Val (fi 0 : IEEE m) 0 := ⟨_, rfl⟩
          rw [v.unique v0, Rat.cast_zero]
        · have hk' := (own l' l1' (by omega) k).1 ⟨o2, o3⟩
          obtain rfl := uniq l l' l1 l1' k k1 k2 hk'.1 hk'.2
          exact absurd o4 p
      · have e1 : lo l.val = (e l.val : ℕ) := by omega
        have e2 : hi l.val = (e (l.val + 1) : ℕ) := by omega
        rw [e1, e2] at p
        exact (silent_near (power_nonneg _ _ _) (hpw hx xb hh)).2 p
  · rw [seqOf, dif_pos hn, seqOf, dif_pos hn, h2]
    obtain ⟨y, vy, hy⟩ := key ⟨n, hn⟩
    rw [Val.number vy]
    refine hy.trans ?_
    norm_num
    linarith

/-- The unvoiced block is shaped noise. -/
theorem unvoiced_shape (hcos : CosAcc m) (hsin : SinAcc m) {E : Env (IEEE m)} (hE : Runs E) {P : Plan (IEEE m)} {noise : Arr 256 (IEEE m)} {cur prev : Parms (IEEE m)}
    {out : Arr 160 (IEEE m)} (hL : cur.L ≤ 56) (hw : ∃ q, Val cur.w0 q ∧ (q = 0 ∨ 1 / 64 ≤ q) ∧ q ≤ 5 / 8) (hn : ∀ i, Bnd (noise i) (2 ^ 16))
    {A : ℚ} (hA0 : 0 ≤ A) (hA1 : A ≤ 2 ^ 32)
    (hA : UnvoicedBnd A cur) :
    Post (unvoiced E P noise cur prev out) fun r => (∀ i, ∃ q, Val (r.2 i) q) ∧
      ShapedNoise (A / 10 + 1 / 2 ^ 80) (valuesOf cur) (windowed noise) (seqOf fun n => number (r.2 n)) := by
  intro r hr
  obtain ⟨lo, hi, S, he, hS, h2, -⟩ := unvoiced_eq E P noise cur prev out hL r hr
  exact shape_of (pw := bandPower) (fun hv hx _ _ hb => bandPower_near hv hx hb) (fftNear_scalar hcos hsin hE) hL hw hn hA0 hA1 hA ⟨lo, hi, S, he, hS, h2⟩

/-! ## Level -/

theorem limits_mono {w : ℝ} (hw : 0 ≤ w) {e : ℕ → ℕ} (h : LimitsWithin (1 / 2 ^ 20) w e) {l : ℕ} (l1 : 1 ≤ l) (l2 : l ≤ 56) : e l ≤ e (l + 1) := by
  obtain ⟨y, hy, ey⟩ := h l l1 (by omega)
  obtain ⟨z, hz, ez⟩ := h (l + 1) (by omega) (by omega)
  have W0 : 0 ≤ 256 * w / (2 * Real.pi) := by positivity
  generalize 256 * w / (2 * Real.pi) = W at *
  have k1 : (1 : ℝ) ≤ l := by exact_mod_cast l1
  have k2 : (l : ℝ) ≤ 56 := by exact_mod_cast l2
  have : y ≤ z := by
    rw [abs_le] at hy hz
    push_cast at hz
    have m1 := mul_le_mul_of_nonneg_right k1 W0
    have m2 := mul_le_mul_of_nonneg_right k2 W0
    generalize hN : (l : ℝ) * W = N at *
    have e1 : ((l : ℝ) - 1 / 2) * W = N - 1 / 2 * W := by rw [← hN]; ring
    have e2 : ((l : ℝ) + 1 - 1 / 2) * W = N + 1 / 2 * W := by rw [← hN]; ring
    rw [e1] at hy
    rw [e2] at hz
    norm_num at hy hz
    linarith
  have := Int.ceil_mono this
  omega

theorem limits_zero {e : ℕ → ℕ} (h : LimitsWithin (1 / 2 ^ 20) 0 e) {l : ℕ} (l1 : 1 ≤ l) (l2 : l ≤ 57) : e l = 0 := by
  obtain ⟨y, hy, ey⟩ := h l l1 l2
  have : y = 0 := by
    have := abs_nonpos_iff.1 (hy.trans (by norm_num))
    simpa using this
  rw [this] at ey
  simpa using ey

/-- Shaped noise has the level of the amplitudes: the exact block has an energy of at most `(147 A)²`. -/
theorem shaped_level {d : ℝ} {p : Parms ℝ} {x u : ℕ → ℝ} (h : ShapedNoise d p x u) (hw : 0 ≤ p.w0) (hL : p.L ≤ 56) {A : ℝ} (hA0 : 0 ≤ A)
    (hA : (∀ l : Fin 57, 1 ≤ l.val → (l.val : Int) ≤ p.L → p.Vl l = 0 → |p.Ml l| ≤ A) ∨ p.w0 = 0) :
    (∃ v : ℕ → ℝ, (∑ n ∈ Finset.range 256, v n ^ 2 ≤ (147 * A + 1 / 2 ^ 80) ^ 2) ∧ ∀ n, n < 256 → |u n - v n| ≤ d) ∧
    ∀ n, n < 256 → |u n| ≤ 147 * A + d + 1 / 2 ^ 80 := by
  obtain ⟨e, X, g, v, h1, h2, h3, h4, h5, h6⟩ := h
  have T0 : 0 ≤ 147 * A + 1 / 2 ^ 80 := by positivity
  have e128 : ∀ l, 1 ≤ l → l ≤ 57 → e l ≤ 128 := fun l a b => by
    obtain ⟨_, _, ez⟩ := h1 l a b
    omega
  have emono : ∀ l l' : ℕ, 1 ≤ l → l ≤ l' → l' ≤ 57 → e l ≤ e l' := fun l l' l1 l2 => by
    induction l', l2 using Nat.le_induction with
    | base => exact fun _ => le_rfl
    | succ n hn ih => exact fun hn' => (ih (by omega)).trans (limits_mono hw h1 (by omega) (by omega))
  -- one band
  have band : ∀ l : Fin 57, 1 ≤ l.val → (l.val : Int) ≤ p.L →
      ∑ k ∈ Finset.Ico (e l.val) (e (l.val + 1)), Complex.normSq (g k * X k) ≤ (147 * A + 1 / 2 ^ 80) ^ 2 * ((e (l.val + 1) : ℝ) - e l.val) := by
    intro l l1 l2
    have hm := emono l.val (l.val + 1) l1 (by omega) (by omega)
    have hm' : (0 : ℝ) ≤ (e (l.val + 1) : ℝ) - e l.val := by
      have : (e l.val : ℝ) ≤ e (l.val + 1) := by exact_mod_cast hm
      linarith
    have R0 : 0 ≤ (147 * A + 1 / 2 ^ 80) ^ 2 * ((e (l.val + 1) : ℝ) - e l.val) := mul_nonneg (sq_nonneg _) hm'
    by_cases lv : p.Vl l = 0
    · by_cases hlt : e l.val < e (l.val + 1)
      · obtain ⟨γ, g1, g2⟩ := h5 l l1 l2 lv hlt
        have es : ∑ k ∈ Finset.Ico (e l.val) (e (l.val + 1)), Complex.normSq (g k * X k) = γ ^ 2 * powerOf X (e l.val) (e (l.val + 1)) := by
          rw [powerOf, Finset.mul_sum]
          refine Finset.sum_congr rfl fun k hk => ?_
          obtain ⟨k1, k2⟩ := Finset.mem_Ico.1 hk
          rw [g1 k k1 k2, Complex.normSq_mul, Complex.normSq_ofReal]
          ring
        rw [es]
        rcases g2 with ⟨z, _⟩ | ⟨_, g2⟩
        · rw [z]
          simpa using R0
        · have hMl : |p.Ml l| ≤ A := by
            rcases hA with hA | hA
            · exact hA l l1 l2 lv
            · rw [hA] at h1
              have := limits_zero h1 (l := l.val + 1) (by omega) (by omega)
              omega
          have n0 : (0 : ℝ) < (e (l.val + 1) : ℝ) - e l.val := by
            have : (e l.val : ℝ) < e (l.val + 1) := by exact_mod_cast hlt
            linarith
          have hT := Real.mul_self_sqrt (div_nonneg (power_nonneg X (e l.val) (e (l.val + 1))) n0.le)
          generalize Real.sqrt (powerOf X (e l.val) (e (l.val + 1)) / ((e (l.val + 1) : ℝ) - e l.val)) = T at *
          have b1 : |γ * T| ≤ 147 * A + 1 / 2 ^ 80 := by
            have := abs_sub_abs_le_abs_sub (γ * T) (146.17696 * p.Ml l)
            have e1 : |146.17696 * p.Ml l| = 146.17696 * |p.Ml l| := by rw [abs_mul, abs_of_nonneg (by norm_num)]
            rw [e1] at this g2
            generalize |p.Ml l| = M at *
            norm_num at this g2 ⊢
            linarith
          have b2 : (γ * T) ^ 2 ≤ (147 * A + 1 / 2 ^ 80) ^ 2 := by
            rw [← sq_abs (γ * T)]
            exact pow_le_pow_left₀ (abs_nonneg _) b1 2
          have e2 : γ ^ 2 * powerOf X (e l.val) (e (l.val + 1)) = (γ * T) ^ 2 * ((e (l.val + 1) : ℝ) - e l.val) := by
            rw [mul_pow, sq T, hT]
            field_simp
          rw [e2]
          exact mul_le_mul_of_nonneg_right b2 n0.le
      · rw [Finset.Ico_eq_empty (by omega), Finset.sum_empty]
        exact R0
    · rw [Finset.sum_eq_zero fun k hk => ?_]
      · exact R0
      obtain ⟨k1, k2⟩ := Finset.mem_Ico.1 hk
      have hk' := e128 (l.val + 1) (by omega) (by omega)
      rw [h4 k (by omega) ?_, Complex.ofReal_zero, zero_mul, map_zero]
      rintro l' l1' l2' lv' ⟨a, b⟩
      have : l.val = l'.val := by
        refine le_antisymm ?_ ?_ <;> by_contra hne
        · have := emono (l'.val + 1) l.val (by omega) (by omega) (by omega)
          omega
        · have := emono (l.val + 1) l'.val (by omega) (by omega) (by omega)
          omega
      rw [show l = l' from Fin.ext this] at lv
      exact lv lv'
  -- bins outside the bands
  have off : ∀ k, k ≤ 128 → (∀ l : Fin 57, 1 ≤ l.val → (l.val : Int) ≤ p.L → ¬ (e l.val ≤ k ∧ k < e (l.val + 1))) → Complex.normSq (g k * X k) = 0 :=
    fun k hk hn => by
      rw [h4 k hk fun l a b _ => hn l a b, Complex.ofReal_zero, zero_mul, map_zero]
  have upto : ∀ n : ℕ, (n : Int) ≤ max 0 p.L → ∑ k ∈ Finset.range (e (n + 1)), Complex.normSq (g k * X k) ≤ (147 * A + 1 / 2 ^ 80) ^ 2 * (e (n + 1) : ℝ) := by
    intro n
    induction n with
    | zero =>
      intro _
      rw [Finset.sum_eq_zero fun k hk => ?_]
      · positivity
      have hk : k < e 1 := Finset.mem_range.1 hk
      have := e128 1 le_rfl (by omega)
      refine off k (by omega) fun l l1 l2 c => ?_
      have := emono 1 l.val le_rfl l1 (by omega)
      omega
    | succ n ih =>
      intro hn
      have i1 := ih (by omega)
      have i2 := band ⟨n + 1, by omega⟩ (by show 1 ≤ n + 1; omega) (by show ((n + 1 : ℕ) : Int) ≤ p.L; omega)
      rw [← Finset.sum_range_add_sum_Ico _ (emono (n + 1) (n + 1 + 1) (by omega) (by omega) (by omega))]
      dsimp only at i2
      linarith
  have half : ∑ k ∈ Finset.range 129, Complex.normSq (dft 256 v k) ≤ (147 * A + 1 / 2 ^ 80) ^ 2 * 128 := by
    have hn := upto (max 0 p.L).toNat (by omega)
    have hb := e128 ((max 0 p.L).toNat + 1) (by omega) (by omega)
    have es : ∑ k ∈ Finset.range 129, Complex.normSq (dft 256 v k) = ∑ k ∈ Finset.range 129, Complex.normSq (g k * X k) :=
      Finset.sum_congr rfl fun k hk => by rw [h3 k (by have := Finset.mem_range.1 hk; omega)]
    rw [es, ← Finset.sum_range_add_sum_Ico _ (show e ((max 0 p.L).toNat + 1) ≤ 129 by omega)]
    have ez : ∑ k ∈ Finset.Ico (e ((max 0 p.L).toNat + 1)) 129, Complex.normSq (g k * X k) = 0 := Finset.sum_eq_zero fun k hk => by
      obtain ⟨k1, k2⟩ := Finset.mem_Ico.1 hk
      refine off k (by omega) fun l l1 l2 c => ?_
      have := emono (l.val + 1) ((max 0 p.L).toNat + 1) (by omega) (by omega) (by omega)
      omega
    rw [ez, add_zero]
    refine hn.trans (mul_le_mul_of_nonneg_left ?_ (sq_nonneg _))
    exact_mod_cast hb
  have whole : ∑ k ∈ Finset.range 256, Complex.normSq (dft 256 v k) ≤ 2 * ∑ k ∈ Finset.range 129, Complex.normSq (dft 256 v k) := by
    rw [← Finset.sum_range_add_sum_Ico _ (show 129 ≤ 256 by decide), two_mul]
    refine add_le_add_right ?_ _
    have em : ∑ k ∈ Finset.Ico 129 256, Complex.normSq (dft 256 v k) = ∑ k ∈ Finset.Ico 1 128, Complex.normSq (dft 256 v k) := by
      refine Finset.sum_nbij' (fun k => 256 - k) (fun k => 256 - k) ?_ ?_ ?_ ?_ ?_
      · intro k hk
        rw [Finset.mem_Ico] at hk ⊢
        omega
      · intro k hk
        rw [Finset.mem_Ico] at hk ⊢
        omega
      · intro k hk
        have := Finset.mem_Ico.1 hk
        omega
      · intro k hk
        have := Finset.mem_Ico.1 hk
        omega
      · intro k hk
        have := Finset.mem_Ico.1 hk
        rw [dft_conj (N := 256) (a := k) (b := 256 - k) (by decide) v (by omega), Complex.normSq_conj]
    rw [em]
    refine Finset.sum_le_sum_of_subset_of_nonneg (fun k hk => ?_) fun k _ _ => Complex.normSq_nonneg _
    rw [Finset.mem_range]
    rw [Finset.mem_Ico] at hk
    omega
  have en : ∑ n ∈ Finset.range 256, v n ^ 2 ≤ (147 * A + 1 / 2 ^ 80) ^ 2 := by
    have := dft_parseval (N := 256) (by decide) v
    push_cast at this
    linarith
  refine ⟨⟨v, en, h6⟩, fun n hn => ?_⟩
  have s1 : v n ^ 2 ≤ (147 * A + 1 / 2 ^ 80) ^ 2 :=
    (Finset.single_le_sum (f := fun n => v n ^ 2) (fun k _ => sq_nonneg _) (Finset.mem_range.2 hn)).trans en
  have s2 := abs_le_of_sq_le_sq s1 T0
  have s3 := abs_sub_abs_le_abs_sub (u n) (v n)
  have s4 := h6 n hn
  linarith

theorem shaped_congr {d : ℝ} {p q : Parms ℝ} {x u : ℕ → ℝ} (h : ShapedNoise d p x u) (hw : q.w0 = p.w0) (hL : q.L = p.L)
    (hl : ∀ l : Fin 57, (l.val : Int) ≤ p.L → q.Ml l = p.Ml l ∧ q.Vl l = p.Vl l) : ShapedNoise d q x u := by
  obtain ⟨e, X, g, v, h1, h2, h3, h4, h5, h6⟩ := h
  refine ⟨e, X, g, v, hw ▸ h1, h2, h3, fun k hk hn => h4 k hk fun l l1 l2 lv => hn l l1 (hL ▸ l2) ((hl l l2).2.trans lv), fun l l1 l2 lv hlt => ?_, h6⟩
  rw [hL] at l2
  rw [(hl l l2).1]
  exact h5 l l1 l2 ((hl l l2).2 ▸ lv) hlt

theorem unvoicedBnd_level {A : ℚ} {p : Parms (IEEE m)} (h : UnvoicedBnd A p) :
    (∀ l : Fin 57, 1 ≤ l.val → (l.val : Int) ≤ (valuesOf p).L → (valuesOf p).Vl l = 0 → |(valuesOf p).Ml l| ≤ A) ∨ (valuesOf p).w0 = 0 := by
  rcases h with h | h
  · refine .inl fun l l1 l2 lv => ?_
    obtain ⟨q, _, _, hb⟩ := bnd_number (h l l1 l2 lv)
    exact hb
  · right
    show number p.w0 = 0
    rw [Val.number h, Rat.cast_zero]

/-- The block that a frame leaves in the parameter set. -/
theorem synthWith_block {osc uv} {E : Env (IEEE m)} (huv : ∀ {P : Plan (IEEE m)} {noise : Arr 256 (IEEE m)} {cur prev : Parms (IEEE m)} {out : Arr 160 (IEEE m)},
      cur.L ≤ 56 → (∃ q, Val cur.w0 q ∧ (q = 0 ∨ 1 / 64 ≤ q) ∧ q ≤ 5 / 8) → (∀ i, Bnd (noise i) (2 ^ 16)) → ∀ {A : ℚ}, 0 ≤ A → A ≤ 2 ^ 32 →
      UnvoicedBnd A cur → Post (uv P noise cur prev out) fun r => (∀ i, ∃ q, Val (r.2 i) q) ∧
        ShapedNoise (A / 10 + 1 / 2 ^ 80) (valuesOf cur) (windowed noise) (seqOf fun n => number (r.2 n)))
    {cur prev : Parms (IEEE m)} {t : Tls (IEEE m)}
    (hL : cur.L ≤ 56) (hpL : prev.L ≤ 56) (h0 : 0 ≤ cur.L) (hw : ∃ q, Val cur.w0 q ∧ (q = 0 ∨ 1 / 64 ≤ q) ∧ q ≤ 5 / 8) (hn : ∀ i, Bnd (cur.noiseOverlap i) (2 ^ 16)) :
    Post (synthWith osc uv E cur prev t) fun r => ∃ nr, noiseOverlap (Arr.const 256 (fi 0)) cur.noiseSeed cur.noiseOverlap t = .ok nr ∧
      (r.tls.plan = none → r.cur.previousUw = cur.previousUw) ∧
      (r.tls.plan ≠ none → ∀ A : ℚ, 0 ≤ A → A ≤ 2 ^ 32 → UnvoicedBnd A cur → (∀ i, Bnd (r.cur.previousUw i) (148 * A + 1 / 2 ^ 78)) ∧
        ShapedNoise (A / 10 + 1 / 2 ^ 80) (valuesOf cur) (windowed nr.buf) (seqOf fun n => number (r.cur.previousUw n))) := by
  intro r h
  unfold synthWith at h
  obtain ⟨nr, e1, h⟩ := bind_ok h
  obtain ⟨nuv, e2, h⟩ := bind_ok h
  obtain ⟨⟨cur1, prev1, maxl⟩, e3, h⟩ := bind_ok h
  obtain ⟨⟨cur2, prev2⟩, e4, h⟩ := bind_ok h
  obtain ⟨out, e5, h⟩ := bind_ok h
  obtain ⟨⟨plan, t1⟩, e6, h⟩ := bind_ok h
  dsimp only at e2 e3 e4 e5 e6 h
  have nb : ∀ i, Bnd (nr.buf i) (2 ^ 16) := fun i =>
    ((noiseOverlap_mag (AllMag.const (Mag.fi0 (m := m) _)) (fun i => (hn i).mono (by rw [pow2_eq]; norm_num)) nr e1).1 i).mono (by rw [pow2_eq]; norm_num)
  have hext : cur1 = { widened cur prev with noiseSeed := nr.seed, noiseOverlap := nr.overlap } := by
    by_cases hl : cur.L > prev.L
    · rw [if_pos hl] at e3
      obtain ⟨q, e, e3⟩ := bind_ok e3
      obtain ⟨rfl, rfl, rfl⟩ : _ ∧ _ ∧ _ := by simpa only [Prod.mk.injEq] using ok_inj e3
      rw [widened_self cur prev hl.le]
    · rw [if_neg hl] at e3
      obtain ⟨q, e, e3⟩ := bind_ok e3
      have := extendBands_eq _ _ _ (by omega) hpL q e
      obtain ⟨rfl, rfl, rfl⟩ : _ ∧ _ ∧ _ := by simpa only [Prod.mk.injEq] using ok_inj e3
      exact this
  obtain ⟨h1, _, _⟩ := phaseUpdate_eq _ _ _ _ _ _ _ e4
  dsimp only at h1
  have c1 : cur2.L = cur.L := by rw [h1, hext]; rfl
  have c2 : cur2.w0 = cur.w0 := by rw [h1, hext]; rfl
  have c3 : cur2.previousUw = cur.previousUw := by rw [h1, hext]; rfl
  have c4 : ∀ l : Fin 57, (l.val : Int) ≤ cur.L → cur2.Ml l = cur.Ml l ∧ cur2.Vl l = cur.Vl l := fun l hl => by
    rw [h1, hext]
    exact ⟨if_neg (by omega), if_neg (by omega)⟩
  refine ⟨nr, e1, ?_⟩
  cases plan with
  | none =>
    dsimp only at h
    rw [clipBuffer_eq, ok_bind] at h
    rw [← ok_inj h]
    have hpn : t1.plan = none := by
      unfold getPlan at e6
      split at e6
      · cases ok_inj e6
      · rename_i hn
        split at e6
        · obtain ⟨_, _, e6⟩ := bind_ok e6
          cases ok_inj e6
        · have e := congrArg Prod.snd (ok_inj e6)
          dsimp only at e
          rw [← e]
          exact hn
    exact ⟨fun _ => c3, fun ha => absurd hpn ha⟩
  | some P =>
    dsimp only at h
    obtain ⟨u, e7, h⟩ := bind_ok h
    rw [clipBuffer_eq, ok_bind] at h
    rw [← ok_inj h]
    have hP : t1.plan ≠ none := by
      unfold getPlan at e6
      split at e6
      · rename_i p hp'
        have e' := congrArg Prod.snd (ok_inj e6)
        dsimp only at e'
        rw [← e', hp']
        simp
      · split at e6
        · rw [planFill_eq, ok_bind] at e6
          have e' := congrArg Prod.snd (ok_inj e6)
          dsimp only at e'
          rw [← e']
          simp
        · cases ok_inj e6
    refine ⟨fun ha => absurd ha hP, fun _ A hA0 hA1 hA => ?_⟩
    dsimp only
    have hA' : UnvoicedBnd A cur2 := by
      rcases hA with hA | hA
      · refine .inl fun l l1 l2 lv => ?_
        rw [c1] at l2
        rw [(c4 l l2).2] at lv
        rw [(c4 l l2).1]
        exact hA l l1 l2 lv
      · exact .inr (by rw [c2]; exact hA)
    obtain ⟨k1, k2⟩ := huv (by omega) (by rw [c2]; exact hw) nb hA0 hA1 hA' u e7
    have k3 : ShapedNoise (A / 10 + 1 / 2 ^ 80) (valuesOf cur) (windowed nr.buf) (seqOf fun n => number (u.2 n)) := by
      refine shaped_congr k2 ?_ c1.symm fun l hl => ?_
      · show number cur.w0 = number cur2.w0
        rw [c2]
      · have hl : (l.val : Int) ≤ cur.L := c1 ▸ hl
        constructor
        · show number (cur.Ml l) = number (cur2.Ml l)
          rw [(c4 l hl).1]
        · exact (c4 l hl).2.symm
    refine ⟨fun i => ?_, k3⟩
    obtain ⟨q, vq⟩ := k1 i
    obtain ⟨w, vw, w0, w1⟩ := hw
    have w0' : 0 ≤ (valuesOf cur).w0 := by
      show 0 ≤ number cur.w0
      rw [Val.number vw]
      have : 0 ≤ w := by rcases w0 with h | h <;> linarith
      exact_mod_cast this
    have lev := (shaped_level k3 w0' hL (A := (A : ℝ)) (by exact_mod_cast hA0) (unvoicedBnd_level hA)).2 i.val i.isLt
    rw [seqOf, dif_pos i.isLt] at lev
    have lev : |number (u.2 i)| ≤ 147 * (A : ℝ) + (A / 10 + 1 / 2 ^ 80) + 1 / 2 ^ 80 := lev
    rw [Val.number vq] at lev
    refine ⟨q, vq, ?_⟩
    have hA0' : (0 : ℝ) ≤ A := by exact_mod_cast hA0
    have : |(q : ℝ)| ≤ ((148 * A + 1 / 2 ^ 78 : ℚ) : ℝ) := by
      push_cast
      norm_num at lev ⊢
      linarith
    exact_mod_cast this

/-- The block that a frame leaves in the parameter set. -/
theorem synthUnmuted_block (hcos : CosAcc m) (hsin : SinAcc m) {E : Env (IEEE m)} (hE : Runs E) {cur prev : Parms (IEEE m)} {t : Tls (IEEE m)}
    (hL : cur.L ≤ 56) (hpL : prev.L ≤ 56) (h0 : 0 ≤ cur.L) (hw : ∃ q, Val cur.w0 q ∧ (q = 0 ∨ 1 / 64 ≤ q) ∧ q ≤ 5 / 8) (hn : ∀ i, Bnd (cur.noiseOverlap i) (2 ^ 16)) :
    Post (synthUnmuted E cur prev t) fun r => ∃ nr, noiseOverlap (Arr.const 256 (fi 0)) cur.noiseSeed cur.noiseOverlap t = .ok nr ∧
      (r.tls.plan = none → r.cur.previousUw = cur.previousUw) ∧
      (r.tls.plan ≠ none → ∀ A : ℚ, 0 ≤ A → A ≤ 2 ^ 32 → UnvoicedBnd A cur → (∀ i, Bnd (r.cur.previousUw i) (148 * A + 1 / 2 ^ 78)) ∧
        ShapedNoise (A / 10 + 1 / 2 ^ 80) (valuesOf cur) (windowed nr.buf) (seqOf fun n => number (r.cur.previousUw n))) := by
  rw [synthUnmuted_with]
  exact synthWith_block (fun a b c _ d e f => unvoiced_shape hcos hsin hE a b c d e f) hL hpL h0 hw hn

end Verif.Model
