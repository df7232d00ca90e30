import Verif.Spec.UnvoicedAcc
import Verif.Lemmas.VoicedOut
import Verif.Lemmas.FftEnv
import Verif.Lemmas.AmbeFund

/-!
# Rounding errors of the gains of the unvoiced bands
-/

namespace Verif.Model
open Verif Verif.Gen Verif.Spec Verif.Num Arith
variable {m : Libm}

/-! ## Power of a band -/

theorem sq_near {x : IEEE m} {q : ℚ} (hv : Val x q) (hq : |(q : ℝ)| ≤ 2 ^ 30) :
    Near ((q : ℝ) ^ 2 / 2 ^ 24 + 1 / 2 ^ 150) ((q : ℝ) ^ 2) (x *ᶠ x : IEEE m) ((q : ℝ) * q) := by
  have h : Near 0 |(q : ℝ)| x (q : ℝ) := ⟨q, hv, by simp, le_rfl⟩
  have e : |(q : ℝ)| * |(q : ℝ)| = (q : ℝ) ^ 2 := by rw [← abs_mul, ← sq, abs_of_nonneg (sq_nonneg _)]
  have hb : (q : ℝ) ^ 2 ≤ 2 ^ 60 := by
    rw [← sq_abs]
    calc |(q : ℝ)| ^ 2 ≤ (2 ^ 30) ^ 2 := pow_le_pow_left₀ (abs_nonneg _) hq 2
      _ = 2 ^ 60 := by norm_num
  refine Near.mul h h (by rw [e]) ?_ ?_
  · rw [zero_mul, mul_zero, add_zero, add_zero]
    norm_num
  · rw [zero_mul, mul_zero, add_zero, add_zero]
    norm_num at hb ⊢
    linarith

/-- The power of one bin. -/
theorem binPower_near {fft : Arr 256 (IEEE m)} {x : Fin 256 → ℚ} (hv : ∀ i, Val (fft i) (x i)) (hx : ∀ i, |(x i : ℝ)| ≤ 2 ^ 30) (k : ℕ) (hk : k < 128) :
    Near (3 / 2 ^ 24 * Complex.normSq (binAt (fun i => (x i : ℝ)) k) + 1 / 2 ^ 145) (Complex.normSq (binAt (fun i => (x i : ℝ)) k))
      (binPower fft k : IEEE m) (Complex.normSq (binAt (fun i => (x i : ℝ)) k)) := by
  rw [← binPower_normSq _ hk]
  have rd : ∀ {n : ℕ} (hn : n < 256), (readOr fft (n : Int) : IEEE m) = fft ⟨n, hn⟩ := fun hn => readOr_nat fft hn
  have rr : ∀ {n : ℕ} (hn : n < 256), (readOr (fun i => (x i : ℝ)) (n : Int) : ℝ) = x ⟨n, hn⟩ := fun hn => readOr_nat _ hn
  have bb : ∀ i, (x i : ℝ) ^ 2 ≤ 2 ^ 60 := fun i => by
    rw [← sq_abs]
    calc |(x i : ℝ)| ^ 2 ≤ (2 ^ 30) ^ 2 := pow_le_pow_left₀ (abs_nonneg _) (hx i) 2
      _ = 2 ^ 60 := by norm_num
  unfold binPower
  by_cases h0 : k = 0
  · rw [if_pos h0, if_pos h0, show (0 : Int) = ((0 : ℕ) : Int) from rfl, rd (by omega), rr (by omega), RealArith.mul_r]
    have := sq_near (hv ⟨0, by omega⟩) (hx _)
    have s0 := sq_nonneg (x ⟨0, by omega⟩ : ℝ)
    rw [← sq] at this ⊢
    refine this.mono ?_ le_rfl
    norm_num at s0 ⊢
    linarith
  · have e1 : (2 * (k : Int)) = ((2 * k : ℕ) : Int) := by push_cast; rfl
    have e2 : (((2 * k : ℕ) : Int) + 1) = ((2 * k + 1 : ℕ) : Int) := by push_cast; rfl
    rw [if_neg h0, if_neg h0, if_neg (by omega), if_neg (by omega), e1, e2, rd (by omega), rd (by omega), rr (by omega), rr (by omega)]
    have a := sq_near (hv ⟨2 * k, by omega⟩) (hx _)
    have b := sq_near (hv ⟨2 * k + 1, by omega⟩) (hx _)
    have s0 := sq_nonneg (x ⟨2 * k, by omega⟩ : ℝ)
    have s1 := sq_nonneg (x ⟨2 * k + 1, by omega⟩ : ℝ)
    have t0 := bb ⟨2 * k, by omega⟩
    have t1 := bb ⟨2 * k + 1, by omega⟩
    rw [RealArith.add_r, RealArith.mul_r, RealArith.mul_r, ← sq, ← sq]
    rw [← sq] at a b
    generalize (x ⟨2 * k, by omega⟩ : ℝ) ^ 2 = A at *
    generalize (x ⟨2 * k + 1, by omega⟩ : ℝ) ^ 2 = B at *
    refine Near.add a b le_rfl ?_ ?_
    · norm_num at *
      linarith
    · norm_num at *
      linarith

/-- The power of a band: a relative error of `2^-21` per bin. -/
theorem bandPower_near {fft : Arr 256 (IEEE m)} {x : Fin 256 → ℚ} (hv : ∀ i, Val (fft i) (x i)) (hx : ∀ i, |(x i : ℝ)| ≤ 2 ^ 30) {a b : ℕ} (hb : b ≤ 128) :
    Near (1 / 2 ^ 14 * powerOf (binAt fun i => (x i : ℝ)) a b + 1 / 2 ^ 130) (powerOf (binAt fun i => (x i : ℝ)) a b)
      (bandPower fft (a : Int) (b : Int) : IEEE m) (powerOf (binAt fun i => (x i : ℝ)) a b) := by
  have e : ((b : Int) - (a : Int)).toNat = b - a := by omega
  unfold bandPower powerOf
  rw [e, Finset.sum_Ico_eq_sum_range, Int.toNat_natCast]
  have key : ∀ n, n ≤ b - a → Near (n / 2 ^ 21 * (∑ i ∈ Finset.range n, Complex.normSq (binAt (fun i => (x i : ℝ)) (a + i))) + n / 2 ^ 140)
      (∑ i ∈ Finset.range n, Complex.normSq (binAt (fun i => (x i : ℝ)) (a + i)))
      ((List.range n).foldl (fun s i => s +ᶠ binPower fft (a + i)) (lit 0 1) : IEEE m)
      (∑ i ∈ Finset.range n, Complex.normSq (binAt (fun i => (x i : ℝ)) (a + i))) := by
    intro n hn
    induction n with
    | zero =>
      rw [List.range_zero, List.foldl_nil, Finset.sum_range_zero]
      exact ⟨0, zero_val, by norm_num, by norm_num⟩
    | succ n ih =>
      rw [List.range_succ, List.foldl_append, List.foldl_cons, List.foldl_nil, Finset.sum_range_succ]
      have h1 := ih (by omega)
      have h2 := binPower_near hv hx (a + n) (by omega)
      have s0 : 0 ≤ ∑ i ∈ Finset.range n, Complex.normSq (binAt (fun i => (x i : ℝ)) (a + i)) := Finset.sum_nonneg fun _ _ => Complex.normSq_nonneg _
      have s1 : 0 ≤ Complex.normSq (binAt (fun i => (x i : ℝ)) (a + n)) := Complex.normSq_nonneg _
      have pw : ∀ k, k < 128 → Complex.normSq (binAt (fun i => (x i : ℝ)) k) ≤ 2 ^ 62 := fun k hk => by
        have r1 : ∀ j : ℕ, |seqOf (fun i => (x i : ℝ)) j| ≤ 2 ^ 30 := fun j => by
          rw [seqOf]
          split
          · exact hx _
          · norm_num
        have r2 : ∀ j : ℕ, seqOf (fun i => (x i : ℝ)) j * seqOf (fun i => (x i : ℝ)) j ≤ 2 ^ 60 := fun j => by
          rw [← sq, ← sq_abs]
          calc |seqOf (fun i => (x i : ℝ)) j| ^ 2 ≤ (2 ^ 30) ^ 2 := pow_le_pow_left₀ (abs_nonneg _) (r1 j) 2
            _ = 2 ^ 60 := by norm_num
        rw [binAt]
        by_cases k0 : k = 0
        · rw [if_pos k0]
          have := r2 0
          rw [Complex.normSq_ofReal]
          rw [seqOf, dif_pos (by decide)] at this
          refine le_trans this (by norm_num)
        · rw [if_neg k0, if_neg (by omega), if_pos hk, Complex.normSq_mk]
          have h1 := r2 (2 * k)
          have h2 := r2 (2 * k + 1)
          norm_num at h1 h2 ⊢
          linarith
      have t0 : ∑ i ∈ Finset.range n, Complex.normSq (binAt (fun i => (x i : ℝ)) (a + i)) ≤ 2 ^ 69 := by
        refine (Finset.sum_le_card_nsmul _ _ (2 ^ 62) fun i hi => pw _ (by have := Finset.mem_range.1 hi; omega)).trans ?_
        rw [Finset.card_range, nsmul_eq_mul]
        have : (n : ℝ) ≤ 128 := by exact_mod_cast (by omega : n ≤ 128)
        norm_num
        linarith
      have t1 := pw (a + n) (by omega)
      have n0 : (0 : ℝ) ≤ n := Nat.cast_nonneg _
      have n1 : (n : ℝ) ≤ 128 := by exact_mod_cast (by omega : n ≤ 128)
      generalize ∑ i ∈ Finset.range n, Complex.normSq (binAt (fun i => (x i : ℝ)) (a + i)) = S at *
      generalize Complex.normSq (binAt (fun i => (x i : ℝ)) (a + n)) = P at *
      have p1 : (n : ℝ) * S ≤ 128 * S := mul_le_mul_of_nonneg_right n1 s0
      have p2 : 0 ≤ (n : ℝ) * S := mul_nonneg n0 s0
      have p3 : 0 ≤ (n : ℝ) * P := mul_nonneg n0 s1
      rw [Nat.cast_succ]
      generalize (n : ℝ) = N at *
      refine Near.add h1 h2 le_rfl ?_ ?_
      · norm_num at *
        linarith
      · norm_num at *
        linarith
  refine (key _ le_rfl).mono ?_ le_rfl
  have s0 : 0 ≤ ∑ i ∈ Finset.range (b - a), Complex.normSq (binAt (fun i => (x i : ℝ)) (a + i)) := Finset.sum_nonneg fun _ _ => Complex.normSq_nonneg _
  have n1 : ((b - a : ℕ) : ℝ) ≤ 128 := by exact_mod_cast (by omega : b - a ≤ 128)
  have p1 := mul_le_mul_of_nonneg_right n1 s0
  clear key
  generalize ((b - a : ℕ) : ℝ) = N at *
  generalize ∑ i ∈ Finset.range (b - a), Complex.normSq (binAt (fun i => (x i : ℝ)) (a + i)) = S at *
  norm_num at *
  linarith

/-! ## Gain of a band -/

theorem c146_0 : rngB (lit 14617696 100000 : IEEE libm0) (14617695 / 100000) (14617697 / 100000) = true := by decide +kernel
theorem eps10_0 : rngB (lit 1 10000000000 : IEEE libm0) (999 / 10 ^ 13) (1001 / 10 ^ 13) = true := by decide +kernel

/-- The threshold below which a band counts as silent. -/
theorem silent_near {num : IEEE m} {P : ℝ} (h0 : 0 ≤ P) (hn : Near (1 / 2 ^ 14 * P + 1 / 2 ^ 130) P num P) :
    (lt (lit 1 10000000000) num = true → 1 / (2 * 10 ^ 10) ≤ P) ∧ (lt (lit 1 10000000000) num ≠ true → P ≤ 2 / 10 ^ 10) := by
  obtain ⟨t, vt, t1, t2⟩ := rng_of (x := (lit 1 10000000000 : IEEE m)) eps10_0
  obtain ⟨s, vs, s1, _⟩ := hn
  have t1' : ((999 / 10 ^ 13 : ℚ) : ℝ) ≤ t := by exact_mod_cast t1
  have t2' : (t : ℝ) ≤ ((1001 / 10 ^ 13 : ℚ) : ℝ) := by exact_mod_cast t2
  rw [abs_le] at s1
  rw [vt.lt vs]
  norm_num at s1
  push_cast at t1' t2'
  constructor
  · intro h
    have h : (t : ℝ) < s := by exact_mod_cast of_decide_eq_true h
    norm_num at t1' ⊢
    linarith
  · intro h
    have h : (s : ℝ) ≤ t := by exact_mod_cast not_lt.1 fun c => h (decide_eq_true c)
    norm_num at t2' ⊢
    linarith

/-- The gain gives the band the root mean square `146.17696 Ml`, up to a ten-thousandth. -/
theorem gain_near {Ml num : IEEE m} {q : ℚ} {P : ℝ} {cnt : ℕ} (hM : Val Ml q) (hq : |(q : ℝ)| ≤ 2 ^ 32) (h0 : 0 ≤ P) (hP : P ≤ 2 ^ 70)
    (hn : Near (1 / 2 ^ 14 * P + 1 / 2 ^ 130) P num P) (h : lt (lit 1 10000000000) num = true) (c1 : 1 ≤ cnt) (c2 : cnt ≤ 128) :
    ∃ g : ℚ, Val ((lit 14617696 100000 *ᶠ Ml) /ᶠ sqrt (num /ᶠ ofInt (cnt : Int)) : IEEE m) g ∧
      |(g : ℝ) * Real.sqrt (P / cnt) - 146.17696 * q| ≤ |146.17696 * (q : ℝ)| / 10000 + 1 / 2 ^ 80 := by
  have lo := (silent_near h0 hn).1 h
  obtain ⟨s, vs, s1, _⟩ := hn
  have k1 : (1 : ℝ) ≤ cnt := by exact_mod_cast c1
  have k2 : (cnt : ℝ) ≤ 128 := by exact_mod_cast c2
  have k0 : (0 : ℝ) < cnt := by linarith
  have vc : Val (ofInt (cnt : Int) : IEEE m) ((cnt : Int) : ℚ) := Val.ofInt (by rw [abs_of_nonneg (by omega)]; omega)
  -- the mean power
  have T2 : 0 < P / cnt := div_pos (by norm_num at lo ⊢; linarith) k0
  have T2lo : 1 / 2 ^ 42 ≤ P / cnt := by
    rw [le_div_iff₀ k0]
    norm_num at lo ⊢
    linarith
  have T2hi : P / cnt ≤ 2 ^ 70 := by
    rw [div_le_iff₀ k0]
    norm_num at hP ⊢
    linarith
  have s2 : |(s : ℝ) - P| ≤ 63 / 1000000 * P := by
    refine s1.trans ?_
    norm_num at lo ⊢
    linarith
  have nd : Near (64 / 1000000 * (P / cnt)) (P / cnt) (num /ᶠ ofInt (cnt : Int) : IEEE m) (P / cnt) := by
    have : Near (63 / 1000000 * P) P num P := ⟨s, vs, s2, by rw [abs_of_nonneg h0]⟩
    have := Near.divc (e := 64 / 1000000 * (P / cnt)) (B := P / cnt) this vc (by exact_mod_cast (by omega : (0 : Int) < cnt)) (by push_cast; exact le_rfl)
      (by
        push_cast
        have e : 63 / 1000000 * P / (cnt : ℝ) = 63 / 1000000 * (P / cnt) := by ring
        rw [e]
        generalize P / (cnt : ℝ) = T at *
        norm_num at *
        linarith)
      (by
        push_cast
        have e : 63 / 1000000 * P / (cnt : ℝ) = 63 / 1000000 * (P / cnt) := by ring
        rw [e]
        generalize P / (cnt : ℝ) = T at *
        norm_num at *
        linarith)
    simpa using this
  obtain ⟨d, vd, d1, _⟩ := nd
  have dT := d1
  rw [abs_le] at d1
  have dlo : (1 : ℝ) / 2 ^ 43 ≤ d := by
    generalize P / (cnt : ℝ) = T at *
    norm_num at *
    linarith
  have dlo' : 1 / 2 ^ 43 ≤ d := by
    have : ((1 / 2 ^ 43 : ℚ) : ℝ) ≤ d := by push_cast; exact dlo
    exact_mod_cast this
  have d0 : 0 < d := lt_of_lt_of_le (by norm_num) dlo'
  -- the root
  obtain ⟨r, vr, r1⟩ : ∃ r : ℚ, Val (Arith.sqrt (num /ᶠ ofInt (cnt : Int)) : IEEE m) r ∧ |(r : ℝ) - Real.sqrt d| ≤ Real.sqrt d / 2 ^ 24 := by
    obtain ⟨sg, hsg⟩ := vd
    have hsg : (num /ᶠ ofInt (cnt : Int) : IEEE m) = FP.fin sg d := hsg
    rw [hsg]
    show ∃ r : ℚ, Val (FP.sqrtR F32 (FP.fin sg d)) r ∧ _
    unfold FP.sqrtR
    simp only [if_neg d0.ne', if_neg (not_lt.2 d0.le)]
    refine ⟨_, ⟨false, rfl⟩, sqrtQ_err d0 (le_trans ?_ dlo')⟩
    rw [pow2_eq]
    norm_num
  have hT : Real.sqrt (P / cnt) * Real.sqrt (P / cnt) = P / cnt := Real.mul_self_sqrt T2.le
  have hT0 : 0 < Real.sqrt (P / cnt) := Real.sqrt_pos.2 T2
  have hR : Real.sqrt (d : ℝ) * Real.sqrt d = d := Real.mul_self_sqrt (by exact_mod_cast d0.le)
  have hR0 : 0 ≤ Real.sqrt (d : ℝ) := Real.sqrt_nonneg _
  have Tlo : 1 / 2 ^ 21 ≤ Real.sqrt (P / cnt) := by
    refine Real.le_sqrt_of_sq_le ?_
    refine le_trans ?_ T2lo
    norm_num
  have Thi : Real.sqrt (P / cnt) ≤ 2 ^ 35 := by
    rw [Real.sqrt_le_left (by positivity)]
    refine T2hi.trans ?_
    norm_num
  generalize hTd : Real.sqrt (P / cnt) = T at *
  generalize Real.sqrt (d : ℝ) = R at *
  have e1 : |R - T| ≤ 64 / 1000000 * T := by
    have f : |R - T| * (R + T) ≤ 64 / 1000000 * T * (R + T) := by
      have g : |R - T| * (R + T) = |(d : ℝ) - P / cnt| := by
        have z : |R + T| = R + T := abs_of_nonneg (by linarith)
        have z' : (R - T) * (R + T) = (d : ℝ) - P / cnt := by linarith [hT, hR, (by ring : (R - T) * (R + T) = R * R - T * T)]
        rw [← z', abs_mul, z]
      rw [g]
      refine dT.trans ?_
      rw [← hT]
      have := mul_nonneg hT0.le hR0
      linarith [(by ring : 64 / 1000000 * T * (R + T) = 64 / 1000000 * (T * R) + 64 / 1000000 * (T * T))]
    exact le_of_mul_le_mul_right f (by linarith)
  have e2 : |(r : ℝ) - T| ≤ 65 / 1000000 * T := by
    rw [abs_le] at e1 r1 ⊢
    norm_num at *
    constructor <;> linarith
  have rlo : 99 / 100 * T ≤ r := by
    rw [abs_le] at e2
    linarith
  have r0 : (0 : ℝ) < r := by linarith
  have r0' : (0 : ℚ) < r := by exact_mod_cast r0
  -- the numerator
  obtain ⟨c, vc', b1, b2⟩ := rng_of (x := (lit 14617696 100000 : IEEE m)) c146_0
  have b1' : ((14617695 / 100000 : ℚ) : ℝ) ≤ c := by exact_mod_cast b1
  have b2' : (c : ℝ) ≤ ((14617697 / 100000 : ℚ) : ℝ) := by exact_mod_cast b2
  have q0 := abs_nonneg (q : ℝ)
  have nN : Near (20 / 1000000 * |(q : ℝ)| + 1 / 2 ^ 140) (146.17696 * |(q : ℝ)|) (lit 14617696 100000 *ᶠ Ml : IEEE m) ((146.17696 : ℝ) *ᶠ (q : ℝ)) := by
    have a1 : Near (1 / 100000) 146.17696 (lit 14617696 100000 : IEEE m) 146.17696 := by
      refine ⟨c, vc', ?_, ?_⟩
      · rw [abs_le]
        push_cast at b1' b2'
        constructor <;> norm_num at * <;> linarith
      · rw [abs_of_nonneg (by norm_num)]
    have a2 : Near 0 |(q : ℝ)| Ml (q : ℝ) := ⟨q, hM, by simp, le_rfl⟩
    refine Near.mul a1 a2 le_rfl ?_ ?_
    · norm_num
      linarith
    · norm_num at *
      linarith
  obtain ⟨N, vN, N1, _⟩ := nN
  rw [RealArith.mul_r] at N1
  have aC : |146.17696 * (q : ℝ)| = 146.17696 * |(q : ℝ)| := by rw [abs_mul, abs_of_nonneg (by norm_num)]
  have N2 : |(N : ℝ)| ≤ 146.1771 * |(q : ℝ)| + 1 / 2 ^ 140 := by
    have := abs_sub_abs_le_abs_sub (N : ℝ) (146.17696 * q)
    rw [aC] at this
    norm_num at this N1 ⊢
    linarith
  have N0 := abs_nonneg (N : ℝ)
  -- the quotient
  have ρ1 : |T / r - 1| ≤ 66 / 1000000 := by
    rw [show T / (r : ℝ) - 1 = (T - r) / r by field_simp, abs_div, abs_of_pos r0, div_le_iff₀ r0, abs_sub_comm]
    linarith
  have ρ2 : T / r ≤ 101 / 100 := by
    rw [abs_le] at ρ1
    linarith
  have ρ0 : 0 ≤ T / r := by positivity
  have hd : |((N / r : ℚ) : ℝ)| ≤ |(N : ℝ)| * 2 ^ 22 := by
    push_cast
    rw [abs_div, abs_of_pos r0, div_le_iff₀ r0, mul_assoc]
    refine le_mul_of_one_le_right N0 ?_
    norm_num at Tlo ⊢
    linarith
  have hbig : |(N : ℝ)| * 2 ^ 22 ≤ 2 ^ 126 := by
    norm_num at N2 hq ⊢
    linarith
  refine ⟨_, vN.div vr r0'.ne' (big_real hd hbig), ?_⟩
  have er := rnd32_near (N / r)
  generalize ((rnd F32 (N / r) : ℚ) : ℝ) = g at *
  have z : g * T - 146.17696 * q = (g - ((N / r : ℚ) : ℝ)) * T + N * (T / r - 1) + (N - 146.17696 * q) := by
    push_cast
    field_simp
    ring
  have z1 : |(g - ((N / r : ℚ) : ℝ)) * T| ≤ |(N : ℝ)| * (101 / 100) / 16777216 + 1 / 2 ^ 110 := by
    rw [abs_mul, abs_of_pos hT0]
    have f1 := mul_le_mul_of_nonneg_right er hT0.le
    have f2 : |((N / r : ℚ) : ℝ)| * T = |(N : ℝ)| * (T / r) := by
      push_cast
      rw [abs_div, abs_of_pos r0]
      ring
    have f3 := mul_le_mul_of_nonneg_left ρ2 N0
    rw [add_mul, div_mul_eq_mul_div, f2] at f1
    norm_num at f1 f3 Thi ⊢
    linarith
  have z2 : |(N : ℝ) * (T / r - 1)| ≤ |(N : ℝ)| * (66 / 1000000) := by
    rw [abs_mul]
    exact mul_le_mul_of_nonneg_left ρ1 N0
  rw [z, aC]
  refine (abs_add_three _ _ _).trans ?_
  norm_num at z1 z2 N1 N2 ⊢
  linarith

/-! ## Limits of the bands -/

theorem limits_near {w : IEEE m} {q : ℚ} (hw : Val w q) (hq : q = 0 ∨ 1 / 64 ≤ q) (h1 : q ≤ 5 / 8) :
    ∃ e : ℕ → ℕ, LimitsWithin (1 / 2 ^ 20) (q : ℝ) e ∧ (∀ l, e l ≤ 128) ∧ (∀ l l', 1 ≤ l → l ≤ l' → e l ≤ e l') ∧
      ∀ (l : ℕ) (lo hi : Int), 1 ≤ l → l ≤ 56 → Edges (F := IEEE m) w l lo hi → 0 ≤ lo ∧ (e l : Int) = min 128 lo ∧ (e (l + 1) : Int) = hi := by
  have q0 : 0 ≤ q := by rcases hq with h | h <;> linarith
  have hc : Val ((lit 256 1 /ᶠ (lit 2 1 *ᶠ lit 314159265358979323846 100000000000000000000)) : IEEE m) (10680707 / 262144) :=
    ⟨_, binConstVal0⟩
  have hn : 0 ≤ 10680707 / 262144 * q := by linarith
  have hu : Val (binMultiplier (F := IEEE m) w) (rnd F32 (10680707 / 262144 * q)) := hc.mul hw (by rw [abs_of_nonneg hn, Val.big_eq]; linarith)
  have u0 : 0 ≤ rnd F32 (10680707 / 262144 * q) := rnd_nonneg hn
  have er := rnd32_near (10680707 / 262144 * q)
  have hq' : (q : ℝ) = 0 ∨ 1 / 64 ≤ (q : ℝ) := by
    rcases hq with h | h
    · exact .inl (by rw [h]; norm_num)
    · right
      have : ((1 / 64 : ℚ) : ℝ) ≤ q := by exact_mod_cast h
      push_cast at this
      exact this
  have q0' : (0 : ℝ) ≤ q := by exact_mod_cast q0
  have q1' : (q : ℝ) ≤ 5 / 8 := by
    have : (q : ℝ) ≤ ((5 / 8 : ℚ) : ℝ) := by exact_mod_cast h1
    push_cast at this
    exact this
  have hpi := Real.pi_pos
  have W0 : 0 ≤ 256 * (q : ℝ) / (2 * Real.pi) := by positivity
  -- the constant 256 / 2π
  have hC : |(10680707 / 262144 : ℝ) * q - 256 * q / (2 * Real.pi)| ≤ 1 / 2500000 * (256 * (q : ℝ) / (2 * Real.pi)) := by
    have p1 := Real.pi_gt_d6
    have p2 := Real.pi_lt_d6
    have e : (10680707 / 262144 : ℝ) * q - 256 * q / (2 * Real.pi) = (10680707 / 262144 * (2 * Real.pi) / 256 - 1) * (256 * q / (2 * Real.pi)) := by
      field_simp
    rw [e, abs_mul, abs_of_nonneg W0]
    refine mul_le_mul_of_nonneg_right ?_ W0
    rw [abs_le]
    constructor <;> norm_num at * <;> linarith
  generalize hWd : 256 * (q : ℝ) / (2 * Real.pi) = W at *
  have W1 : (q : ℝ) = 0 ∧ W = 0 ∨ 1 / 2 ≤ W := by
    rcases hq' with h | h
    · exact .inl ⟨h, by rw [← hWd, h]; simp⟩
    · right
      rw [← hWd, le_div_iff₀ (by positivity)]
      have := Real.pi_lt_d6
      norm_num at *
      linarith
  have hU : |((rnd F32 (10680707 / 262144 * q) : ℚ) : ℝ) - W| ≤ 1 / 2000000 * W := by
    rcases W1 with ⟨a, b⟩ | b
    · have : q = 0 := by exact_mod_cast a
      rw [this, b, mul_zero, rnd_zero]
      norm_num
    · push_cast at er
      rw [abs_of_nonneg (show (0 : ℝ) ≤ 10680707 / 262144 * q by linarith)] at er
      rw [abs_le] at er hC ⊢
      norm_num at er hC ⊢
      constructor <;> linarith
  generalize rnd F32 (10680707 / 262144 * q) = u at *
  have u1 : u ≤ 2097152 := by
    have : (u : ℝ) ≤ 2097152 := by
      have : W ≤ 256 := by
        rw [← hWd, div_le_iff₀ (by positivity)]
        have := Real.pi_gt_d6
        norm_num at *
        linarith
      rw [abs_le] at hU
      norm_num at *
      linarith
    exact_mod_cast this
  have hpos : ∀ l : ℕ, 1 ≤ l → (0 : ℚ) ≤ (l : ℚ) - 1 / 2 := by
    intro l hl
    have : (1 : ℚ) ≤ l := by exact_mod_cast hl
    linarith
  have cn : ∀ l : ℕ, 1 ≤ l → 0 ≤ ⌈rnd F32 (((l : ℚ) - 1 / 2) * u)⌉ := fun l hl => Int.ceil_nonneg (rnd_nonneg (mul_nonneg (hpos l hl) u0))
  refine ⟨fun l => (min 128 ⌈rnd F32 (((l : ℚ) - 1 / 2) * u)⌉).toNat, fun l l1 l2 => ⟨((rnd F32 (((l : ℚ) - 1 / 2) * u) : ℚ) : ℝ), ?_, ?_⟩, fun l => by dsimp only; omega,
    fun l l' l1 l2 => Int.toNat_le_toNat (min_le_min_left _ (Int.ceil_mono (rnd_mono F32_p (mul_le_mul_of_nonneg_right ?_ u0)))), ?_⟩
  · rw [hWd]
    have h1 : (1 : ℝ) ≤ l := by exact_mod_cast l1
    have h57 : (l : ℝ) ≤ 57 := by exact_mod_cast l2
    have X0 : (0 : ℝ) ≤ (l - 1 / 2) * W := mul_nonneg (by linarith) W0
    have hx : |((((l : ℚ) - 1 / 2) * u : ℚ) : ℝ) - (l - 1 / 2) * W| ≤ 1 / 2000000 * ((l - 1 / 2) * W) := by
      push_cast
      rw [← mul_sub, abs_mul, abs_of_nonneg (by linarith)]
      have := mul_le_mul_of_nonneg_left hU (show (0 : ℝ) ≤ (l : ℝ) - 1 / 2 by linarith)
      linarith
    rcases W1 with ⟨a, b⟩ | b
    · have : u = 0 := by
        rw [b] at hU
        have := abs_nonpos_iff.1 (hU.trans (by norm_num))
        rw [sub_zero] at this
        exact_mod_cast this
      rw [this, b, mul_zero, mul_zero, rnd_zero]
      norm_num
    · have Xlo : (1 : ℝ) / 4 ≤ (l - 1 / 2) * W := by
        have := mul_le_mul (show (1 / 2 : ℝ) ≤ l - 1 / 2 by linarith) b (by norm_num) (by linarith)
        norm_num at this ⊢
        linarith
      have e2 := rnd32_near (((l : ℚ) - 1 / 2) * u)
      generalize ((((l : ℚ) - 1 / 2) * u : ℚ) : ℝ) = x at *
      generalize ((l : ℝ) - 1 / 2) * W = X at *
      have xa : |x| ≤ 2 * X := by
        rw [abs_le] at hx ⊢
        constructor <;> linarith
      rw [abs_le] at e2 hx ⊢
      constructor <;> norm_num at * <;> linarith
  · have := cn l l1
    rw [Rat.ceil_cast]
    dsimp only
    omega
  · have : (l : ℚ) ≤ l' := by exact_mod_cast l2
    linarith
  · intro l lo hi l1 l2 hE
    have hl56 : (l : ℚ) ≤ 56 := by exact_mod_cast l2
    have hl1 : (1 : ℚ) ≤ l := by exact_mod_cast l1
    have hh := halfTab (m := m) l1 (show l < 58 by omega)
    have ea : toI32 (ceil ((ofInt (l : Int) -ᶠ lit 5 10) *ᶠ binMultiplier w) : IEEE m) = _ := edge_val hh.1 hu (hpos l l1) (by linarith) u0 u1
    have eb : toI32 (ceil ((ofInt (l : Int) +ᶠ lit 5 10) *ᶠ binMultiplier w) : IEEE m) = _ := edge_val hh.2 hu (by linarith) (by linarith) u0 u1
    have e2 : (l : ℚ) + 1 / 2 = ((l + 1 : Nat) : ℚ) - 1 / 2 := by push_cast; ring
    rw [e2] at eb
    have n1 := cn l l1
    have n2 := cn (l + 1) (by omega)
    obtain ⟨a, b, ha, hb, rfl, rfl⟩ := hE
    rw [ea] at ha
    rw [eb] at hb
    cases ha
    cases hb
    dsimp only
    generalize ⌈rnd F32 (((l : ℚ) - 1 / 2) * u)⌉ = A at *
    generalize ⌈rnd F32 ((((l + 1 : ℕ) : ℚ) - 1 / 2) * u)⌉ = B at *
    omega

end Verif.Model
