import Verif.Lemmas.VoicedAcc

/-!
# Rounding errors of the interpolating oscillator
-/

namespace Verif.Model
open Verif Verif.Gen Verif.Spec Verif.Num Arith
variable {m : Libm}

theorem near_two : Near 0 2 (lit 2 1 : IEEE m) 2 := ⟨2, two_val, by norm_num, by norm_num⟩

section
variable {e1 e2 e B1 B2 B : ℝ} {x x' : IEEE m} {y y' : ℝ}

theorem Near.addr (h : Near e1 B1 x y) (h' : Near e2 B2 x' y') (hB : B1 + B2 ≤ B)
    (he : e1 + e2 + (B + (e1 + e2)) / 16777216 + 1 / 2 ^ 150 ≤ e) (hb : B + (e1 + e2) ≤ 2 ^ 126) : Near e B (x +ᶠ x' : IEEE m) (y + y') :=
  Near.add h h' hB he hb
theorem Near.subr (h : Near e1 B1 x y) (h' : Near e2 B2 x' y') (hB : B1 + B2 ≤ B)
    (he : e1 + e2 + (B + (e1 + e2)) / 16777216 + 1 / 2 ^ 150 ≤ e) (hb : B + (e1 + e2) ≤ 2 ^ 126) : Near e B (x -ᶠ x' : IEEE m) (y - y') :=
  Near.sub h h' hB he hb
theorem Near.mulr (h : Near e1 B1 x y) (h' : Near e2 B2 x' y') (hB : B1 * B2 ≤ B)
    (he : e1 * (B2 + e2) + B1 * e2 + (B + (e1 * (B2 + e2) + B1 * e2)) / 16777216 + 1 / 2 ^ 150 ≤ e)
    (hb : B + (e1 * (B2 + e2) + B1 * e2) ≤ 2 ^ 126) : Near e B (x *ᶠ x' : IEEE m) (y * y') :=
  Near.mul h h' hB he hb
end

theorem deltaPhi_near {l : Nat} (hl : l < 8) {cw pw phic phip : IEEE m} {c p φ1 φ0 : ℝ} (hc : Near 0 (5 / 8) cw c) (hp : Near 0 (5 / 8) pw p)
    (h1 : Near 0 732 phic φ1) (h0 : Near 0 732 phip φ0) :
    Near (1 / 2500) 2164 (deltaPhi l cw pw phic phip : IEEE m) (φ1 - φ0 - (p + c) * (l * 160) / 2) := by
  have hl' : (l : ℝ) ≤ 7 := by exact_mod_cast (by omega : l ≤ 7)
  have d1 := Near.subr (e := 88 / 1000000) (B := 1464) h1 h0 (by norm_num) (by norm_num) (by norm_num)
  have d2 := Near.addr (e := 8 / 100000000) (B := 5 / 4) hp hc (by norm_num) (by norm_num) (by norm_num)
  have hi : Near 0 1120 (ofInt ((l : Int) * 160) : IEEE m) (l * 160) := by
    have := near_int (m := m) (n := (l : Int) * 160) (by rw [abs_of_nonneg (by omega)]; omega) (B := 1120)
      (by rw [abs_of_nonneg (by positivity)]; push_cast; linarith)
    push_cast at this
    exact this
  have d3 := Near.mulr (e := 18 / 100000) (B := 1400) d2 hi (by norm_num) (by norm_num) (by norm_num)
  have d4 := Near.divc (e := 14 / 100000) (B := 700) d3 (two_val (m := m)) (by norm_num) (by norm_num) (by norm_num) (by norm_num)
  have d5 := Near.subr (e := 1 / 2500) (B := 2164) d1 d4 (by norm_num) (by norm_num) (by norm_num)
  have e : φ1 - φ0 - (p + c) * (l * 160) / ((2 : ℚ) : ℝ) = φ1 - φ0 - (p + c) * (l * 160) / 2 := by push_cast; rfl
  rw [e] at d5
  exact d5

/-- The correction of the frequency: whole turns are taken off the phase difference `D` until about half a turn is left. -/
theorem deltaW_near {d : IEEE m} {D : ℝ} (hd : Near (1 / 2500) 2164 d D) :
    ∃ K : ℤ, |D - 2 * Real.pi * K| ≤ Real.pi + 1 / 1000 ∧ Near (6 / 1000000) (2 / 100) (deltaW d : IEEE m) ((D - 2 * Real.pi * K) / 160) := by
  have p1 := Real.pi_gt_d20
  have p2 := Real.pi_lt_d20
  have s1 := Near.addr (e := 55 / 100000) (B := 2168) hd (fpi_near (m := m)) (by norm_num) (by norm_num) (by norm_num)
  obtain ⟨u, vu, u1, u2⟩ := s1
  obtain ⟨τ, vτ, t1, _⟩ := twoPi_near (m := m)
  have vτ' : Val (lit 2 1 *ᶠ fpi : IEEE m) τ := vτ
  have tlo : (6.28 : ℝ) ≤ τ := by have := (abs_le.1 t1).1; norm_num at this p1 ⊢; linarith
  have thi : (τ : ℝ) ≤ 6.29 := by have := (abs_le.1 t1).2; norm_num at this p2 ⊢; linarith
  have tq : (6.28 : ℚ) ≤ τ := by
    have : ((6.28 : ℚ) : ℝ) ≤ τ := by push_cast; exact tlo
    exact_mod_cast this
  have t0 : (0 : ℚ) < τ := lt_of_lt_of_le (by norm_num) tq
  have t0' : (0 : ℝ) < τ := by exact_mod_cast t0
  have ub : |(u : ℝ)| ≤ 2169 := by
    have := abs_sub_abs_le_abs_sub (u : ℝ) (D + Real.pi)
    linarith
  have qb : |((u / τ : ℚ) : ℝ)| ≤ 346 := by
    push_cast
    rw [abs_div, abs_of_pos t0', div_le_iff₀ t0']
    linarith
  have vx := vu.div vτ' t0.ne' (big_real qb (by norm_num))
  have hx := rnd32_near (u / τ)
  generalize rnd F32 (u / τ) = x at vx hx
  have hx' : |(x : ℝ) - u / τ| ≤ 21 / 1000000 := by
    push_cast at hx qb
    refine hx.trans ?_
    norm_num at qb ⊢
    linarith
  have vf : Val (floor ((d +ᶠ fpi) /ᶠ (lit 2 1 *ᶠ fpi)) : IEEE m) ((⌊x⌋ : Int) : ℚ) := by
    obtain ⟨s, hs⟩ := vx
    rw [show (floor ((d +ᶠ fpi) /ᶠ (lit 2 1 *ᶠ fpi)) : IEEE m) = floor (F := IEEE m) (FP.fin s x) from congrArg _ hs]
    exact ⟨_, rfl⟩
  have f1 : ((⌊x⌋ : Int) : ℝ) ≤ x := by exact_mod_cast Int.floor_le x
  have f2 : (x : ℝ) < (⌊x⌋ : Int) + 1 := by exact_mod_cast Int.lt_floor_add_one x
  generalize ⌊x⌋ = K at vf f1 f2
  obtain ⟨x1, x2⟩ := abs_le.1 hx'
  obtain ⟨u3, u4⟩ := abs_le.1 u1
  obtain ⟨τ1, τ2⟩ := abs_le.1 t1
  obtain ⟨q1, q2⟩ := abs_le.1 qb
  push_cast at q1 q2
  have K1 : (-348 : ℝ) ≤ K := by linarith
  have K2 : (K : ℝ) ≤ 347 := by linarith
  have Kabs : |(K : ℝ)| ≤ 348 := abs_le.2 ⟨K1, by linarith⟩
  have e1 : (u : ℝ) = u / τ * τ := by field_simp
  -- the number of turns is right up to the rounding of the quotient
  have m1 : (K : ℝ) * τ - 14 / 100000 ≤ u := by
    rw [e1]
    have : ((K : ℝ) - 21 / 1000000) * τ ≤ u / τ * τ := mul_le_mul_of_nonneg_right (by linarith) t0'.le
    norm_num at this thi ⊢
    linarith
  have m2 : (u : ℝ) ≤ (K + 1) * τ + 14 / 100000 := by
    have : (u : ℝ) / τ * τ ≤ ((K : ℝ) + 1 + 21 / 1000000) * τ := mul_le_mul_of_nonneg_right (by linarith) t0'.le
    rw [← e1] at this
    norm_num at this thi ⊢
    linarith
  have kt : |(K : ℝ) * τ - K * (2 * Real.pi)| ≤ 9 / 100000 := by
    rw [← mul_sub, abs_mul]
    have : |(K : ℝ)| * |(τ : ℝ) - 2 * Real.pi| ≤ 348 * (1 / 4000000) := mul_le_mul Kabs t1 (abs_nonneg _) (by norm_num)
    norm_num at this ⊢
    linarith
  obtain ⟨k1, k2⟩ := abs_le.1 kt
  have hD : |D - 2 * Real.pi * K| ≤ Real.pi + 1 / 1000 := by
    rw [abs_le]
    have e2 : ((K : ℝ) + 1) * τ = K * τ + τ := by ring
    rw [e2] at m2
    norm_num at τ1 τ2 k1 k2 u3 u4 m1 m2 ⊢
    constructor <;> linarith
  refine ⟨K, hD, ?_⟩
  have nK : Near 0 348 (floor ((d +ᶠ fpi) /ᶠ (lit 2 1 *ᶠ fpi)) : IEEE m) K := ⟨_, vf, by push_cast; simp, Kabs⟩
  have nt : Near (1 / 4000000) 6.29 (lit 2 1 *ᶠ fpi : IEEE m) (2 * Real.pi) := twoPi_near
  have w1 := Near.mulr (e := 22 / 100000) (B := 2190) nt nK (by norm_num) (by norm_num) (by norm_num)
  have w2 := Near.subr (e := 89 / 100000) (B := 4360) hd w1 (by norm_num) (by norm_num) (by norm_num)
  have w3 : Near (89 / 100000) 3.15 (d -ᶠ ((lit 2 1 *ᶠ fpi) *ᶠ floor ((d +ᶠ fpi) /ᶠ (lit 2 1 *ᶠ fpi))) : IEEE m) (D - 2 * Real.pi * K) :=
    w2.shift (by norm_num) (hD.trans (by norm_num at p2 ⊢; linarith))
  have n1 : Near 0 1 (lit 1 1 : IEEE m) 1 := ⟨1, one_val, by norm_num, by norm_num⟩
  have w4 := Near.divc (e := 1 / 2000000000) (B := 1 / 160) n1 (one60_val (m := m)) (by norm_num) (by norm_num) (by norm_num) (by norm_num)
  have w5 := Near.mulr (e := 6 / 1000000) (B := 2 / 100) w4 w3 (by norm_num) (by norm_num) (by norm_num)
  have e3 : 1 / ((160 : ℚ) : ℝ) * (D - 2 * Real.pi * K) = (D - 2 * Real.pi * K) / 160 := by push_cast; ring
  rw [e3] at w5
  exact w5

theorem thetaLn_near {l n : Nat} (hl : l < 8) (hn : n < 160) {cw pw phip dw : IEEE m} {c p φ0 δ : ℝ} (hc : Near 0 (5 / 8) cw c)
    (hp : Near 0 (5 / 8) pw p) (h0 : Near 0 732 phip φ0) (hd : Near (6 / 1000000) (2 / 100) dw δ) :
    Near (15 / 10000) 2200 (thetaLn l n cw pw phip dw : IEEE m) (thetaR l c p φ0 δ n) := by
  have hl' : (l : ℝ) ≤ 7 := by exact_mod_cast (by omega : l ≤ 7)
  have hn' : (n : ℝ) ≤ 159 := by exact_mod_cast (by omega : n ≤ 159)
  have il : Near 0 7 (ofInt (l : Int) : IEEE m) l := by
    have := near_int (m := m) (n := (l : Int)) (by rw [abs_of_nonneg (by omega)]; omega) (B := 7)
      (by rw [abs_of_nonneg (by positivity)]; push_cast; linarith)
    push_cast at this
    exact this
  have iN : Near 0 159 (ofInt (n : Int) : IEEE m) n := by
    have := near_int (m := m) (n := (n : Int)) (by rw [abs_of_nonneg (by omega)]; omega) (B := 159)
      (by rw [abs_of_nonneg (by positivity)]; push_cast; linarith)
    push_cast at this
    exact this
  have a2 : (l : Int) * n * n ≤ 7 * 159 * 159 :=
    mul_le_mul (mul_le_mul (by omega) (by omega) (by omega) (by omega)) (by omega) (by omega) (by omega)
  have iq : Near 0 176967 (ofInt ((l : Int) * n * n) : IEEE m) (l * n * n) := by
    have := near_int (m := m) (n := (l : Int) * n * n) (by rw [abs_of_nonneg (by positivity)]; exact a2.trans (by norm_num)) (B := 176967)
      (by
        rw [abs_of_nonneg (by positivity)]
        have : (((l : Int) * n * n : Int) : ℝ) ≤ ((7 * 159 * 159 : Int) : ℝ) := by exact_mod_cast a2
        refine this.trans ?_
        norm_num)
    push_cast at this
    exact this
  have t1 := Near.mulr (e := 27 / 100000000) (B := 4.375) hp il (by norm_num) (by norm_num) (by norm_num)
  have t2 := Near.addr (e := 66 / 10000000) (B := 4.4) t1 hd (by norm_num) (by norm_num) (by norm_num)
  have t3 := Near.mulr (e := 11 / 10000) (B := 700) t2 iN (by norm_num) (by norm_num) (by norm_num)
  have t4 := Near.addr (e := 12 / 10000) (B := 1432) h0 t3 (by norm_num) (by norm_num) (by norm_num)
  have t5 := Near.subr (e := 8 / 100000000) (B := 5 / 4) hc hp (by norm_num) (by norm_num) (by norm_num)
  have t6 := Near.mulr (e := 28 / 1000) (B := 221209) t5 iq (by norm_num) (by norm_num) (by norm_num)
  have v320 : Val (ofInt (2 * 160) : IEEE m) 320 := by
    have : Val (ofInt (2 * 160) : IEEE m) ((320 : Int) : ℚ) := Val.ofInt (by norm_num)
    exact_mod_cast this
  have t7 := Near.divc (e := 14 / 100000) (B := 692) t6 v320 (by norm_num) (by norm_num) (by norm_num) (by norm_num)
  have t8 := Near.addr (e := 15 / 10000) (B := 2200) t4 t7 (by norm_num) (by norm_num) (by norm_num)
  have e : φ0 + (p * l + δ) * n + (c - p) * (l * n * n) / ((320 : ℚ) : ℝ) = thetaR l c p φ0 δ n := by
    unfold thetaR
    push_cast
    ring
  rw [e] at t8
  exact t8

theorem ampLn_near {n : Nat} (hn : n < 160) {mc mp : IEEE m} {C P a b : ℝ} (hc : Near 0 a mc C) (hp : Near 0 b mp P) (ha : 0 ≤ a) (hb : 0 ≤ b)
    (ha1 : a ≤ 2 ^ 32) (hb1 : b ≤ 2 ^ 32) :
    Near ((b + a) / 2 ^ 20 + 1 / 2 ^ 140) (b + a) (ampLn n mc mp : IEEE m) ((1 - (n : ℝ) / 160) * P + (n : ℝ) / 160 * C) := by
  have hn' : (n : ℝ) ≤ 159 := by exact_mod_cast (by omega : n ≤ 159)
  have hn0 : (0 : ℝ) ≤ n := Nat.cast_nonneg n
  have iN : Near 0 159 (ofInt (n : Int) : IEEE m) n := by
    have := near_int (m := m) (n := (n : Int)) (by rw [abs_of_nonneg (by omega)]; omega) (B := 159)
      (by rw [abs_of_nonneg (by positivity)]; push_cast; linarith)
    push_cast at this
    exact this
  have t1 := Near.divc (e := 1 / 2 ^ 23) (B := 1) iN (one60_val (m := m)) (by norm_num) (by norm_num) (by norm_num) (by norm_num)
  have t2 := Near.subr (e := (b + a) / 2 ^ 23 + 1 / 2 ^ 149) (B := b + a) hc hp (by linarith) (by norm_num; linarith) (by norm_num at *; linarith)
  have t3 := Near.mulr (e := (b + a) / 2 ^ 21 + 1 / 2 ^ 145) (B := b + a) t1 t2 (by linarith) (by norm_num; linarith) (by norm_num at *; linarith)
  have t4 := Near.addr (e := (b + a) / 2 ^ 20 + 1 / 2 ^ 140) (B := 2 * (b + a)) hp t3 (by linarith) (by norm_num; linarith) (by norm_num at *; linarith)
  have e : P + (n : ℝ) / ((160 : ℚ) : ℝ) * (C - P) = (1 - (n : ℝ) / 160) * P + (n : ℝ) / 160 * C := by push_cast; ring
  rw [e] at t4
  refine t4.shift (by simp) ?_
  obtain ⟨_, _, _, C1⟩ := hc
  obtain ⟨_, _, _, P1⟩ := hp
  refine (abs_add_le _ _).trans (add_le_add ?_ ?_)
  · rw [abs_mul, abs_of_nonneg (by linarith)]
    exact (mul_le_of_le_one_left (abs_nonneg _) (by linarith)).trans P1
  · rw [abs_mul, abs_of_nonneg (by positivity)]
    exact (mul_le_of_le_one_left (abs_nonneg _) (by linarith)).trans C1

theorem glide_term (hm : TrigAcc m) {al th : IEEE m} {α θ a : ℝ} (ha : Near (a / 2 ^ 20 + 1 / 2 ^ 140) a al α) (ht : Near (15 / 10000) 2200 th θ)
    (ha0 : 0 ≤ a) (ha1 : a ≤ 2 ^ 33) : TermNear a ((lit 2 1 *ᶠ al) *ᶠ cos th : IEEE m) (2 * α * Real.cos θ) := by
  have hc : Near (16 / 10000) 1 (cos th : IEEE m) (Real.cos θ) := by
    obtain ⟨q, v, h1, h2⟩ := ht
    have hq : |(q : ℝ)| ≤ 2201 := by
      have := abs_sub_abs_le_abs_sub (q : ℝ) θ
      linarith
    have hq' : |q| ≤ pow2 26 := by
      rw [pow2_eq]
      have : ((|q| : ℚ) : ℝ) ≤ ((2 ^ (26 : ℤ) : ℚ) : ℝ) := by
        push_cast
        refine hq.trans ?_
        norm_num
      exact_mod_cast this
    obtain ⟨r, vr, hr⟩ := hm.cos th q v hq'
    refine ⟨r, vr, ?_, Real.abs_cos_le_one _⟩
    have k1 := (cos_lip (q : ℝ) θ).trans h1
    have k2 := abs_sub_le (r : ℝ) (Real.cos q) (Real.cos θ)
    linarith
  have t1 := Near.mulr (e := a / 2 ^ 18 + 1 / 2 ^ 130) (B := 2 * a) near_two ha (by linarith) (by norm_num; linarith) (by norm_num at *; linarith)
  have t2 := Near.mulr (e := a / 150 + 1 / 2 ^ 101) (B := 2 * a) t1 hc (by linarith) (by norm_num; linarith) (by norm_num at *; linarith)
  exact t2

/-- The interpolating oscillator. -/
theorem interpBand_near (hm : TrigAcc m) {l : Fin 57} (hl : l.val < 8) {cw pw : IEEE m} {c p : ℝ} {cur prev : Parms (IEEE m)}
    {φ1 φ0 C P a b : ℝ} (hc : Near 0 (5 / 8) cw c) (hp : Near 0 (5 / 8) pw p)
    (h1 : Near 0 732 (cur.PHIl l) φ1) (h0 : Near 0 732 (prev.PHIl l) φ0) (hC : Near 0 a (cur.Ml l) C) (hP : Near 0 b (prev.Ml l) P)
    (ha : 0 ≤ a) (hb : 0 ≤ b) (ha1 : a ≤ 2 ^ 32) (hb1 : b ≤ 2 ^ 32) :
    ∃ θ, TrackWithin (1 / 1000) φ0 φ1 (l.val * p) (l.val * c) θ ∧
      ∀ {k : Nat} {out : Arr 160 (IEEE m)} {X : Fin 160 → ℝ} {W T : ℝ}, k ≤ 200 → 0 ≤ T → T + (b + a) ≤ W → W ≤ 2 ^ 40 →
        (∀ n, AccNear W k T (out n) (X n)) →
      Post (interpBand l.val cw pw cur prev out) fun r => ∀ n : Fin 160, AccNear W (k + 1) (T + (b + a)) (r n)
        (X n + 2 * ((1 - (n.val : ℝ) / 160) * P + (n.val : ℝ) / 160 * C) * Real.cos (θ n.val)) := by
  have hd := deltaPhi_near hl hc hp h1 h0
  obtain ⟨K, hK, hw⟩ := deltaW_near hd
  refine ⟨thetaR l.val c p φ0 ((φ1 - φ0 - (p + c) * (l.val * 160) / 2 - 2 * Real.pi * K) / 160), ⟨?_, ⟨-K, ?_⟩, _, ?_, fun t => thetaR_deriv l.val c p φ0 _ t⟩, ?_⟩
  · unfold thetaR; ring
  · unfold thetaR
    push_cast
    ring
  · rw [abs_div, abs_of_pos (show (0 : ℝ) < 160 by norm_num)]
    exact div_le_div_of_nonneg_right hK (by norm_num)
  intro k out X W T hk hT hW hW2 ho
  generalize (φ1 - φ0 - (p + c) * (l.val * 160) / 2 - 2 * Real.pi * K) / 160 = δ at hw
  unfold interpBand
  rw [Arr.rd_nat l.isLt, ok_bind, Arr.rd_nat l.isLt, ok_bind]
  dsimp only
  refine (loop_post (fun n (s : Arr 160 (IEEE m)) => ∀ i : Fin 160, (i.val < n → AccNear W (k + 1) (T + (b + a)) (s i)
      (X i + 2 * ((1 - (i.val : ℝ) / 160) * P + (i.val : ℝ) / 160 * C) * Real.cos (thetaR l.val c p φ0 δ i.val))) ∧
      (n ≤ i.val → AccNear W k T (s i) (X i))) (fun i => ⟨fun h => absurd h (by omega), fun _ => ho i⟩) fun n hn st hst => ?_).mono
      fun r hr n => (hr n).1 n.isLt
  rw [Arr.rd_nat l.isLt, ok_bind, Arr.rd_nat l.isLt, ok_bind, Arr.rd_nat hn, ok_bind, Arr.wr_nat hn]
  refine Post.pure fun i => ?_
  by_cases e : i.val = n
  · rw [Arr.set_same e]
    refine ⟨fun _ => ?_, fun h => absurd h (by omega)⟩
    have hi : i = ⟨n, hn⟩ := Fin.ext e
    subst hi
    refine AccNear.add ((hst ⟨n, hn⟩).2 le_rfl) ?_ hT (by linarith) hW hW2 hk
    exact glide_term hm (ampLn_near hn hC hP ha hb ha1 hb1) (thetaLn_near hl hn hc hp h0 hw) (by linarith) (by norm_num at *; linarith)
  · rw [Arr.set_ne e]
    exact ⟨fun h => (hst i).1 (by omega), fun h => (hst i).2 (by omega)⟩

end Verif.Model
