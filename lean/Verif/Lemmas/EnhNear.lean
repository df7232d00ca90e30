import Verif.Lemmas.EnhEnergy
import Verif.Lemmas.Enhance

/-!
# The spectral enhancement in binary32: every amplitude
-/

namespace Verif.Model
open Verif Verif.Gen Verif.Spec Verif.Num Arith
variable {m : Libm}
variable {rm : Int → Arr 57 (IEEE m) → Loc 57 (IEEE m) → Exec (IEEE m × IEEE m)} {es : Int → Arr 57 (IEEE m) → Exec (IEEE m)}

theorem enhW_roots {w : ℝ} (M : Nat → ℝ) (L l : Nat) (hw : 0 ≤ w) (h0 : 0 ≤ energy M L) (h1 : |corr w M L| ≤ energy M L) :
    enhW w M L l = Real.sqrt (M l) * Real.sqrt (Real.sqrt (96 / 100 * Real.pi * (energy M L ^ 2 + corr w M L ^ 2 - 2 * energy M L * corr w M L * Real.cos (l * w)) /
      (w * energy M L * (energy M L ^ 2 - corr w M L ^ 2)))) := by
  unfold enhW
  have c := Real.cos_sq_le_one (l * w)
  have b := abs_le.1 h1
  generalize Real.cos (l * w) = C at *
  generalize corr w M L = R1 at *
  generalize energy M L = R0 at *
  have n : 0 ≤ R0 ^ 2 + R1 ^ 2 - 2 * R0 * R1 * C := by
    have := mul_le_mul_of_nonneg_left c (sq_nonneg R0)
    nlinarith [sq_nonneg (R1 - R0 * C)]
  have d : 0 ≤ R0 ^ 2 - R1 ^ 2 := by
    have := sq_le_sq' b.1 b.2
    linarith
  rw [sqrt_sqrt_r _ (div_nonneg (mul_nonneg (mul_nonneg (by norm_num) Real.pi_pos.le) n) (mul_nonneg (mul_nonneg hw h0) d)), Real.sqrt_eq_rpow]

/-- Every weighted amplitude. -/
theorem enhWeights_near {w0 rm0 rm1 : IEEE m} {w q0 q1 : ℚ} {L : Int} (hL : L ≤ 56) {Ml : Arr 57 (IEEE m)} {ct : Loc 57 (IEEE m)}
    {a : Nat → ℚ} (ha : ∀ l : Fin 57, 1 ≤ l.val → (l.val : Int) ≤ L → Val (Ml l) (a l.val) ∧ 0 ≤ a l.val ∧ a l.val ≤ 2 ^ 27)
    (hc : ∀ l : Fin 57, 1 ≤ l.val → (l.val : Int) ≤ L → ∃ (c : IEEE m) (r : ℚ), ct l = some c ∧ Val c r ∧
      |(r : ℝ) - Real.cos (l.val * (w : ℝ))| ≤ 56 / 1600000)
    (hp : PitchOk w L) (hw : Val w0 w) (w1 : 1 / 32 ≤ w) (w2 : w ≤ 1) (h0 : Val rm0 q0) (h1 : Val rm1 q1)
    {M : Nat → ℝ} (hM : ∀ l, M l = (a l : ℝ)) (R0l : 1 / 2 ^ 20 ≤ energy M L.toNat) (R0u : energy M L.toNat ≤ 56 * 2 ^ 36)
    (e0 : |(q0 : ℝ) - energy M L.toNat| ≤ energy M L.toNat / 270000) (e1 : |(q1 : ℝ) - corr w M L.toNat| ≤ energy M L.toNat / 25000)
    (hR1 : |corr w M L.toNat| ≤ (1 - 1 / 900) * energy M L.toNat) : Ok (enhWeights w0 L rm0 rm1 ct Ml) fun Ml' => ∃ b : Nat → ℚ,
      ∀ l : Fin 57, 1 ≤ l.val → (l.val : Int) ≤ L → Val (Ml' l) (b l.val) ∧ 0 ≤ b l.val ∧
        9789 / 10000 * (enhFactor w M L.toNat l.val * a l.val) - 1 / 2 ^ 140 ≤ b l.val ∧
        (b l.val : ℝ) ≤ 10211 / 10000 * (enhFactor w M L.toNat l.val * a l.val) + 1 / 2 ^ 140 := by
  have t : (0 : ℝ) < 1 / 2 ^ 140 := by positivity
  have ctv : ∀ l : Fin 57, ∃ c : IEEE m, 1 ≤ l.val → (l.val : Int) ≤ L → ct l = some c ∧ ∃ r : ℚ, Val c r ∧
      |(r : ℝ) - Real.cos (l.val * (w : ℝ))| ≤ 56 / 1600000 := by
    intro l
    by_cases h : 1 ≤ l.val ∧ (l.val : Int) ≤ L
    · obtain ⟨c, r, e1, e2, e3⟩ := hc l h.1 h.2
      exact ⟨c, fun _ _ => ⟨e1, r, e2, e3⟩⟩
    · exact ⟨lit 0 1, fun h1 h2 => absurd ⟨h1, h2⟩ h⟩
  obtain ⟨cv, hcv⟩ := Classical.skolem.1 ctv
  unfold enhWeights
  rw [loopTo_ptwise (by omega) (fun l v => if eq v (lit 0 1) then v else enhApply l.val L (enhWeight w0 rm0 rm1 v (cv l)) v) _ (fun l hl h1 h2 A => by
    rw [Arr.rd_nat hl, ok_bind, Loc.rd_nat hl (hcv ⟨l, hl⟩ h1 h2).1]
    by_cases c : eq (A ⟨l, hl⟩) (lit 0 1) = true
    · rw [if_pos c, if_pos c, Arr.set_self]
    · rw [if_neg c, if_neg c, ok_bind, Arr.wr_nat hl]) Ml]
  refine Ok.ok ?_
  have h0c : Val (lit 0 1 : IEEE m) 0 := ⟨false, rfl⟩
  have : ∀ l : Nat, ∃ b : ℚ, ∀ (hl : l < 57) (_ : 1 ≤ l) (_ : (l : Int) ≤ L),
      Val (if eq (Ml ⟨l, hl⟩) (lit 0 1) then Ml ⟨l, hl⟩ else enhApply l L (enhWeight w0 rm0 rm1 (Ml ⟨l, hl⟩) (cv ⟨l, hl⟩)) (Ml ⟨l, hl⟩) : IEEE m) b ∧ 0 ≤ b ∧
        9789 / 10000 * (enhFactor w M L.toNat l * a l) - 1 / 2 ^ 140 ≤ b ∧ (b : ℝ) ≤ 10211 / 10000 * (enhFactor w M L.toNat l * a l) + 1 / 2 ^ 140 := by
    intro l
    by_cases h : l < 57 ∧ 1 ≤ l ∧ (l : Int) ≤ L
    · obtain ⟨hl, i1, i2⟩ := h
      obtain ⟨g1, g2, g3⟩ := ha ⟨l, hl⟩ i1 i2
      obtain ⟨f1, r, f2, f3⟩ := hcv ⟨l, hl⟩ i1 i2
      dsimp only at g1 g2 g3 f3
      by_cases c : eq (Ml ⟨l, hl⟩) (lit 0 1) = true
      · refine ⟨a l, fun _ _ _ => ?_⟩
        rw [if_pos c]
        rw [g1.eq h0c] at c
        have z : a l = 0 := by simpa using c
        rw [z] at g1 ⊢
        refine ⟨g1, le_rfl, ?_, ?_⟩ <;> simp
      · have hf : enhFactor w M L.toNat l = if 8 * (l : Int) ≤ L then 1 else max (1 / 2) (min (6 / 5) (enhW w M L.toNat l)) := by
          unfold enhFactor
          by_cases c8 : 8 * (l : Int) ≤ L
          · rw [if_pos c8, if_pos (by omega)]
          · rw [if_neg c8, if_neg (by omega)]
        obtain ⟨v, vv, v1, v2⟩ := enhWeight_near hw w1 w2 h0 h1 f2 g1 g2 g3 R0l R0u e0 e1 (f3.trans (by norm_num)) (hp l i1 i2) hR1
        have roots := enhW_roots M L.toNat l (w := w) (by
          have : (0 : ℚ) ≤ w := by linarith
          exact_mod_cast this) (le_trans (by norm_num) R0l) (by linarith [show (0 : ℝ) ≤ energy M L.toNat from le_trans (by norm_num) R0l])
        rw [← hM l, ← roots] at v1 v2
        obtain ⟨r, vr⟩ := enhApply_near vv g1 g2 g3 (by rw [roots]; positivity) v1 v2 l L
        refine ⟨r, fun _ _ _ => ?_⟩
        rw [if_neg c, hf]
        exact vr
    · exact ⟨0, fun a b c => absurd ⟨a, b, c⟩ h⟩
  obtain ⟨b, hb⟩ := Classical.skolem.1 this
  refine ⟨b, fun l i1 i2 => ?_⟩
  dsimp only
  rw [if_pos ⟨i1, i2⟩]
  exact hb l.val l.isLt i1 i2

theorem enhSq_near {b x : ℝ} (b0 : 0 ≤ b) (x0 : 0 ≤ x) (xu : x ≤ 2 ^ 28) (h1 : 9789 / 10000 * x - 1 / 2 ^ 140 ≤ b) (h2 : b ≤ 10211 / 10000 * x + 1 / 2 ^ 140) :
    (9789 / 10000) ^ 2 * x ^ 2 - 1 / 2 ^ 100 ≤ b ^ 2 ∧ b ^ 2 ≤ (10211 / 10000) ^ 2 * x ^ 2 + 1 / 2 ^ 100 := by
  have xt : x * (1 / 2 ^ 140) ≤ 2 ^ 28 * (1 / 2 ^ 140) := mul_le_mul_of_nonneg_right xu (by positivity)
  have xx := sq_nonneg x
  constructor
  · by_cases c : 9789 / 10000 * x - 1 / 2 ^ 140 ≤ 0
    · have : x ≤ 3 * (1 / 2 ^ 140) := by linarith
      have := mul_le_mul_of_nonneg_left this x0
      have := sq_nonneg b
      norm_num at *
      nlinarith
    · have := pow_le_pow_left₀ (by linarith) h1 2
      norm_num at *
      nlinarith
  · have := pow_le_pow_left₀ b0 h2 2
    norm_num at *
    nlinarith

/-- The energy of the weighted amplitudes. -/
theorem energy_near {B X : Nat → ℝ} {L : Nat} (hL : L ≤ 56) (h : ∀ l, 1 ≤ l → l ≤ L → 0 ≤ B l ∧ 0 ≤ X l ∧ X l ≤ 2 ^ 28 ∧
      9789 / 10000 * X l - 1 / 2 ^ 140 ≤ B l ∧ B l ≤ 10211 / 10000 * X l + 1 / 2 ^ 140) (hX : 1 / 2 ^ 22 ≤ energy X L) :
    (97889 / 100000) ^ 2 * energy X L ≤ energy B L ∧ energy B L ≤ (102111 / 100000) ^ 2 * energy X L := by
  have hc : ∀ c d : ℝ, (∑ l ∈ Finset.Icc 1 L, (c * X l ^ 2 + d)) = c * energy X L + L * d := by
    intro c d
    unfold energy
    rw [Finset.sum_add_distrib, ← Finset.mul_sum, Finset.sum_const, Nat.card_Icc, nsmul_eq_mul]
    rfl
  have hL' : (L : ℝ) ≤ 56 := by exact_mod_cast hL
  have u1 : (∑ l ∈ Finset.Icc 1 L, ((9789 / 10000) ^ 2 * X l ^ 2 + -(1 / 2 ^ 100))) ≤ energy B L :=
    Finset.sum_le_sum fun l hl => by
      obtain ⟨g1, g2, g3, g4, g5⟩ := h l (Finset.mem_Icc.1 hl).1 (Finset.mem_Icc.1 hl).2
      linarith [(enhSq_near g1 g2 g3 g4 g5).1]
  have u2 : energy B L ≤ ∑ l ∈ Finset.Icc 1 L, ((10211 / 10000) ^ 2 * X l ^ 2 + 1 / 2 ^ 100) :=
    Finset.sum_le_sum fun l hl => by
      obtain ⟨g1, g2, g3, g4, g5⟩ := h l (Finset.mem_Icc.1 hl).1 (Finset.mem_Icc.1 hl).2
      exact (enhSq_near g1 g2 g3 g4 g5).2
  rw [hc] at u1 u2
  have a1 : (L : ℝ) * (1 / 2 ^ 100) ≤ 56 * (1 / 2 ^ 100) := mul_le_mul_of_nonneg_right hL' (by positivity)
  have a2 : (56 : ℝ) * (1 / 2 ^ 100) ≤ 1 / 1000000 * (1 / 2 ^ 22) := by norm_num
  constructor <;> norm_num at * <;> linarith

/-- The last product. -/
theorem out_near {g b : ℚ} {G X R S S' : ℝ} (g0 : 0 ≤ g) (b0 : 0 ≤ b) (g16 : g ≤ 16) (hR : 0 < R) (hS : 0 < S) (hG : G = Real.sqrt (R / S)) (X0 : 0 ≤ X)
    (s1 : (97889 / 100000) ^ 2 * S ≤ S') (s2 : S' ≤ (102111 / 100000) ^ 2 * S)
    (g1 : (1 - 1 / 250000) * Real.sqrt (R / S') ≤ g) (g2 : (g : ℝ) ≤ (1 + 1 / 250000) * Real.sqrt (R / S'))
    (h1 : 9789 / 10000 * X - 1 / 2 ^ 140 ≤ b) (h2 : (b : ℝ) ≤ 10211 / 10000 * X + 1 / 2 ^ 140) :
    |((rnd F32 (g * b) : ℚ) : ℝ) - G * X| ≤ 1 / 20 * (G * X) + 1 / 2 ^ 120 := by
  have g0' : (0 : ℝ) ≤ g := by exact_mod_cast g0
  have b0' : (0 : ℝ) ≤ b := by exact_mod_cast b0
  have g16' : (g : ℝ) ≤ 16 := by exact_mod_cast g16
  have S'0 : 0 < S' := lt_of_lt_of_le (by positivity) s1
  have r1 : Real.sqrt (R / S') ≤ 102157 / 100000 * G := by
    rw [hG]
    refine sqrt_up (by norm_num) ?_
    rw [div_le_iff₀ S'0, mul_div_assoc', div_mul_eq_mul_div, le_div_iff₀ hS]
    have := mul_le_mul_of_nonneg_left s1 hR.le
    norm_num at *
    nlinarith
  have r2 : 9793 / 10000 * G ≤ Real.sqrt (R / S') := by
    rw [hG]
    refine sqrt_dn (by norm_num) ?_
    rw [le_div_iff₀ S'0, mul_div_assoc', div_mul_eq_mul_div, div_le_iff₀ hS]
    have := mul_le_mul_of_nonneg_left s2 hR.le
    norm_num at *
    nlinarith
  have G0 : 0 ≤ G := by rw [hG]; exact Real.sqrt_nonneg _
  have gu : (g : ℝ) ≤ 102158 / 100000 * G := by linarith
  have gl : 97929 / 100000 * G ≤ g := by linarith
  have GX : 0 ≤ G * X := mul_nonneg G0 X0
  have pu : (g : ℝ) * b ≤ 102158 / 100000 * (10211 / 10000) * (G * X) + 16 * (1 / 2 ^ 140) := by
    calc (g : ℝ) * b ≤ g * (10211 / 10000 * X + 1 / 2 ^ 140) := mul_le_mul_of_nonneg_left h2 g0'
      _ = g * (10211 / 10000 * X) + g * (1 / 2 ^ 140) := by ring
      _ ≤ 102158 / 100000 * G * (10211 / 10000 * X) + 16 * (1 / 2 ^ 140) :=
        add_le_add (mul_le_mul_of_nonneg_right gu (by positivity)) (mul_le_mul_of_nonneg_right g16' (by positivity))
      _ = _ := by ring
  have pl : 97929 / 100000 * (9789 / 10000) * (G * X) - 16 * (1 / 2 ^ 140) ≤ (g : ℝ) * b := by
    calc 97929 / 100000 * (9789 / 10000) * (G * X) - 16 * (1 / 2 ^ 140) = 97929 / 100000 * G * (9789 / 10000 * X) - 16 * (1 / 2 ^ 140) := by ring
      _ ≤ g * (9789 / 10000 * X) - g * (1 / 2 ^ 140) :=
        sub_le_sub (mul_le_mul_of_nonneg_right gl (by positivity)) (mul_le_mul_of_nonneg_right g16' (by positivity))
      _ = g * (9789 / 10000 * X - 1 / 2 ^ 140) := by ring
      _ ≤ _ := mul_le_mul_of_nonneg_left h1 g0'
  have gb0 : 0 ≤ g * b := mul_nonneg g0 b0
  have e' : |((rnd F32 (g * b) : ℚ) : ℝ) - (g : ℝ) * b| ≤ 1 / 16777216 * ((g : ℝ) * b) + 1 / 2 ^ 149 := by
    have e := rnd32_err (g * b)
    rw [p24, abs_of_nonneg gb0] at e
    have t : pow2 (-150) ≤ 1 / 2 ^ 149 := by rw [pow2_eq]; norm_num
    have e2 : |rnd F32 (g * b) - g * b| ≤ 1 / 16777216 * (g * b) + 1 / 2 ^ 149 := by linarith
    have : ((|rnd F32 (g * b) - g * b| : ℚ) : ℝ) ≤ ((1 / 16777216 * (g * b) + 1 / 2 ^ 149 : ℚ) : ℝ) := by exact_mod_cast e2
    push_cast at this
    exact this
  have eb := abs_le.1 e'
  have k1 : (16 : ℝ) * (1 / 2 ^ 140) ≤ 1 / 2 * (1 / 2 ^ 120) := by norm_num
  have k2 : (1 : ℝ) / 2 ^ 149 ≤ 1 / 4 * (1 / 2 ^ 120) := by norm_num
  generalize (1 : ℝ) / 2 ^ 120 = τ at *
  rw [abs_le]
  constructor <;> linarith

/-- Every amplitude of the enhanced frame. -/
theorem enhanceWith_near (sn : SumsNear rm es) (hcos : CosAcc m) (hsin : SinAcc m) {addr : Nat} {cur : Parms (IEEE m)} {t : Tls (IEEE m)} {w : ℚ} (hw : Val cur.w0 w) (w1 : 1 / 32 ≤ w)
    (w2 : w ≤ 1) (hp : PitchOk w cur.L) (hL : cur.L ≤ 56) {a : Nat → ℚ}
    (ha : ∀ l : Fin 57, 1 ≤ l.val → (l.val : Int) ≤ cur.L → Val (cur.Ml l) (a l.val) ∧ 0 ≤ a l.val ∧ a l.val ≤ 2 ^ 18)
    {k : Nat} (k1 : 1 ≤ k) (k2 : (k : Int) ≤ cur.L) (hk : 1 / 1024 ≤ a k) :
    Post (enhanceWith rm es addr cur t) fun r => ∀ l, 1 ≤ l → l ≤ cur.L.toNat →
      |amps (valuesOf r.1).Ml l - enhGain w (fun l => (a l : ℝ)) cur.L.toNat * (enhFactor w (fun l => (a l : ℝ)) cur.L.toNat l * a l)| ≤
        1 / 20 * (enhGain w (fun l => (a l : ℝ)) cur.L.toNat * (enhFactor w (fun l => (a l : ℝ)) cur.L.toNat l * a l)) + 1 / 2 ^ 120 := by
  have hq : |w| ≤ 8 := by rw [abs_of_nonneg (by linarith)]; linarith
  obtain ⟨M, hM⟩ : ∃ M : Nat → ℝ, M = fun l => (a l : ℝ) := ⟨_, rfl⟩
  rw [← hM]
  have hMl : ∀ l, M l = (a l : ℝ) := fun l => by rw [hM]
  obtain ⟨n, hn⟩ : ∃ n, n = cur.L.toNat := ⟨_, rfl⟩
  rw [← hn]
  have hn56 : n ≤ 56 := by omega
  have R0 := sumBelow_ge (L := n) (a := a) k1 (by omega) hk
  have han : ∀ l : Nat, 1 ≤ l → l ≤ n → 0 ≤ a l ∧ a l ≤ 2 ^ 18 := fun l h1 h2 =>
    (ha ⟨l, by omega⟩ h1 (by show (l : Int) ≤ _; omega)).2
  have E : energy M n = ((sumBelow (fun j => a j * a j) (n + 1) : ℚ) : ℝ) := energy_cast fun l _ _ => hMl l
  have R0l : 1 / 2 ^ 20 ≤ energy M n := by
    rw [E]
    have : ((1 / 2 ^ 20 : ℚ) : ℝ) ≤ ((sumBelow (fun j => a j * a j) (n + 1) : ℚ) : ℝ) := by exact_mod_cast R0
    push_cast at this
    exact this
  have R0u : energy M n ≤ 56 * 2 ^ 36 := by
    rw [E]
    have : sumBelow (fun j => a j * a j) (n + 1) ≤ 56 * 2 ^ 36 := sumBelow_const (by omega) (by norm_num) fun j h1 h2 => by
      obtain ⟨u, v⟩ := han j h1 (by omega)
      exact (mul_le_mul v v u (by norm_num)).trans (by norm_num)
    have : ((sumBelow (fun j => a j * a j) (n + 1) : ℚ) : ℝ) ≤ ((56 * 2 ^ 36 : ℚ) : ℝ) := by exact_mod_cast this
    push_cast at this
    exact this
  have Rp : 0 < energy M n := lt_of_lt_of_le (by norm_num) R0l
  unfold enhanceWith
  refine Post.bind (Ok.post (cosTab_near hcos hsin hw hq hL)) fun ct hct => ?_
  have ctv : ∀ l : Nat, ∃ r : ℚ, ∀ hl : l < 57, 1 ≤ l → (l : Int) ≤ cur.L → ∃ c : IEEE m, ct ⟨l, hl⟩ = some c ∧ Val c r ∧ |r| ≤ 1 ∧
      |(r : ℝ) - Real.cos (l * (w : ℝ))| ≤ 56 / 1600000 := by
    intro l
    by_cases h : l < 57 ∧ 1 ≤ l ∧ (l : Int) ≤ cur.L
    · obtain ⟨c, r, e1, e2, e3⟩ := hct ⟨l, h.1⟩ h.2.1 h.2.2
      refine ⟨r, fun _ _ _ => ⟨c, e1, e2, ?_, e3⟩⟩
      have pc := hp l h.2.1 h.2.2
      have : |(r : ℝ)| ≤ 1 := by
        have b3 := abs_le.1 e3
        have b4 := abs_le.1 pc
        dsimp only at b3
        rw [abs_le]
        constructor <;> linarith
      exact_mod_cast this
    · exact ⟨0, fun h1 h2 h3 => absurd ⟨h1, h2, h3⟩ h⟩
  obtain ⟨rv, hrv⟩ := Classical.skolem.1 ctv
  refine Post.bind (Ok.post (sn.rmNear hL (Ml := cur.Ml) (ct := ct) (a := a) (r := rv)
    (fun l h1 h2 => ⟨(ha l h1 h2).1, (ha l h1 h2).2.1, (ha l h1 h2).2.2.trans (by norm_num)⟩)
    (fun l h1 h2 => by
      obtain ⟨c, e1, e2, e3, _⟩ := hrv l.val l.isLt h1 h2
      exact ⟨c, e1, e2, e3⟩))) fun s hs => ?_
  rw [← hn] at hs
  obtain ⟨q0, q1, v0, v1, n0, n1⟩ := hs
  have e0 : |(q0 : ℝ) - energy M n| ≤ energy M n / 270000 := by
    rw [E]
    exact cast_rel (le_trans (by norm_num) R0) n0
  -- the first-order correlation
  have hcorr : |((sumBelow (fun j => a j * a j * rv j) (n + 1) : ℚ) : ℝ) - corr w M n| ≤ 35 / 1000000 * energy M n := by
    unfold corr energy sumBelow
    rw [Rat.cast_sum, show Finset.Ico 1 (n + 1) = Finset.Icc 1 n by ext x; simp only [Finset.mem_Icc, Finset.mem_Ico]; omega, ← Finset.sum_sub_distrib, Finset.mul_sum]
    refine (Finset.abs_sum_le_sum_abs _ _).trans (Finset.sum_le_sum fun l hl => ?_)
    rw [Finset.mem_Icc] at hl
    obtain ⟨c, _, _, _, e4⟩ := hrv l (by omega) hl.1 (by omega)
    rw [hMl l]
    push_cast
    rw [show (a l : ℝ) * a l * rv l - (a l : ℝ) ^ 2 * Real.cos (l * (w : ℝ)) = (a l : ℝ) ^ 2 * ((rv l : ℝ) - Real.cos (l * (w : ℝ))) by ring,
      abs_mul, abs_of_nonneg (sq_nonneg (a l : ℝ)), mul_comm]
    exact mul_le_mul_of_nonneg_right (e4.trans (by norm_num)) (sq_nonneg _)
  have e1 : |(q1 : ℝ) - corr w M n| ≤ energy M n / 25000 := by
    have : |(q1 : ℝ) - ((sumBelow (fun j => a j * a j * rv j) (n + 1) : ℚ) : ℝ)| ≤ energy M n / 270000 := by
      rw [E]
      have h3 : |q1 - sumBelow (fun j => a j * a j * rv j) (n + 1)| ≤ sumBelow (fun j => a j * a j) (n + 1) / 270000 := by
        refine n1.trans ?_
        generalize sumBelow (fun j => a j * a j) (n + 1) = R at R0
        norm_num at R0 ⊢
        linarith
      have : ((|q1 - sumBelow (fun j => a j * a j * rv j) (n + 1)| : ℚ) : ℝ) ≤ ((sumBelow (fun j => a j * a j) (n + 1) / 270000 : ℚ) : ℝ) := by
        exact_mod_cast h3
      push_cast at this
      exact this
    have b1 := abs_le.1 this
    have b2 := abs_le.1 hcorr
    rw [abs_le]
    constructor <;> linarith
  have hR1 : |corr w M n| ≤ (1 - 1 / 900) * energy M n := by
    unfold corr energy
    rw [Finset.mul_sum]
    refine (Finset.abs_sum_le_sum_abs _ _).trans (Finset.sum_le_sum fun l hl => ?_)
    rw [Finset.mem_Icc] at hl
    rw [abs_mul, abs_of_nonneg (sq_nonneg _), mul_comm]
    exact mul_le_mul_of_nonneg_right (hp l hl.1 (by omega)) (sq_nonneg _)
  dsimp only
  rw [hn] at R0l R0u e0 e1 hR1
  refine Post.bind (Ok.post (enhWeights_near hL (fun l h1 h2 => ⟨(ha l h1 h2).1, (ha l h1 h2).2.1, (ha l h1 h2).2.2.trans (by norm_num)⟩) hct hp hw w1 w2 v0 v1
    hMl R0l R0u e0 e1 hR1)) fun Ml hMl' => ?_
  rw [← hn] at R0l R0u e0 e1 hR1
  obtain ⟨b, hb⟩ := hMl'
  rw [← hn] at hb
  have fb : ∀ l, 1 / 2 ≤ enhFactor w M n l ∧ enhFactor w M n l ≤ 6 / 5 := fun l => by
    unfold enhFactor
    split
    · norm_num
    · exact ⟨le_max_left _ _, max_le (by norm_num) (min_le_left _ _)⟩
  have hb' : ∀ l : Fin 57, 1 ≤ l.val → (l.val : Int) ≤ cur.L → Val (Ml l) (b l.val) ∧ 0 ≤ a l.val ∧ a l.val ≤ 2 ^ 27 ∧ 0 ≤ b l.val ∧
      48 / 100 * a l.val - 1 / 2 ^ 140 ≤ b l.val ∧ b l.val ≤ 123 / 100 * a l.val + 1 / 2 ^ 140 := fun l h1 h2 => by
    obtain ⟨c1, c2, c3, c4⟩ := hb l h1 h2
    obtain ⟨c5, c6, c7⟩ := ha l h1 h2
    have a0 : (0 : ℝ) ≤ a l.val := by exact_mod_cast c6
    have f1 := mul_le_mul_of_nonneg_right (fb l.val).1 a0
    have f2 := mul_le_mul_of_nonneg_right (fb l.val).2 a0
    have g1 : ((48 / 100 * a l.val - 1 / 2 ^ 140 : ℚ) : ℝ) ≤ b l.val := by
      push_cast
      linarith
    have g2 : (b l.val : ℝ) ≤ ((123 / 100 * a l.val + 1 / 2 ^ 140 : ℚ) : ℝ) := by
      push_cast
      linarith
    exact ⟨c1, c6, c7.trans (by norm_num), c2, by exact_mod_cast g1, by exact_mod_cast g2⟩
  have hR22 : 1 / 2 ^ 22 ≤ sumBelow (fun j => a j * a j) (n + 1) := le_trans (by norm_num) R0
  rw [hn] at hR22 E
  rw [hn, E] at e0
  obtain ⟨M', hM', g, g0, g16, g1, g2, hout⟩ := enhTail sn hL v0 hb' hR22 e0
  rw [← E, ← hn] at g1 g2
  have EB : energy (fun l => (b l : ℝ)) n = ((sumBelow (fun j => b j * b j) (n + 1) : ℚ) : ℝ) := energy_cast fun l _ _ => rfl
  rw [← EB] at g1 g2
  have a27 : ∀ l, 1 ≤ l → l ≤ n → (0 : ℝ) ≤ a l ∧ (a l : ℝ) ≤ 2 ^ 18 := fun l h1 h2 => by
    obtain ⟨u, v⟩ := han l h1 h2
    have : (a l : ℝ) ≤ ((2 ^ 18 : ℚ) : ℝ) := by exact_mod_cast v
    push_cast at this
    exact ⟨by exact_mod_cast u, this⟩
  have quarter : 1 / 4 * energy M n ≤ energy (fun l => enhFactor w M n l * M l) n := by
    unfold energy
    rw [Finset.mul_sum]
    refine Finset.sum_le_sum fun l hl => ?_
    rw [mul_pow]
    refine mul_le_mul_of_nonneg_right ?_ (sq_nonneg _)
    have := pow_le_pow_left₀ (by norm_num) (fb l).1 2
    norm_num at this ⊢
    exact this
  have X22 : 1 / 2 ^ 22 ≤ energy (fun l => enhFactor w M n l * M l) n := by
    refine le_trans ?_ quarter
    norm_num at R0l ⊢
    linarith
  obtain ⟨s1, s2⟩ := energy_near (B := fun l => (b l : ℝ)) (X := fun l => enhFactor w M n l * M l) hn56 (fun l h1 h2 => by
    obtain ⟨c1, c2, c3, c4⟩ := hb ⟨l, by omega⟩ h1 (by show (l : Int) ≤ _; omega)
    obtain ⟨u, v⟩ := a27 l h1 h2
    rw [hMl l]
    refine ⟨by exact_mod_cast c2, mul_nonneg (by linarith [(fb l).1]) u, ?_, c3, c4⟩
    calc enhFactor w M n l * (a l : ℝ) ≤ 6 / 5 * 2 ^ 18 := mul_le_mul (fb l).2 v u (by norm_num)
      _ ≤ 2 ^ 28 := by norm_num) X22
  intro r hr
  rw [← bind_assoc, hM', ok_bind] at hr
  cases hr
  intro l l1 l2
  have out := amps_values (p := { cur with Ml := M' }) (a := fun l => rnd F32 (g * b l)) hL hout l l1 (by rw [← hn]; exact l2)
  rw [out]
  obtain ⟨c1, c2, c3, c4⟩ := hb ⟨l, by omega⟩ l1 (by show (l : Int) ≤ _; omega)
  exact out_near g0 c2 g16 (lt_of_lt_of_le (by norm_num) R0l) (lt_of_lt_of_le (by norm_num) X22) rfl (mul_nonneg (by linarith [(fb l).1]) (a27 l l1 l2).1)
    s1 s2 g1 g2 c3 c4

theorem enhance_near (hcos : CosAcc m) (hsin : SinAcc m) {addr : Nat} {cur : Parms (IEEE m)} {t : Tls (IEEE m)} {w : ℚ} (hw : Val cur.w0 w) (w1 : 1 / 32 ≤ w)
    (w2 : w ≤ 1) (hp : PitchOk w cur.L) (hL : cur.L ≤ 56) {a : Nat → ℚ}
    (ha : ∀ l : Fin 57, 1 ≤ l.val → (l.val : Int) ≤ cur.L → Val (cur.Ml l) (a l.val) ∧ 0 ≤ a l.val ∧ a l.val ≤ 2 ^ 18)
    {k : Nat} (k1 : 1 ≤ k) (k2 : (k : Int) ≤ cur.L) (hk : 1 / 1024 ≤ a k) :
    Post (spectralAmpEnhance addr cur t) fun r => ∀ l, 1 ≤ l → l ≤ cur.L.toNat →
      |amps (valuesOf r.1).Ml l - enhGain w (fun l => (a l : ℝ)) cur.L.toNat * (enhFactor w (fun l => (a l : ℝ)) cur.L.toNat l * a l)| ≤
        1 / 20 * (enhGain w (fun l => (a l : ℝ)) cur.L.toNat * (enhFactor w (fun l => (a l : ℝ)) cur.L.toNat l * a l)) + 1 / 2 ^ 120 :=
  enhanceWith_near sumsNear_scalar hcos hsin hw w1 w2 hp hL ha k1 k2 hk

end Verif.Model
