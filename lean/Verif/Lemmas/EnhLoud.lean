import Verif.Lemmas.EnhNear
import Verif.Lemmas.Energy
import Verif.Spec.EnhanceAcc

/-!
# The spectral enhancement in binary32: large amplitudes

The denominator of the weight overflows, so that every weight is zero.
-/

namespace Verif.Model
open Verif Verif.Gen Verif.Spec Verif.Num Arith
variable {m : Libm}
variable {rm : Int → Arr 57 (IEEE m) → Loc 57 (IEEE m) → Exec (IEEE m × IEEE m)} {es : Int → Arr 57 (IEEE m) → Exec (IEEE m)}

theorem Val.mul_inf {x y : IEEE m} {a b : ℚ} (hx : Val x a) (hy : Val y b) (h : pow2 128 ≤ |rnd F32 (a * b)|) : ∃ s, (x *ᶠ y : IEEE m) = FP.inf s := by
  obtain ⟨s, rfl⟩ := hx
  obtain ⟨t, rfl⟩ := hy
  show ∃ u, FP.mulR F32 (.fin s a) (.fin t b) = FP.inf u
  rw [FP.mulR]
  unfold FP.round
  by_cases h0 : a * b = 0
  · rw [h0, rnd_zero, abs_zero] at h
    exact absurd h (not_le.2 (pow2_pos _))
  · rw [if_neg h0]
    simp only
    rw [if_pos (show pow2 F32.emax ≤ _ from h)]
    exact ⟨_, rfl⟩

theorem Val.sqrt_zero {x : IEEE m} (h : Val x 0) : Val (Arith.sqrt x : IEEE m) 0 := by
  obtain ⟨s, rfl⟩ := h
  show Val (FP.sqrtR F32 (FP.fin s 0)) 0
  unfold FP.sqrtR
  exact ⟨s, by simp⟩

theorem enhWeight_loud {w0 rm0 rm1 mm c : IEEE m} {w q0 q1 a r : ℚ} (hw : Val w0 w) (w1 : 1 / 32 ≤ w) (w2 : w ≤ 1)
    (h0 : Val rm0 q0) (h01 : 2 ^ 49 ≤ q0) (h02 : q0 ≤ 2 ^ 60) (h1 : Val rm1 q1) (h11 : |q1| ≤ 4095 / 4096 * q0)
    (ha : Val mm a) (ha0 : 0 ≤ a) (ha1 : a ≤ 2 ^ 27) (hc : Val c r) (hr : |r| ≤ 1999 / 2000) :
    Val (enhWeight w0 rm0 rm1 mm c : IEEE m) 0 := by
  have h01' : 1 / 2 ^ 21 ≤ q0 := le_trans (by norm_num) h01
  obtain ⟨N, vN, N0, N1⟩ := enhNum_val h0 h01' h02 h1 h11 hc hr
  obtain ⟨d1, d2, vd1, vd2, dd⟩ := enhDen_val h0 h01' h02 h1 h11 hw w1 w2
  have q3 : 2 ^ 147 ≤ q0 * (q0 * q0) := by
    have a := mul_le_mul h01 h01 (by norm_num) (by linarith)
    have b := mul_le_mul h01 a (by norm_num) (by linarith)
    exact le_trans (by norm_num) b
  have big : 2 ^ 129 ≤ d1 * d2 := by
    norm_num at *
    linarith
  have rbig : pow2 128 ≤ |rnd F32 (d1 * d2)| := by
    have := rnd_ge_rel (f := F32) (q := d1 * d2) (by
      refine le_trans ?_ big
      show pow2 (-126) ≤ _
      rw [pow2_eq]; norm_num)
    have e : pow2 (-(F32.p : Int)) = 1 / 16777216 := p24
    rw [e] at this
    refine le_trans ?_ (le_abs_self _)
    refine le_trans ?_ this
    have p : pow2 128 = 2 ^ 128 := by rw [pow2_eq]; norm_num
    rw [p]
    norm_num at *
    linarith
  obtain ⟨s, hd⟩ := Val.mul_inf vd1 vd2 rbig
  unfold enhWeight
  dsimp only
  rw [hd]
  obtain ⟨s3, vs3, s30, s31⟩ := ha.sqrt_le (k := 14) (by norm_num) ha0 (lt_of_le_of_lt ha1 (by rw [pow2_eq]; norm_num))
  exact mul_zero_val vs3 (Val.sqrt_zero (Val.sqrt_zero (vN.div_inf s)))

/-- The amplitude after a weight of zero. -/
theorem enhApply_loud {w mm : IEEE m} {a : ℚ} (hw : Val w 0) (ha : Val mm a) (h0 : 0 ≤ a) (h1 : a ≤ 2 ^ 27) (l : Nat) (L : Int) :
    ∃ r : ℚ, Val (enhApply l L w mm : IEEE m) r ∧ 0 ≤ r ∧ 9789 / 10000 * ((if 8 * (l : Int) ≤ L then 1 else 1 / 2) * (a : ℝ)) - 1 / 2 ^ 140 ≤ r ∧
      (r : ℝ) ≤ 10211 / 10000 * ((if 8 * (l : Int) ≤ L then 1 else 1 / 2) * (a : ℝ)) + 1 / 2 ^ 140 := by
  have := enhApply_near (W := 0) hw ha h0 h1 le_rfl (by norm_num) (by norm_num) l L
  have e : max (1 / 2) (min (6 / 5) (0 : ℝ)) = 1 / 2 := by rw [min_eq_right (by norm_num), max_eq_left (by norm_num)]
  rwa [e] at this

theorem enhWeights_loud {w0 rm0 rm1 : IEEE m} {w q0 q1 : ℚ} {L : Int} (hL : L ≤ 56) {Ml : Arr 57 (IEEE m)} {ct : Loc 57 (IEEE m)}
    {a : Nat → ℚ} (ha : ∀ l : Fin 57, 1 ≤ l.val → (l.val : Int) ≤ L → Val (Ml l) (a l.val) ∧ 0 ≤ a l.val ∧ a l.val ≤ 2 ^ 27)
    (hc : ∀ l : Fin 57, 1 ≤ l.val → (l.val : Int) ≤ L → ∃ (c : IEEE m) (r : ℚ), ct l = some c ∧ Val c r ∧ |r| ≤ 1999 / 2000)
    (hw : Val w0 w) (w1 : 1 / 32 ≤ w) (w2 : w ≤ 1) (h0 : Val rm0 q0) (h01 : 2 ^ 49 ≤ q0) (h02 : q0 ≤ 2 ^ 60) (h1 : Val rm1 q1)
    (h11 : |q1| ≤ 4095 / 4096 * q0) : Ok (enhWeights w0 L rm0 rm1 ct Ml) fun Ml' => ∃ b : Nat → ℚ,
      ∀ l : Fin 57, 1 ≤ l.val → (l.val : Int) ≤ L → Val (Ml' l) (b l.val) ∧ 0 ≤ b l.val ∧
        9789 / 10000 * (halved L.toNat l.val * a l.val) - 1 / 2 ^ 140 ≤ b l.val ∧
        (b l.val : ℝ) ≤ 10211 / 10000 * (halved L.toNat l.val * a l.val) + 1 / 2 ^ 140 := by
  have ctv : ∀ l : Fin 57, ∃ c : IEEE m, 1 ≤ l.val → (l.val : Int) ≤ L → ct l = some c ∧ ∃ r, Val c r ∧ |r| ≤ 1999 / 2000 := by
    intro l
    by_cases h : 1 ≤ l.val ∧ (l.val : Int) ≤ L
    · obtain ⟨c, r, e1, e2, e3⟩ := hc l h.1 h.2
      exact ⟨c, fun _ _ => ⟨e1, r, e2, e3⟩⟩
    · exact ⟨lit 0 1, fun h1 h2 => absurd ⟨h1, h2⟩ h⟩
  obtain ⟨cv, hcv⟩ := Classical.skolem.1 ctv
  unfold enhWeights
  rw [loopTo_ptwise (by omega) (fun l v => if eq v (lit 0 1) then v else enhApply l.val L (enhWeight w0 rm0 rm1 v (cv l)) v) _ (fun l hl h1 h2 A => by
    rw [Arr.rd_nat hl, ok_bind, Loc.rd_nat hl (hcv ⟨l, hl⟩ h1 h2).1]
    by_cases c : eq (A ⟨l, hl⟩) (lit 0 1) = true
    · rw [if_pos c, if_pos c, Arr.set_self]
    · rw [if_neg c, if_neg c, ok_bind, Arr.wr_nat hl]) Ml]
  refine Ok.ok ?_
  have h0c : Val (lit 0 1 : IEEE m) 0 := ⟨false, rfl⟩
  have : ∀ l : Nat, ∃ b : ℚ, ∀ (hl : l < 57) (_ : 1 ≤ l) (_ : (l : Int) ≤ L),
      Val (if eq (Ml ⟨l, hl⟩) (lit 0 1) then Ml ⟨l, hl⟩ else enhApply l L (enhWeight w0 rm0 rm1 (Ml ⟨l, hl⟩) (cv ⟨l, hl⟩)) (Ml ⟨l, hl⟩) : IEEE m) b ∧ 0 ≤ b ∧
        9789 / 10000 * (halved L.toNat l * a l) - 1 / 2 ^ 140 ≤ b ∧ (b : ℝ) ≤ 10211 / 10000 * (halved L.toNat l * a l) + 1 / 2 ^ 140 := by
    intro l
    by_cases h : l < 57 ∧ 1 ≤ l ∧ (l : Int) ≤ L
    · obtain ⟨hl, i1, i2⟩ := h
      obtain ⟨g1, g2, g3⟩ := ha ⟨l, hl⟩ i1 i2
      obtain ⟨f1, r, f2, f3⟩ := hcv ⟨l, hl⟩ i1 i2
      dsimp only at g1 g2 g3
      by_cases c : eq (Ml ⟨l, hl⟩) (lit 0 1) = true
      · refine ⟨a l, fun _ _ _ => ?_⟩
        rw [if_pos c]
        rw [g1.eq h0c] at c
        have z : a l = 0 := by simpa using c
        rw [z] at g1 ⊢
        refine ⟨g1, le_rfl, ?_, ?_⟩ <;> simp
      · have hf : halved L.toNat l = if 8 * (l : Int) ≤ L then 1 else 1 / 2 := by
          unfold halved
          by_cases c8 : 8 * (l : Int) ≤ L
          · rw [if_pos c8, if_pos (by omega)]
          · rw [if_neg c8, if_neg (by omega)]
        obtain ⟨r, vr⟩ := enhApply_loud (enhWeight_loud hw w1 w2 h0 h01 h02 h1 h11 g1 g2 g3 f2 f3) g1 g2 g3 l L
        refine ⟨r, fun _ _ _ => ?_⟩
        rw [if_neg c, hf]
        exact vr
    · exact ⟨0, fun a b c => absurd ⟨a, b, c⟩ h⟩
  obtain ⟨b, hb⟩ := Classical.skolem.1 this
  refine ⟨b, fun l i1 i2 => ?_⟩
  dsimp only
  rw [if_pos ⟨i1, i2⟩]
  exact hb l.val l.isLt i1 i2

/-- A frame with an amplitude of `2^25` or more. -/
theorem enhanceWith_loud (sn : SumsNear rm es) (hm : TrigAcc m) {addr : Nat} {cur : Parms (IEEE m)} {t : Tls (IEEE m)} {w : ℚ} (hw : Val cur.w0 w) (w1 : 1 / 32 ≤ w)
    (w2 : w ≤ 1) (hp : PitchOk w cur.L) (h0 : 1 ≤ cur.L) (hL : cur.L ≤ 56) {a : Nat → ℚ}
    (ha : ∀ l : Fin 57, 1 ≤ l.val → (l.val : Int) ≤ cur.L → Val (cur.Ml l) (a l.val) ∧ 0 ≤ a l.val ∧ a l.val ≤ 2 ^ 27)
    {k0 : Nat} (k01 : 1 ≤ k0) (k02 : (k0 : Int) ≤ cur.L) (k03 : 2 ^ 25 ≤ a k0) :
    Post (enhanceWith rm es addr cur t) fun r => ∀ l, 1 ≤ l → l ≤ cur.L.toNat →
      |amps (valuesOf r.1).Ml l - Real.sqrt (energy (fun l => (a l : ℝ)) cur.L.toNat / energy (fun l => halved cur.L.toNat l * (a l : ℝ)) cur.L.toNat) *
          (halved cur.L.toNat l * a l)| ≤
        1 / 20 * (Real.sqrt (energy (fun l => (a l : ℝ)) cur.L.toNat / energy (fun l => halved cur.L.toNat l * (a l : ℝ)) cur.L.toNat) *
          (halved cur.L.toNat l * a l)) + 1 / 2 ^ 120 := by
  have hq : |w| ≤ pow2 26 := by
    rw [abs_of_nonneg (by linarith), pow2_eq]; exact w2.trans (by norm_num)
  obtain ⟨k, hk, hmax⟩ := Finset.exists_max_image (Finset.Icc 1 cur.L.toNat) a ⟨k0, by rw [Finset.mem_Icc]; omega⟩
  rw [Finset.mem_Icc] at hk
  obtain ⟨M, hM⟩ : ∃ M, a k = M := ⟨_, rfl⟩
  rw [hM] at hmax
  have hM25 : 2 ^ 25 ≤ M := k03.trans (hmax k0 (by rw [Finset.mem_Icc]; omega))
  have hM0 : 1 / 1024 ≤ M := le_trans (by norm_num) hM25
  have hM1 : M ≤ 2 ^ 27 := by rw [← hM]; exact (ha ⟨k, by omega⟩ hk.1 (by show (k : Int) ≤ _; omega)).2.2
  have ha' : ∀ l : Fin 57, 1 ≤ l.val → (l.val : Int) ≤ cur.L → Val (cur.Ml l) (a l.val) ∧ 0 ≤ a l.val ∧ a l.val ≤ M :=
    fun l h1 h2 => ⟨(ha l h1 h2).1, (ha l h1 h2).2.1, hmax l.val (by rw [Finset.mem_Icc]; omega)⟩
  have hMM : (2 : ℚ) ^ 50 ≤ M * M := le_trans (by norm_num) (mul_le_mul hM25 hM25 (by norm_num) (by linarith))
  have hMM2 : M * M ≤ 2 ^ 54 := (mul_le_mul hM1 hM1 (by linarith) (by norm_num)).trans (by norm_num)
  obtain ⟨n, hn⟩ : ∃ n, n = cur.L.toNat := ⟨_, rfl⟩
  have R0 := sumBelow_ge (L := n) (a := a) k01 (by omega) (le_trans (by norm_num) k03)
  have E : energy (fun l => (a l : ℝ)) n = ((sumBelow (fun j => a j * a j) (n + 1) : ℚ) : ℝ) := energy_cast fun l _ _ => rfl
  have R0l : 1 / 2 ^ 20 ≤ energy (fun l => (a l : ℝ)) n := by
    rw [E]
    have : ((1 / 2 ^ 20 : ℚ) : ℝ) ≤ ((sumBelow (fun j => a j * a j) (n + 1) : ℚ) : ℝ) := by exact_mod_cast R0
    push_cast at this
    exact this
  unfold enhanceWith
  refine Post.bind (Ok.post (cosTab_val hm hw hq hL hp)) fun ct hct => ?_
  have ctv : ∀ l : Nat, ∃ r : ℚ, ∀ hl : l < 57, 1 ≤ l → (l : Int) ≤ cur.L → ∃ c : IEEE m, ct ⟨l, hl⟩ = some c ∧ Val c r ∧ |r| ≤ 1 := by
    intro l
    by_cases h : l < 57 ∧ 1 ≤ l ∧ (l : Int) ≤ cur.L
    · obtain ⟨c, r, e1, e2, e3⟩ := hct ⟨l, h.1⟩ h.2.1 h.2.2
      exact ⟨r, fun _ _ _ => ⟨c, e1, e2, e3.trans (by norm_num)⟩⟩
    · exact ⟨0, fun h1 h2 h3 => absurd ⟨h1, h2, h3⟩ h⟩
  obtain ⟨rv, hrv⟩ := Classical.skolem.1 ctv
  obtain ⟨s, hs, hnn⟩ := sn.rmNear hL (Ml := cur.Ml) (ct := ct) (a := a) (r := rv)
    (fun l h1 h2 => ⟨(ha' l h1 h2).1, (ha' l h1 h2).2.1, ((ha' l h1 h2).2.2.trans hM1).trans (by norm_num)⟩)
    (fun l h1 h2 => hrv l.val l.isLt h1 h2)
  refine Post.bind (P := fun r => r = s ∧ ∃ q0 q1 : ℚ, Val r.1 q0 ∧ Val r.2 q1 ∧ M * M * (99 / 100) ≤ q0 ∧ q0 ≤ 57 * (M * M) ∧ |q1| ≤ 4095 / 4096 * q0) ?_ fun r hr => ?_
  · obtain ⟨s', hs', hv⟩ := sn.rmVal hL h0 hM0 hM1 ha' hk.1 (by omega) hM hct
    intro r hr
    rw [hs] at hr hs'
    cases hs'
    cases hr
    exact ⟨rfl, hv⟩
  obtain ⟨rfl, q0, q1, v0, v1, i1, i2, i3⟩ := hr
  obtain ⟨q0', q1', v0', v1', n0, n1⟩ := hnn
  cases v0.unique v0'
  rw [← hn] at n0
  have e0 := cast_rel (le_trans (by norm_num) R0) n0
  dsimp only
  refine Post.bind (Ok.post (enhWeights_loud hL ha hct hw w1 w2 v0 ?_ ?_ v1 i3)) fun Ml hMl => ?_
  · have : (2 : ℚ) ^ 49 ≤ 2 ^ 50 * (99 / 100) := by norm_num
    linarith
  · have : (57 : ℚ) * 2 ^ 54 ≤ 2 ^ 60 := by norm_num
    linarith
  obtain ⟨b, hb⟩ := hMl
  rw [← hn] at hb ⊢
  have fb : ∀ l, 1 / 2 ≤ halved n l ∧ halved n l ≤ 6 / 5 := fun l => by
    unfold halved
    split <;> norm_num
  have hb' : ∀ l : Fin 57, 1 ≤ l.val → (l.val : Int) ≤ cur.L → Val (Ml l) (b l.val) ∧ 0 ≤ a l.val ∧ a l.val ≤ 2 ^ 27 ∧ 0 ≤ b l.val ∧
      48 / 100 * a l.val - 1 / 2 ^ 140 ≤ b l.val ∧ b l.val ≤ 123 / 100 * a l.val + 1 / 2 ^ 140 := fun l h1 h2 => by
    obtain ⟨c1, c2, c3, c4⟩ := hb l h1 h2
    obtain ⟨c5, c6, c7⟩ := ha l h1 h2
    have a0 : (0 : ℝ) ≤ a l.val := by exact_mod_cast c6
    have f1 := mul_le_mul_of_nonneg_right (fb l.val).1 a0
    have f2 := mul_le_mul_of_nonneg_right (fb l.val).2 a0
    have g1 : ((48 / 100 * a l.val - 1 / 2 ^ 140 : ℚ) : ℝ) ≤ b l.val := by
      push_cast
      linarith
    have g2 : (b l.val : ℝ) ≤ ((123 / 100 * a l.val + 1 / 2 ^ 140 : ℚ) : ℝ) := by
      push_cast
      linarith
    exact ⟨c1, c6, c7, c2, by exact_mod_cast g1, by exact_mod_cast g2⟩
  have hR22 : 1 / 2 ^ 22 ≤ sumBelow (fun j => a j * a j) (n + 1) := le_trans (by norm_num) R0
  rw [hn] at hR22 e0
  obtain ⟨M', hM', g, g0, g16, g1, g2, hout⟩ := enhTail sn hL v0 hb' hR22 e0
  rw [← hn, ← E] at g1 g2
  have EB : energy (fun l => (b l : ℝ)) n = ((sumBelow (fun j => b j * b j) (n + 1) : ℚ) : ℝ) := energy_cast fun l _ _ => rfl
  rw [← EB] at g1 g2
  have a27 : ∀ l, 1 ≤ l → l ≤ n → (0 : ℝ) ≤ a l ∧ (a l : ℝ) ≤ 2 ^ 27 := fun l h1 h2 => by
    obtain ⟨_, u, v⟩ := ha ⟨l, by omega⟩ h1 (by show (l : Int) ≤ _; omega)
    dsimp only at u v
    have : (a l : ℝ) ≤ ((2 ^ 27 : ℚ) : ℝ) := by exact_mod_cast v
    push_cast at this
    exact ⟨by exact_mod_cast u, this⟩
  have quarter : 1 / 4 * energy (fun l => (a l : ℝ)) n ≤ energy (fun l => halved n l * (a l : ℝ)) n := by
    unfold energy
    rw [Finset.mul_sum]
    refine Finset.sum_le_sum fun l hl => ?_
    rw [mul_pow]
    refine mul_le_mul_of_nonneg_right ?_ (sq_nonneg _)
    have := pow_le_pow_left₀ (by norm_num) (fb l).1 2
    norm_num at this ⊢
    exact this
  have X22 : 1 / 2 ^ 22 ≤ energy (fun l => halved n l * (a l : ℝ)) n := by
    refine le_trans ?_ quarter
    norm_num at R0l ⊢
    linarith
  obtain ⟨s1, s2⟩ := energy_near (B := fun l => (b l : ℝ)) (X := fun l => halved n l * (a l : ℝ)) (by omega) (fun l h1 h2 => by
    obtain ⟨c1, c2, c3, c4⟩ := hb ⟨l, by omega⟩ h1 (by show (l : Int) ≤ _; omega)
    obtain ⟨u, v⟩ := a27 l h1 h2
    refine ⟨by exact_mod_cast c2, mul_nonneg (by linarith [(fb l).1]) u, ?_, c3, c4⟩
    calc halved n l * (a l : ℝ) ≤ 6 / 5 * 2 ^ 27 := mul_le_mul (fb l).2 v u (by norm_num)
      _ ≤ 2 ^ 28 := by norm_num) X22
  intro r hr
  rw [← bind_assoc, hM', ok_bind] at hr
  cases hr
  intro l l1 l2
  have out := amps_values (p := { cur with Ml := M' }) (a := fun l => rnd F32 (g * b l)) hL hout l l1 (by rw [← hn]; exact l2)
  rw [out]
  obtain ⟨c1, c2, c3, c4⟩ := hb ⟨l, by omega⟩ l1 (by show (l : Int) ≤ _; omega)
  exact out_near g0 c2 g16 (lt_of_lt_of_le (by norm_num) R0l) (lt_of_lt_of_le (by norm_num) X22) rfl (mul_nonneg (by linarith [(fb l).1]) (a27 l l1 l2).1)
    s1 s2 g1 g2 c3 c4

/-! ## Changes of the amplitudes that leave the factors as they are -/

theorem enhance_loud (hm : TrigAcc m) {addr : Nat} {cur : Parms (IEEE m)} {t : Tls (IEEE m)} {w : ℚ} (hw : Val cur.w0 w) (w1 : 1 / 32 ≤ w)
    (w2 : w ≤ 1) (hp : PitchOk w cur.L) (h0 : 1 ≤ cur.L) (hL : cur.L ≤ 56) {a : Nat → ℚ}
    (ha : ∀ l : Fin 57, 1 ≤ l.val → (l.val : Int) ≤ cur.L → Val (cur.Ml l) (a l.val) ∧ 0 ≤ a l.val ∧ a l.val ≤ 2 ^ 27)
    {k0 : Nat} (k01 : 1 ≤ k0) (k02 : (k0 : Int) ≤ cur.L) (k03 : 2 ^ 25 ≤ a k0) :
    Post (spectralAmpEnhance addr cur t) fun r => ∀ l, 1 ≤ l → l ≤ cur.L.toNat →
      |amps (valuesOf r.1).Ml l - Real.sqrt (energy (fun l => (a l : ℝ)) cur.L.toNat / energy (fun l => halved cur.L.toNat l * (a l : ℝ)) cur.L.toNat) *
          (halved cur.L.toNat l * a l)| ≤
        1 / 20 * (Real.sqrt (energy (fun l => (a l : ℝ)) cur.L.toNat / energy (fun l => halved cur.L.toNat l * (a l : ℝ)) cur.L.toNat) *
          (halved cur.L.toNat l * a l)) + 1 / 2 ^ 120 :=
  enhanceWith_loud sumsNear_scalar hm hw w1 w2 hp h0 hL ha k01 k02 k03

theorem corr_congr {w : ℝ} {M N : Nat → ℝ} {L : Nat} (h : ∀ l, 1 ≤ l → l ≤ L → M l = N l) : corr w M L = corr w N L :=
  Finset.sum_congr rfl fun l hl => by
    rw [Finset.mem_Icc] at hl
    rw [h l hl.1 hl.2]

theorem enhFactor_congr {w : ℝ} {M N : Nat → ℝ} {L : Nat} (h : ∀ l, 1 ≤ l → l ≤ L → M l = N l) {l : Nat} (h1 : 1 ≤ l) (h2 : l ≤ L) :
    enhFactor w M L l = enhFactor w N L l := by
  unfold enhFactor enhW
  rw [energy_congr h, corr_congr h, h l h1 h2]

theorem enhGain_congr {w : ℝ} {M N : Nat → ℝ} {L : Nat} (h : ∀ l, 1 ≤ l → l ≤ L → M l = N l) : enhGain w M L = enhGain w N L := by
  unfold enhGain
  rw [energy_congr h, energy_congr (M := fun l => enhFactor w M L l * M l) (N := fun l => enhFactor w N L l * N l)
    fun l h1 h2 => by rw [enhFactor_congr h h1 h2, h l h1 h2]]

theorem corr_scale (g w : ℝ) (M : Nat → ℝ) (L : Nat) : corr w (fun l => g * M l) L = g ^ 2 * corr w M L := by
  unfold corr
  rw [Finset.mul_sum]
  exact Finset.sum_congr rfl fun l _ => by ring

theorem enhW_scale {g w : ℝ} (hg : 0 < g) {M : Nat → ℝ} {L l : Nat} (hM : 0 ≤ M l) (hd : 0 ≤ w * energy M L * (energy M L ^ 2 - corr w M L ^ 2)) :
    enhW w (fun l => g * M l) L l = enhW w M L l := by
  unfold enhW
  rw [energy_scale, corr_scale]
  have hX : 0 ≤ 96 / 100 * Real.pi * (energy M L ^ 2 + corr w M L ^ 2 - 2 * energy M L * corr w M L * Real.cos (l * w)) := by
    refine mul_nonneg (by positivity) ?_
    have := Real.cos_sq_add_sin_sq (l * w)
    nlinarith [sq_nonneg (corr w M L - energy M L * Real.cos (l * w)), sq_nonneg (energy M L * Real.sin (l * w))]
  have e : 96 / 100 * Real.pi * ((g ^ 2 * energy M L) ^ 2 + (g ^ 2 * corr w M L) ^ 2 - 2 * (g ^ 2 * energy M L) * (g ^ 2 * corr w M L) * Real.cos (l * w)) /
      (w * (g ^ 2 * energy M L) * ((g ^ 2 * energy M L) ^ 2 - (g ^ 2 * corr w M L) ^ 2)) =
      (g ^ 2)⁻¹ * (96 / 100 * Real.pi * (energy M L ^ 2 + corr w M L ^ 2 - 2 * energy M L * corr w M L * Real.cos (l * w)) /
        (w * energy M L * (energy M L ^ 2 - corr w M L ^ 2))) := by
    rw [show 96 / 100 * Real.pi * ((g ^ 2 * energy M L) ^ 2 + (g ^ 2 * corr w M L) ^ 2 - 2 * (g ^ 2 * energy M L) * (g ^ 2 * corr w M L) * Real.cos (l * w)) =
      g ^ 4 * (96 / 100 * Real.pi * (energy M L ^ 2 + corr w M L ^ 2 - 2 * energy M L * corr w M L * Real.cos (l * w))) from by ring,
      show w * (g ^ 2 * energy M L) * ((g ^ 2 * energy M L) ^ 2 - (g ^ 2 * corr w M L) ^ 2) =
      (g ^ 4 * g ^ 2) * (w * energy M L * (energy M L ^ 2 - corr w M L ^ 2)) from by ring]
    rw [mul_div_mul_comm, mul_comm (g ^ 4) (g ^ 2), div_mul_cancel_right₀ (by positivity)]
  rw [e, Real.mul_rpow hg.le hM, Real.mul_rpow (by positivity) (div_nonneg hX hd)]
  have r : ((g ^ 2)⁻¹ : ℝ) ^ (1 / 4 : ℝ) = (g ^ (1 / 2 : ℝ))⁻¹ := by
    rw [Real.inv_rpow (by positivity), ← Real.rpow_natCast, ← Real.rpow_mul hg.le]
    norm_num
  rw [r]
  have : g ^ (1 / 2 : ℝ) ≠ 0 := (Real.rpow_pos_of_pos hg _).ne'
  field_simp

/-- The energy that is handed over. -/
theorem sqSum_near {cur : Parms (IEEE m)} (hL : cur.L ≤ 56) {a : Nat → ℚ}
    (ha : ∀ l : Fin 57, 1 ≤ l.val → (l.val : Int) ≤ cur.L → Val (cur.Ml l) (a l.val) ∧ 0 ≤ a l.val ∧ a l.val ≤ 2 ^ 40) :
    ∃ q : ℚ, Val (sqSum (F := IEEE m) cur.Ml cur.L) q ∧ |(q : ℝ) - energy (amps (valuesOf cur).Ml) cur.L.toNat| ≤
      energy (amps (valuesOf cur).Ml) cur.L.toNat / 270000 + 1 / 2 ^ 130 := by
  have one : Val (lit 1 1 : IEEE m) 1 := val_of_rng (show rngB (lit 1 1 : IEEE libm0) 1 1 = true by decide +kernel)
  obtain ⟨s, hs, q0, q1, v0, _, n0, _⟩ := rm01_near hL (ct := fun _ => some (lit 1 1 : IEEE m)) (r := fun _ => 1) ha
    fun l _ _ => ⟨_, rfl, one, by norm_num⟩
  rw [rm01_fst hL _ _ s hs] at v0
  rw [energy_cast (amps_values hL fun l h1 h2 => (ha l h1 h2).1)]
  have pos : 0 ≤ sumBelow (fun j => a j * a j) (cur.L.toNat + 1) := sumBelow_nonneg fun j _ _ => mul_self_nonneg _
  generalize sumBelow (fun j => a j * a j) (cur.L.toNat + 1) = y at *
  have k : |q0 - y| ≤ y / 270000 + 1 / 2 ^ 130 := by
    refine n0.trans ?_
    norm_num
    linarith
  refine ⟨q0, v0, ?_⟩
  · have : ((|q0 - y| : ℚ) : ℝ) ≤ ((y / 270000 + 1 / 2 ^ 130 : ℚ) : ℝ) := by exact_mod_cast k
    push_cast at this
    exact this

end Verif.Model
