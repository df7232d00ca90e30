import Verif.Lemmas.EnhFrame

/-!
# The spectral enhancement in binary32: the energy is kept
-/

namespace Verif.Model
open Verif Verif.Gen Verif.Spec Verif.Num Arith
variable {m : Libm}

theorem sq_between {a b : ℚ} (a0 : 0 ≤ a) (a1 : a ≤ 2 ^ 27) (b0 : 0 ≤ b) (h1 : 48 / 100 * a - 1 / 2 ^ 140 ≤ b) (h2 : b ≤ 123 / 100 * a + 1 / 2 ^ 140) :
    1 / 5 * (a * a) - 1 / 2 ^ 100 ≤ b * b ∧ b * b ≤ 2 * (a * a) + 1 / 2 ^ 100 := by
  have at' : a * (1 / 2 ^ 140) ≤ 2 ^ 27 * (1 / 2 ^ 140) := mul_le_mul_of_nonneg_right a1 (by positivity)
  have aa := mul_nonneg a0 a0
  constructor
  · by_cases c : 48 / 100 * a - 1 / 2 ^ 140 ≤ 0
    · have : a ≤ 3 * (1 / 2 ^ 140) := by linarith
      have := mul_le_mul_of_nonneg_left this a0
      have := mul_self_nonneg b
      norm_num at *
      linarith
    · have := mul_le_mul h1 h1 (by linarith) b0
      norm_num at *
      nlinarith
  · have := mul_le_mul h2 h2 b0 (by positivity)
    norm_num at *
    nlinarith

theorem sumBelow_between {a b : Nat → ℚ} {L : Nat} (hL : L ≤ 56) (h : ∀ l, 1 ≤ l → l ≤ L → 0 ≤ a l ∧ a l ≤ 2 ^ 27 ∧ 0 ≤ b l ∧
      48 / 100 * a l - 1 / 2 ^ 140 ≤ b l ∧ b l ≤ 123 / 100 * a l + 1 / 2 ^ 140) (hR : 1 / 2 ^ 22 ≤ sumBelow (fun j => a j * a j) (L + 1)) :
    sumBelow (fun j => a j * a j) (L + 1) / 100 ≤ sumBelow (fun j => b j * b j) (L + 1) ∧
    sumBelow (fun j => b j * b j) (L + 1) ≤ 4 * sumBelow (fun j => a j * a j) (L + 1) := by
  have hc : ∀ c d : ℚ, sumBelow (fun j => c * (a j * a j) + d) (L + 1) = c * sumBelow (fun j => a j * a j) (L + 1) + L * d := by
    intro c d
    unfold sumBelow
    rw [Finset.sum_add_distrib, ← Finset.mul_sum, Finset.sum_const, Nat.card_Ico, nsmul_eq_mul]
    rfl
  have hL' : (L : ℚ) ≤ 56 := by exact_mod_cast hL
  have hL0 : (0 : ℚ) ≤ L := by positivity
  have u1 : sumBelow (fun j => 1 / 5 * (a j * a j) + -(1 / 2 ^ 100)) (L + 1) ≤ sumBelow (fun j => b j * b j) (L + 1) :=
    sumBelow_le fun l h1 h2 => by
      obtain ⟨g1, g2, g3, g4, g5⟩ := h l h1 (by omega)
      linarith [(sq_between g1 g2 g3 g4 g5).1]
  have u2 : sumBelow (fun j => b j * b j) (L + 1) ≤ sumBelow (fun j => 2 * (a j * a j) + 1 / 2 ^ 100) (L + 1) :=
    sumBelow_le fun l h1 h2 => by
      obtain ⟨g1, g2, g3, g4, g5⟩ := h l h1 (by omega)
      exact (sq_between g1 g2 g3 g4 g5).2
  rw [hc] at u1 u2
  have : (L : ℚ) * (1 / 2 ^ 100) ≤ 56 * (1 / 2 ^ 100) := mul_le_mul_of_nonneg_right hL' (by positivity)
  have : (56 : ℚ) * (1 / 2 ^ 100) ≤ 1 / 2 ^ 22 / 100 := by norm_num
  constructor <;> linarith

theorem sumBelow_ge {a : Nat → ℚ} {L k : Nat} (k1 : 1 ≤ k) (k2 : k ≤ L) (hk : 1 / 1024 ≤ a k) : 1 / 2 ^ 20 ≤ sumBelow (fun j => a j * a j) (L + 1) := by
  unfold sumBelow
  have := Finset.single_le_sum (f := fun j => a j * a j) (s := Finset.Ico 1 (L + 1)) (fun j _ => mul_self_nonneg _) (Finset.mem_Ico.2 ⟨k1, by omega⟩)
  have h2 := mul_le_mul hk hk (by norm_num) (by linarith)
  norm_num at *
  linarith

theorem cast_rel {x y : ℚ} (hy : 1 / 2 ^ 30 ≤ y) (h : |x - y| ≤ 58 * (y / 16000000) + 56 * (1 / 2 ^ 140)) : |(x : ℝ) - y| ≤ y / 270000 := by
  have : |x - y| ≤ y / 270000 := by
    refine h.trans ?_
    norm_num at *
    linarith
  have : ((|x - y| : ℚ) : ℝ) ≤ ((y / 270000 : ℚ) : ℝ) := by exact_mod_cast this
  push_cast at this
  exact this

variable {rm : Int → Arr 57 (IEEE m) → Loc 57 (IEEE m) → Exec (IEEE m × IEEE m)} {es : Int → Arr 57 (IEEE m) → Exec (IEEE m)}

/-- From the weighted amplitudes to the result. -/
theorem enhTail (sn : SumsNear rm es) {L : Int} (hL : L ≤ 56) {Ml : Arr 57 (IEEE m)} {a b : Nat → ℚ} {x : IEEE m} {q0 : ℚ} (h0 : Val x q0)
    (hb : ∀ l : Fin 57, 1 ≤ l.val → (l.val : Int) ≤ L → Val (Ml l) (b l.val) ∧ 0 ≤ a l.val ∧ a l.val ≤ 2 ^ 27 ∧ 0 ≤ b l.val ∧
      48 / 100 * a l.val - 1 / 2 ^ 140 ≤ b l.val ∧ b l.val ≤ 123 / 100 * a l.val + 1 / 2 ^ 140)
    (hR : 1 / 2 ^ 22 ≤ sumBelow (fun j => a j * a j) (L.toNat + 1))
    (e0 : |(q0 : ℝ) - sumBelow (fun j => a j * a j) (L.toNat + 1)| ≤ sumBelow (fun j => a j * a j) (L.toNat + 1) / 270000) :
    Ok (do
      let s ← es L Ml
      enhScale L (enhGamma x s) Ml) fun M' => ∃ g : ℚ, 0 ≤ g ∧ g ≤ 16 ∧
        (1 - 1 / 250000) * Real.sqrt (sumBelow (fun j => a j * a j) (L.toNat + 1) / sumBelow (fun j => b j * b j) (L.toNat + 1)) ≤ g ∧
        (g : ℝ) ≤ (1 + 1 / 250000) * Real.sqrt (sumBelow (fun j => a j * a j) (L.toNat + 1) / sumBelow (fun j => b j * b j) (L.toNat + 1)) ∧
        ∀ l : Fin 57, 1 ≤ l.val → (l.val : Int) ≤ L → Val (M' l) (rnd F32 (g * b l.val)) := by
  have hb' : ∀ l : Nat, 1 ≤ l → l ≤ L.toNat → 0 ≤ a l ∧ a l ≤ 2 ^ 27 ∧ 0 ≤ b l ∧
      48 / 100 * a l - 1 / 2 ^ 140 ≤ b l ∧ b l ≤ 123 / 100 * a l + 1 / 2 ^ 140 := fun l h1 h2 =>
    (hb ⟨l, by omega⟩ h1 (by show (l : Int) ≤ L; omega)).2
  obtain ⟨S1, S2⟩ := sumBelow_between (by omega) hb' hR
  have bu : ∀ l : Nat, 1 ≤ l → l ≤ L.toNat → b l ≤ 2 ^ 40 := fun l h1 h2 => by
    obtain ⟨g1, g2, g3, g4, g5⟩ := hb' l h1 h2
    refine g5.trans ?_
    norm_num at *
    linarith
  refine Ok.bind (sn.sumNear hL (b := b) fun l h1 h2 => ⟨(hb l h1 h2).1, (hb l h1 h2).2.2.2.1, bu l.val h1 (by omega)⟩) fun s hs => ?_
  obtain ⟨q, vq, eq'⟩ := hs
  have S30 : 1 / 2 ^ 30 ≤ sumBelow (fun j => b j * b j) (L.toNat + 1) := by
    refine le_trans ?_ S1
    norm_num at *
    linarith
  have e1 := cast_rel S30 eq'
  have hR' : (1 : ℝ) / 2 ^ 22 ≤ ((sumBelow (fun j => a j * a j) (L.toNat + 1) : ℚ) : ℝ) := by
    have : ((1 / 2 ^ 22 : ℚ) : ℝ) ≤ ((sumBelow (fun j => a j * a j) (L.toNat + 1) : ℚ) : ℝ) := by exact_mod_cast hR
    push_cast at this
    exact this
  have S1' : ((sumBelow (fun j => a j * a j) (L.toNat + 1) : ℚ) : ℝ) / 100 ≤ ((sumBelow (fun j => b j * b j) (L.toNat + 1) : ℚ) : ℝ) := by
    have : ((sumBelow (fun j => a j * a j) (L.toNat + 1) / 100 : ℚ) : ℝ) ≤ ((sumBelow (fun j => b j * b j) (L.toNat + 1) : ℚ) : ℝ) := by exact_mod_cast S1
    rw [Rat.cast_div] at this
    exact_mod_cast this
  have S2' : ((sumBelow (fun j => b j * b j) (L.toNat + 1) : ℚ) : ℝ) ≤ 4 * ((sumBelow (fun j => a j * a j) (L.toNat + 1) : ℚ) : ℝ) := by exact_mod_cast S2
  obtain ⟨g, vg, g0, g1, g2, g16⟩ := enhGamma_near h0 vq hR' S1' S2' e0 e1
  rw [enhScale_eq hL]
  refine Ok.ok ⟨g, g0, g16, g1, g2, fun l h1 h2 => ?_⟩
  dsimp only
  rw [if_pos ⟨h1, h2⟩]
  have bl := (hb l h1 h2).2.2.2.1
  exact vg.mul (hb l h1 h2).1 (by
    rw [abs_of_nonneg (mul_nonneg g0 bl)]
    exact (mul_le_mul g16 (bu l.val h1 (by omega)) bl (by norm_num)).trans (le_trans (by norm_num) big_ge))

/-- The energy of the result. -/
theorem enhTail_energy {L : Nat} (hL : L ≤ 56) {a b : Nat → ℚ} {g : ℚ} (hb : ∀ l : Nat, 1 ≤ l → l ≤ L → 0 ≤ a l ∧ a l ≤ 2 ^ 27 ∧ 0 ≤ b l ∧
      48 / 100 * a l - 1 / 2 ^ 140 ≤ b l ∧ b l ≤ 123 / 100 * a l + 1 / 2 ^ 140) (hR : 1 / 2 ^ 22 ≤ sumBelow (fun j => a j * a j) (L + 1))
    (g0 : 0 ≤ g) (g16 : g ≤ 16)
    (g1 : (1 - 1 / 250000) * Real.sqrt (sumBelow (fun j => a j * a j) (L + 1) / sumBelow (fun j => b j * b j) (L + 1)) ≤ g)
    (g2 : (g : ℝ) ≤ (1 + 1 / 250000) * Real.sqrt (sumBelow (fun j => a j * a j) (L + 1) / sumBelow (fun j => b j * b j) (L + 1))) :
    |energy (fun l => ((rnd F32 (g * b l) : ℚ) : ℝ)) L - sumBelow (fun j => a j * a j) (L + 1)| ≤ sumBelow (fun j => a j * a j) (L + 1) / 100000 := by
  obtain ⟨S1, S2⟩ := sumBelow_between hL hb hR
  have Sp : 0 < sumBelow (fun j => b j * b j) (L + 1) := by
    refine lt_of_lt_of_le ?_ S1
    norm_num at *
    linarith
  have hR' : (1 : ℝ) / 2 ^ 22 ≤ ((sumBelow (fun j => a j * a j) (L + 1) : ℚ) : ℝ) := by
    have : ((1 / 2 ^ 22 : ℚ) : ℝ) ≤ ((sumBelow (fun j => a j * a j) (L + 1) : ℚ) : ℝ) := by exact_mod_cast hR
    push_cast at this
    exact this
  refine scaled_energy hL (fun l h1 h2 => ?_) hR' rfl (by exact_mod_cast Sp) g0 g16 g1 g2
  obtain ⟨k1, k2, k3, k4, k5⟩ := hb l h1 h2
  refine ⟨k3, k5.trans ?_⟩
  norm_num at *
  linarith

theorem enhanceWith_energy (sn : SumsNear rm es) (hm : TrigAcc m) {addr : Nat} {cur : Parms (IEEE m)} {t : Tls (IEEE m)} {w : ℚ} (hw : Val cur.w0 w) (w1 : 1 / 32 ≤ w)
    (w2 : w ≤ 1) (hp : PitchOk w cur.L) (h0 : 1 ≤ cur.L) (hL : cur.L ≤ 56) (h : Amps (2 ^ 27) (1 / 1024) cur) :
    Post (enhanceWith rm es addr cur t) fun r =>
      |energy (amps (valuesOf r.1).Ml) cur.L.toNat - energy (amps (valuesOf cur).Ml) cur.L.toNat| ≤ energy (amps (valuesOf cur).Ml) cur.L.toNat / 100000 := by
  have hq : |w| ≤ pow2 26 := by
    rw [abs_of_nonneg (by linarith), pow2_eq]; exact w2.trans (by norm_num)
  obtain ⟨a, ha, hz | ⟨k0, k01, k02, k03⟩⟩ := h
  · intro r hr
    have e1 := enhanceWith_zero sn.toSumsVal hm hw hq hp hL (fun l h1 h2 => by
      have := (ha l h1 h2).1
      rwa [hz l.val h1 h2] at this) r hr
    have e0 := energy_congr (amps_values (p := r.1) (a := fun _ => 0) hL e1)
    have e2 := energy_congr (amps_values (p := cur) (a := fun _ => 0) hL fun l h1 h2 => by
      have := (ha l h1 h2).1
      rwa [hz l.val h1 h2] at this)
    rw [e0, e2]
    unfold energy
    simp
  obtain ⟨k, hk, hmax⟩ := Finset.exists_max_image (Finset.Icc 1 cur.L.toNat) a ⟨k0, by rw [Finset.mem_Icc]; omega⟩
  rw [Finset.mem_Icc] at hk
  obtain ⟨M, hM⟩ : ∃ M, a k = M := ⟨_, rfl⟩
  rw [hM] at hmax
  have hM0 : 1 / 1024 ≤ M := k03.trans (hmax k0 (by rw [Finset.mem_Icc]; omega))
  have hM1 : M ≤ 2 ^ 27 := by rw [← hM]; exact (ha ⟨k, by omega⟩ hk.1 (by show (k : Int) ≤ _; omega)).2.2
  have ha' : ∀ l : Fin 57, 1 ≤ l.val → (l.val : Int) ≤ cur.L → Val (cur.Ml l) (a l.val) ∧ 0 ≤ a l.val ∧ a l.val ≤ M :=
    fun l h1 h2 => ⟨(ha l h1 h2).1, (ha l h1 h2).2.1, hmax l.val (by rw [Finset.mem_Icc]; omega)⟩
  have hMM : (1 : ℚ) / 2 ^ 20 ≤ M * M := le_trans (by norm_num) (mul_le_mul hM0 hM0 (by norm_num) (by linarith))
  have hMM2 : M * M ≤ 2 ^ 54 := (mul_le_mul hM1 hM1 (by linarith) (by norm_num)).trans (by norm_num)
  have tt : pow2 (-150) ≤ 1 / 2 ^ 149 := by rw [pow2_eq]; norm_num
  have t140 : (1 : ℚ) / 2 ^ 149 ≤ 1 / 2 ^ 140 := by norm_num
  have R0 := sumBelow_ge (L := cur.L.toNat) (a := a) k01 (by omega) k03
  rw [energy_cast (amps_values hL fun l h1 h2 => (ha' l h1 h2).1)]
  unfold enhanceWith
  refine Post.bind (Ok.post (cosTab_val hm hw hq hL hp)) fun ct hct => ?_
  have ctv : ∀ l : Nat, ∃ r : ℚ, ∀ hl : l < 57, 1 ≤ l → (l : Int) ≤ cur.L → ∃ c : IEEE m, ct ⟨l, hl⟩ = some c ∧ Val c r ∧ |r| ≤ 1 := by
    intro l
    by_cases h : l < 57 ∧ 1 ≤ l ∧ (l : Int) ≤ cur.L
    · obtain ⟨c, r, e1, e2, e3⟩ := hct ⟨l, h.1⟩ h.2.1 h.2.2
      exact ⟨r, fun _ _ _ => ⟨c, e1, e2, e3.trans (by norm_num)⟩⟩
    · exact ⟨0, fun h1 h2 h3 => absurd ⟨h1, h2, h3⟩ h⟩
  obtain ⟨rv, hrv⟩ := Classical.skolem.1 ctv
  obtain ⟨s, hs, hn⟩ := sn.rmNear hL (Ml := cur.Ml) (ct := ct) (a := a) (r := rv)
    (fun l h1 h2 => ⟨(ha' l h1 h2).1, (ha' l h1 h2).2.1, ((ha' l h1 h2).2.2.trans hM1).trans (by norm_num)⟩)
    (fun l h1 h2 => hrv l.val l.isLt h1 h2)
  refine Post.bind (P := fun r => r = s ∧ ∃ q0 q1 : ℚ, Val r.1 q0 ∧ Val r.2 q1 ∧ M * M * (99 / 100) ≤ q0 ∧ q0 ≤ 57 * (M * M) ∧ |q1| ≤ 4095 / 4096 * q0) ?_ fun r hr => ?_
  · obtain ⟨s', hs', hv⟩ := sn.rmVal hL h0 hM0 hM1 ha' hk.1 (by omega) hM hct
    intro r hr
    rw [hs] at hr hs'
    cases hs'
    cases hr
    exact ⟨rfl, hv⟩
  obtain ⟨rfl, q0, q1, v0, v1, i1, i2, i3⟩ := hr
  obtain ⟨q0', q1', v0', v1', n0, n1⟩ := hn
  cases v0.unique v0'
  have e0 := cast_rel (le_trans (by norm_num) R0) n0
  dsimp only
  refine Post.bind (Ok.post (enhWeights_val hL hM1 ha' hct hw w1 w2 v0 ?_ ?_ v1 i3)) fun Ml hMl => ?_
  · have : (1 : ℚ) / 2 ^ 21 ≤ 1 / 2 ^ 20 * (99 / 100) := by norm_num
    linarith
  · have : (57 : ℚ) * 2 ^ 54 ≤ 2 ^ 60 := by norm_num
    linarith
  obtain ⟨b, hb⟩ := hMl
  have hb' : ∀ l : Fin 57, 1 ≤ l.val → (l.val : Int) ≤ cur.L → Val (Ml l) (b l.val) ∧ 0 ≤ a l.val ∧ a l.val ≤ 2 ^ 27 ∧ 0 ≤ b l.val ∧
      48 / 100 * a l.val - 1 / 2 ^ 140 ≤ b l.val ∧ b l.val ≤ 123 / 100 * a l.val + 1 / 2 ^ 140 := fun l h1 h2 => by
    obtain ⟨c1, c2, c3, c4⟩ := hb l h1 h2
    obtain ⟨c5, c6, c7⟩ := ha' l h1 h2
    exact ⟨c1, c6, c7.trans hM1, c2, by linarith, by linarith⟩
  obtain ⟨M', hM', g, g0, g16, g1, g2, hout⟩ := enhTail sn hL v0 hb' (le_trans (by norm_num) R0) e0
  have hR22 : 1 / 2 ^ 22 ≤ sumBelow (fun j => a j * a j) (cur.L.toNat + 1) := le_trans (by norm_num) R0
  have fin := enhTail_energy (L := cur.L.toNat) (by omega) (fun l h1 h2 => (hb' ⟨l, by omega⟩ h1 (by show (l : Int) ≤ _; omega)).2) hR22 g0 g16 g1 g2
  intro r hr
  rw [← bind_assoc, hM', ok_bind] at hr
  cases hr
  rw [energy_congr (amps_values (a := fun l => rnd F32 (g * b l)) hL hout)]
  exact fin

theorem enhance_energy (hm : TrigAcc m) {addr : Nat} {cur : Parms (IEEE m)} {t : Tls (IEEE m)} {w : ℚ} (hw : Val cur.w0 w) (w1 : 1 / 32 ≤ w)
    (w2 : w ≤ 1) (hp : PitchOk w cur.L) (h0 : 1 ≤ cur.L) (hL : cur.L ≤ 56) (h : Amps (2 ^ 27) (1 / 1024) cur) :
    Post (spectralAmpEnhance addr cur t) fun r =>
      |energy (amps (valuesOf r.1).Ml) cur.L.toNat - energy (amps (valuesOf cur).Ml) cur.L.toNat| ≤ energy (amps (valuesOf cur).Ml) cur.L.toNat / 100000 :=
  enhanceWith_energy sumsNear_scalar hm hw w1 w2 hp h0 hL h

end Verif.Model
