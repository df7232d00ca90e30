import Verif.Lemmas.PredNear
import Verif.Lemmas.PredictHist
import Verif.Lemmas.IvlAmbe
import Verif.Lemmas.LoudAmbeNan

/-!
# The AMBE residuals and the AMBE prediction in binary32 against exact arithmetic
-/

namespace Verif.Model
open Verif Verif.Gen Verif.Spec Verif.Num Arith
variable {m : Libm}

/-! ## The residuals -/

theorem tabEntry_near {x : Int} {b : Int} {g : ℝ} (h : |x| ≤ b) (hb : b < 1414213562373095) (hg : (b : ℝ) / 1000000 ≤ g) :
    Near (1 / 2 ^ 20 * g) g (ftab x 1000000 : IEEE m) (ftab x 1000000 : ℝ) := by
  obtain ⟨e, q, hv, hq⟩ := ftab_near (m := m) (d := 1000000) h hb (by decide) (by decide)
  have ha := ftab_abs h hb
  rw [e] at ha ⊢
  refine ⟨q, hv, hq.trans ?_, ha.trans hg⟩
  have := ha.trans hg
  have := abs_nonneg ((x : ℝ) / (1000000 : ℕ))
  linarith

theorem ambeG_nonneg (k : Nat) : 0 ≤ ambeG k := by unfold ambeG; split_ifs <;> norm_num

theorem ambeGm_near {T : AmbeTabs} (hT : T.Bnd) (f : AmbeFields) :
    Rel2 (LocNear (1 / 2 ^ 20) ambeG) (ambeGm T f : Exec (Loc 9 (IEEE m))) (ambeGm T f : Exec (Loc 9 ℝ)) := by
  obtain ⟨d1, d2, _, _, _, _, _, t1, t2, _⟩ := hT
  unfold ambeGm
  rw [d1, d2]
  refine .bind (R := LocNear (1 / 2 ^ 20) ambeG) (wr_rel2 (R := fun k => Near (1 / 2 ^ 20 * ambeG k) (ambeG k)) (fun i x y h => by cases h) _ ?_) fun G G' hG => ?_
  · exact fi0_near (mul_nonneg (by norm_num) (ambeG_nonneg _)) (ambeG_nonneg _)
  refine .bind (R := LocNear (1 / 2 ^ 20) ambeG) (.loop (fun _ => LocNear (1 / 2 ^ 20) ambeG) hG fun c hc G G' hG => ?_) fun G G' hG => ?_
  · refine .bindSame tab2_post fun x hx => ?_
    obtain ⟨r, _, _, hr, hx⟩ := hx
    refine wr_rel2 (R := fun k => Near (1 / 2 ^ 20 * ambeG k) (ambeG k)) hG _ (tabEntry_near (rowsBnd_get t1 hr hx) (by decide) ?_)
    rw [show ((c : Int) + 2).toNat = c + 2 by omega]
    unfold ambeG
    rw [if_neg (by omega), if_pos (by omega)]
    norm_num
  · refine .loop (fun _ => LocNear (1 / 2 ^ 20) ambeG) hG fun c hc G G' hG => ?_
    refine .bindSame tab2_post fun x hx => ?_
    obtain ⟨r, _, _, hr, hx⟩ := hx
    refine wr_rel2 (R := fun k => Near (1 / 2 ^ 20 * ambeG k) (ambeG k)) hG _ (tabEntry_near (rowsBnd_get t2 hr hx) (by decide) ?_)
    rw [show ((c : Int) + 5).toNat = c + 5 by omega]
    unfold ambeG
    rw [if_neg (by omega), if_neg (by omega)]
    norm_num

theorem dhalf0 : rngB (toF (dlit 5 10) : IEEE libm0) (1 / 2) (1 / 2) = true := by decide +kernel
theorem dhalf_val : Val (toF (dlit 5 10) : IEEE m) (1 / 2) := val_of_rng dhalf0
theorem dhalf_r : (toF (dlit 5 10) : ℝ) = 1 / 2 := by rw [RealArith.toF_r, RealArith.dlit_r _ _ (by decide)]; norm_num
theorem dhalf_near : Near 0 (1 / 2) (toF (dlit 5 10) : IEEE m) (toF (dlit 5 10) : ℝ) :=
  ⟨1 / 2, dhalf_val, by rw [dhalf_r]; norm_num, by rw [dhalf_r]; norm_num⟩

theorem rconst0 : rngB (toF (ofInt 1 /ᵈ (ofInt 2 *ᵈ msqrt2)) : IEEE libm0) (35355335 / 100000000) (35355342 / 100000000) = true := by decide +kernel

theorem rconst_near : Near (1 / 10000000) 0.36 (toF (ofInt 1 /ᵈ (ofInt 2 *ᵈ msqrt2)) : IEEE m) (toF (ofInt 1 /ᵈ (ofInt 2 *ᵈ msqrt2)) : ℝ) := by
  have c : rngB (toF (ofInt 1 /ᵈ (ofInt 2 *ᵈ msqrt2)) : IEEE m) (35355335 / 100000000) (35355342 / 100000000) = true := rconst0
  obtain ⟨q, v, h1, h2⟩ := rng_of c
  refine ⟨q, v, ?_, rconst_abs⟩
  have h1' : ((35355335 / 100000000 : ℚ) : ℝ) ≤ (q : ℝ) := by exact_mod_cast h1
  have h2' : (q : ℝ) ≤ ((35355342 / 100000000 : ℚ) : ℝ) := by exact_mod_cast h2
  push_cast at h1' h2'
  have e : (msqrt2 : ℝ) = Real.sqrt 2 := RealArith.msqrt2_r
  have s1 : (1.4142135 : ℝ) ≤ Real.sqrt 2 := Real.le_sqrt_of_sq_le (by norm_num)
  have s2 : Real.sqrt 2 ≤ 1.4142136 := Real.sqrt_le_iff.mpr ⟨by norm_num, by norm_num⟩
  have e2 : Real.sqrt 2 * Real.sqrt 2 = 2 := Real.mul_self_sqrt (by norm_num)
  have e3 : (toF (ofInt 1 /ᵈ (ofInt 2 *ᵈ msqrt2)) : ℝ) = Real.sqrt 2 / 4 := by
    rw [RealArith.toF_r, e]
    show ((1 : Int) : ℝ) / (((2 : Int) : ℝ) * Real.sqrt 2) = _
    rw [Int.cast_one, Int.cast_ofNat, div_eq_div_iff (by positivity) (by norm_num)]
    linarith
  rw [e3, abs_le]
  constructor <;> linarith

theorem ambeCik12_near {R : Loc 9 (IEEE m)} {R' : Loc 9 ℝ} (hR : LocNear (1 / 2 ^ 20 + 1 / 40000) (fun _ => 14.9) R R') :
    Rel2 (Loc2Near (28 / 1000000) ambeC) (ambeCik12 R) (ambeCik12 R') := by
  unfold ambeCik12
  dsimp only
  refine .loopFT' (fun i k x y h => (by cases h)) fun i h1 h2 C C' hC => ?_
  refine .bind (rd_rel2 (R := fun _ => Near ((1 / 2 ^ 20 + 1 / 40000) * 14.9) 14.9) hR _) fun a a' ha =>
    .bind (rd_rel2 (R := fun _ => Near ((1 / 2 ^ 20 + 1 / 40000) * 14.9) 14.9) hR _) fun b b' hb => ?_
  refine .bind (R := Loc2Near (28 / 1000000) ambeC) (wr2_rel2 (R := fun _ k => Near (28 / 1000000 * ambeC k) (ambeC k)) hC _ _ ?_) fun C C' hC =>
    wr2_rel2 (R := fun _ k => Near (28 / 1000000 * ambeC k) (ambeC k)) hC _ _ ?_
  · have := ha.add hb (B := 29.8) (e := (1 / 2 ^ 20 + 1 / 40000 + 1 / 2 ^ 22) * 29.8) (by norm_num) (by norm_num) (by norm_num)
    have := dhalf_near.mul this (B := 14.9) (e := 28 / 1000000 * 14.9) (by norm_num) (by norm_num) (by norm_num)
    rw [show ambeC (1 : Int).toNat = 14.9 by simp [ambeC]]
    exact this
  · have := ha.sub hb (B := 29.8) (e := (1 / 2 ^ 20 + 1 / 40000 + 1 / 2 ^ 22) * 29.8) (by norm_num) (by norm_num) (by norm_num)
    have := rconst_near.mul this (B := 10.8) (e := 28 / 1000000 * 10.8) (by norm_num) (by norm_num) (by norm_num)
    rw [show ambeC (2 : Int).toNat = 10.8 by simp [ambeC]]
    exact this

theorem ambeHoc_near {t : List (List Int)} {b i J den : Nat} (hd : den = 1000000) (ht : rowsBnd t 750000 = true)
    {C : Arr 5 (Loc 18 (IEEE m))} {C' : Arr 5 (Loc 18 ℝ)} (hC : Loc2Near (28 / 1000000) ambeC C C') :
    Rel2 (Loc2Near (28 / 1000000) ambeC) (ambeHoc t den b i J C) (ambeHoc t den b i J C') := by
  subst hd
  unfold ambeHoc
  refine .loopFT' hC fun k k1 k2 C C' hC => ?_
  by_cases h : k > 6
  · rw [if_pos h, if_pos h]
    refine wr2_rel2 (R := fun _ k => Near (28 / 1000000 * ambeC k) (ambeC k)) hC _ _ ?_
    exact fi0_near (mul_nonneg (by norm_num) (ambeC_nonneg _)) (ambeC_nonneg _)
  · rw [if_neg h, if_neg h]
    refine .bindSame tab2_post fun x hx => ?_
    obtain ⟨r, _, _, hr, hx⟩ := hx
    refine wr2_rel2 (R := fun _ k => Near (28 / 1000000 * ambeC k) (ambeC k)) hC _ _ ?_
    have e : ambeC (k : Int).toNat = 0.75 := by
      rw [Int.toNat_natCast]
      unfold ambeC
      rw [if_neg (by omega), if_neg (by omega), if_pos (by omega)]
    rw [e]
    exact (tabEntry_near (rowsBnd_get ht hr hx) (by decide) (by norm_num)).mono (by norm_num) le_rfl

/-- The residuals of a payload in the two arithmetics. -/
theorem ambeResidual_near {c : DctCache (IEEE m) 9 18} {c' : DctCache ℝ 9 18} (hc : CacheNear c c') {T : AmbeTabs} (hT : T.Bnd) (f : AmbeFields)
    (L : Int) : Rel2 (fun R R' => ∀ l, Near (23 / 10000) 43 (R l) (R' l)) (ambeResidual c T f L) (ambeResidual c' T f L) := by
  unfold ambeResidual
  refine .bind (ambeGm_near hT f) fun G G' hG => ?_
  refine .bind (idctRi_near hc (by norm_num) (by norm_num) (by norm_num) ambeG_nonneg ambeG_sum (by norm_num) (by norm_num) hG) fun R R' hR => ?_
  refine .bind (ambeCik12_near hR) fun C C' hC => ?_
  refine .bindSame tabI_post fun J hJ => .bindSame tab_post fun J1 hJ1 => .bindSame tab_post fun J2 hJ2 => .bindSame tab_post fun J3 hJ3 =>
    .bindSame tab_post fun J4 hJ4 => ?_
  have hJs : ∀ {k j : Nat}, J[k]? = some j → j ≤ 17 := by
    intro k j hj
    have h := hT.2.2.2.2.2.2.2.2.2.2.2.2.2.2
    rw [List.all_eq_true] at h
    have h := h J (List.mem_of_getElem? hJ.2)
    rw [List.all_eq_true] at h
    simpa using h j (List.mem_of_getElem? hj)
  refine .bind (ambeHoc_near hT.2.2.1 hT.2.2.2.2.2.2.2.2.2.1 hC) fun C C' hC => ?_
  refine .bind (ambeHoc_near hT.2.2.2.1 hT.2.2.2.2.2.2.2.2.2.2.1 hC) fun C C' hC => ?_
  refine .bind (ambeHoc_near hT.2.2.2.2.1 hT.2.2.2.2.2.2.2.2.2.2.2.1 hC) fun C C' hC => ?_
  refine .bind (ambeHoc_near hT.2.2.2.2.2.1 hT.2.2.2.2.2.2.2.2.2.2.2.2.1 hC) fun C C' hC => ?_
  have blk : ∀ {i j : Nat}, j ≤ 17 → ∀ {s : Arr 57 (IEEE m) × Int} {s' : Arr 57 ℝ × Int},
      ((∀ l, Near (43 * (28 / 1000000 + 1 / 40000)) 43 (s.1 l) (s'.1 l)) ∧ s.2 = s'.2) →
      Rel2 (fun s s' => (∀ l, Near (43 * (28 / 1000000 + 1 / 40000)) 43 (s.1 l) (s'.1 l)) ∧ s.2 = s'.2) (idctBlock c C i j s) (idctBlock c' C' i j s') :=
    fun hj _ _ hs => idctBlock_near hc (by norm_num) (by norm_num) ambeC_nonneg hj (ambeC_sum hj) (by norm_num) (by norm_num) hC hs
  refine .bind (blk (hJs hJ1) ⟨fun l => fi0_near (by norm_num) (by norm_num), rfl⟩) fun s s' hs => .bind (blk (hJs hJ2) hs) fun s s' hs =>
    .bind (blk (hJs hJ3) hs) fun s s' hs => .bind (blk (hJs hJ4) hs) fun s s' hs => .ok fun l => (hs.1 l).mono (by norm_num) le_rfl

/-! ## One interpolated value -/

section
variable {P L l : Nat} (hP : P ≤ 56) (hL : 1 ≤ L) (hL' : L ≤ 56) (hl : l ≤ L) {U : Nat → ℚ} (hU : ∀ i, |(U i : ℝ)| ≤ 265)
include hP hL hL' hl hU

theorem itpA_pos_near : |itp (fun i => (U i : ℝ)) ((klQ P L l : ℚ) : ℝ) - itp (fun i => (U i : ℝ)) (posR P L l)| ≤ 371 / 100000 := by
  obtain ⟨k0, _⟩ := klQ_bounds hP hL hL' hl
  have hx := (posR_range (p := (P : Int)) (L := (L : Int)) (l := l) (by omega) (by omega) (by omega)).1
  refine (itp_lip (M := 265) hx (by exact_mod_cast k0) (klQ_near hP hL hL' hl) (by norm_num) (fun j _ => hU j) (fun j _ => hU j)).trans (by norm_num)

theorem itpA_pos_abs : |itp (fun i => (U i : ℝ)) (posR P L l)| ≤ 265 :=
  itp_abs (posR_range (p := (P : Int)) (L := (L : Int)) (l := l) (by omega) (by omega) (by omega)).1 fun j _ => hU j

theorem itpA_kl_abs : |itp (fun i => (U i : ℝ)) ((klQ P L l : ℚ) : ℝ)| ≤ 265 :=
  itp_abs (by exact_mod_cast (klQ_bounds hP hL hL' hl).1) fun j _ => hU j

variable {a b : IEEE m} (ha : Val a (U ⌊klQ P L l⌋.toNat)) (hb : Val b (U (⌊klQ P L l⌋.toNat + 1)))
include ha hb

theorem predTermA_near : Near (4 / 1000) 265
    (((Arith.ofInt 1 -ᶠ (flokl (P : Int) (L : Int) l -ᶠ Arith.ofInt ⌊klQ P L l⌋)) *ᶠ a) +ᶠ
      ((flokl (P : Int) (L : Int) l -ᶠ Arith.ofInt ⌊klQ P L l⌋) *ᶠ b) : IEEE m) (itp (fun i => (U i : ℝ)) (posR P L l)) := by
  have h1 := (omd_near (m := m) hP hL hL' hl).mul (val_near' ha (hU _)) (B := 265) (e := 265 * 6 / 2 ^ 24) (by norm_num) (by norm_num) (by norm_num)
  have h2 := (dl_near (m := m) hP hL hL' hl).mul (val_near' hb (hU _)) (B := 265) (e := 265 * 4 / 2 ^ 24) (by norm_num) (by norm_num) (by norm_num)
  rw [RealArith.mul_r] at h1 h2
  have h3 := h1.add' h2 (B := 265) (e := 265 * 12 / 2 ^ 24)
    (by have := itpA_kl_abs hP hL hL' hl hU; rwa [itp_klQ] at this) (by norm_num) (by norm_num)
  obtain ⟨q, v, e1, e2⟩ := h3
  refine ⟨q, v, ?_, itpA_pos_abs hP hL hL' hl hU⟩
  have := itpA_pos_near hP hL hL' hl hU
  rw [itp_klQ] at this
  refine (abs_sub_le _ _ _).trans ((add_le_add e1 this).trans ?_)
  norm_num
end

/-! ## The sum of eq. 43 -/

theorem predictA1_near {lax : Bool} {P L : Nat} (hP : P ≤ 56) (hL : 1 ≤ L) (hL' : L ≤ 56) {prev : Parms (IEEE m)} (hp : prev.L = (P : Int))
    {U : Nat → ℚ} (hU : LogVal 265 prev U) : Post (ambePredict1 lax (L : Int) prev) fun p =>
    (∀ l : Fin 57, 1 ≤ l.val → l.val ≤ L → p.1 l = some ⌊klQ P L l⌋ ∧
      p.2.1 l = some (flokl (P : Int) (L : Int) l -ᶠ Arith.ofInt ⌊klQ P L l⌋)) ∧
    Near (L * (5 / 1000)) (L * 265) p.2.2 (∑ l ∈ Finset.Icc 1 L, itp (fun i => (U i : ℝ)) (posR P L l)) := by
  unfold ambePredict1 imbePredict1
  rw [Int.toNat_natCast]
  refine (loopFT_post (fun i (s : Loc 57 Int × Loc 57 (IEEE m) × IEEE m) =>
    (∀ l : Fin 57, 1 ≤ l.val → l.val < i → s.1 l = some ⌊klQ P L l⌋ ∧
      s.2.1 l = some (flokl (P : Int) (L : Int) l -ᶠ Arith.ofInt ⌊klQ P L l⌋)) ∧
    Near ((i - 1 : Nat) * (5 / 1000)) ((i - 1 : Nat) * 265) s.2.2 (∑ l ∈ Finset.Icc 1 (i - 1), itp (fun i => (U i : ℝ)) (posR P L l)))
    (by omega) ?_ ?_).mono ?_
  · refine ⟨fun l h1 h2 => by omega, ?_⟩
    have := Val.ofInt (m := m) (n := 0) (by decide)
    exact ⟨0, by show Val (Arith.ofInt 0 : IEEE m) 0; simpa using this, by simp, by simp⟩
  · rintro i h1 h2 ⟨K, D, q⟩ ⟨g1, g2⟩
    dsimp only at g1 g2 ⊢
    rw [hp, toI32_flokl hP hL hL' (by omega), ok_bind]
    obtain ⟨f0, f1, _⟩ := floor_klQ hP hL hL' (show i ≤ L by omega)
    refine Post.bind Loc.wr_post fun K' hK => Post.bind Loc.wr_post fun D' hD => ?_
    refine Post.bind (hU.rd f0 (by omega)) fun a ha => Post.bind (hU.rd (by omega) (by omega)) fun b hb => Post.pure ⟨fun l l1 l2 => ?_, ?_⟩
    · obtain ⟨_, _, rfl⟩ := hK
      obtain ⟨_, _, rfl⟩ := hD
      dsimp only
      rw [Int.toNat_natCast]
      by_cases e : l.val = i
      · rw [Arr.set_same e, Arr.set_same e, e]
        exact ⟨rfl, rfl⟩
      · rw [Arr.set_ne e, Arr.set_ne e]
        exact g1 l l1 (by omega)
    · dsimp only
      rw [show i + 1 - 1 = (i - 1) + 1 by omega, Finset.sum_Icc_succ_top (by omega), show i - 1 + 1 = i by omega]
      rw [Int.toNat_add f0 (by decide)] at hb
      have ht := predTermA_near hP hL hL' (show i ≤ L by omega) hU.2.2 ha hb
      have hn : (((i - 1 : Nat) : ℝ)) = (i : ℝ) - 1 := by push_cast [h1]; rfl
      have hi1 : (1 : ℝ) ≤ i := by exact_mod_cast h1
      have hi2 : (i : ℝ) ≤ 56 := by exact_mod_cast (show i ≤ 56 by omega)
      rw [hn] at g2
      refine (g2.add ht (B := i * 265) (e := i * (5 / 1000)) (by linarith) ?_ (by norm_num; linarith))
      obtain ⟨τ, hτ⟩ : ∃ τ : ℝ, τ = 1 / 2 ^ 150 := ⟨_, rfl⟩
      have hτ0 : 0 ≤ τ ∧ τ ≤ 1 / 1000000000 := by rw [hτ]; norm_num
      rw [← hτ]
      linarith
  · rintro s ⟨g1, g2⟩
    exact ⟨fun l h1 h2 => g1 l h1 (by omega), by simpa using g2⟩

/-! ## The prediction coefficient -/

theorem c65_0 : rngB (toF (dlit 65 100) : IEEE libm0) (65 / 100 - 1 / 2 ^ 24) (65 / 100 + 1 / 2 ^ 24) = true := by decide +kernel
theorem c65_r : (toF (dlit 65 100) : ℝ) = 65 / 100 := by rw [RealArith.toF_r, RealArith.dlit_r _ _ (by decide)]; norm_num

theorem c65_near : Near (1 / 2 ^ 24) (65 / 100) (toF (dlit 65 100) : IEEE m) (65 / 100) := by
  have c : rngB (toF (dlit 65 100) : IEEE m) (65 / 100 - 1 / 2 ^ 24) (65 / 100 + 1 / 2 ^ 24) = true := c65_0
  obtain ⟨q, v, h1, h2⟩ := rng_of c
  refine ⟨q, v, ?_, by rw [abs_of_nonneg (by norm_num)]⟩
  have h1' : ((65 / 100 - 1 / 2 ^ 24 : ℚ) : ℝ) ≤ (q : ℝ) := by exact_mod_cast h1
  have h2' : (q : ℝ) ≤ ((65 / 100 + 1 / 2 ^ 24 : ℚ) : ℝ) := by exact_mod_cast h2
  push_cast at h1' h2'
  rw [abs_le]
  constructor <;> linarith

theorem sum43_near {L : Nat} (hL : 9 ≤ L) (hL' : L ≤ 56) {s : IEEE m} {σ : ℝ} (h : Near (L * (5 / 1000)) (L * 265) s σ) :
    Near (335 / 100000) 172.25 ((toF (dlit 65 100) /ᶠ Arith.ofInt (L : Int)) *ᶠ s : IEEE m) (65 / 100 / L * σ) := by
  have hL1 : (9 : ℝ) ≤ L := by exact_mod_cast hL
  have hL2 : (L : ℝ) ≤ 56 := by exact_mod_cast hL'
  have hi0 : (1 : ℝ) / 56 ≤ 1 / L ∧ (1 : ℝ) / L ≤ 1 / 9 := by
    constructor <;> apply one_div_le_one_div_of_le <;> linarith
  have h1 := (c65_near (m := m)).divNat (n := L) (by omega) (by omega) (e := 1 / 2 ^ 23 / L) (by
    obtain ⟨τ, hτ⟩ : ∃ τ : ℝ, τ = 1 / 2 ^ 150 := ⟨_, rfl⟩
    have hτ0 : 0 ≤ τ ∧ τ ≤ 1 / 1000000000000 := by rw [hτ]; norm_num
    rw [← hτ]
    rw [div_eq_mul_one_div _ (L : ℝ), div_eq_mul_one_div (65 / 100) (L : ℝ), div_eq_mul_one_div (1 / 2 ^ 23) (L : ℝ)]
    generalize (1 : ℝ) / L = i at *
    norm_num
    linarith) (by norm_num)
  have e1 : (65 : ℝ) / 100 / L * (L * 265) = 172.25 := by field_simp; norm_num
  have e2 : (1 : ℝ) / 2 ^ 23 / L * (L * 265 + L * (5 / 1000)) + 65 / 100 / L * (L * (5 / 1000)) = 1 / 2 ^ 23 * 265.005 + 65 / 100 * (5 / 1000) := by
    field_simp; norm_num
  refine h1.mul h (B := 172.25) (le_of_eq e1) ?_ ?_
  · rw [e2]; norm_num
  · rw [e2]; norm_num

/-! ## The gain -/

theorem sum42_near {L : Nat} (hL : 9 ≤ L) (hL' : L ≤ 56) {T : Arr 57 (IEEE m)} {T' : Arr 57 ℝ} (hT : ∀ l, Near (23 / 10000) 43 (T l) (T' l)) :
    Post (ambeSum42 (L : Int) T) fun s =>
      Near (251 / 100000) 43 (s /ᶠ Arith.ofInt (L : Int) : IEEE m) ((∑ l ∈ Finset.Icc 1 L, T'.getD l 0) / L) := by
  unfold ambeSum42
  rw [Int.toNat_natCast]
  refine (loopFT_post (fun i (s : IEEE m) => Near ((i - 1 : Nat) * (25 / 10000)) ((i - 1 : Nat) * 43) s (∑ l ∈ Finset.Icc 1 (i - 1), T'.getD l 0))
    (by omega) ?_ ?_).mono ?_
  · have := Val.ofInt (m := m) (n := 0) (by decide)
    exact ⟨0, by show Val (Arith.ofInt 0 : IEEE m) 0; simpa using this, by simp, by simp⟩
  · rintro i h1 h2 s g2
    refine Post.bind Arr.rd_post fun t ht => Post.pure ?_
    obtain ⟨h, rfl⟩ := ht
    rw [show i + 1 - 1 = (i - 1) + 1 by omega, Finset.sum_Icc_succ_top (by omega), show i - 1 + 1 = i by omega]
    simp only [Int.toNat_natCast] at h ⊢
    rw [Arr.getD_lt h]
    have hn : (((i - 1 : Nat) : ℝ)) = (i : ℝ) - 1 := by push_cast [h1]; rfl
    have hi1 : (1 : ℝ) ≤ i := by exact_mod_cast h1
    have hi2 : (i : ℝ) ≤ 56 := by exact_mod_cast (show i ≤ 56 by omega)
    rw [hn] at g2
    refine g2.add (hT ⟨i, h⟩) (B := i * 43) (e := i * (25 / 10000)) (by linarith) ?_ (by norm_num; linarith)
    obtain ⟨τ, hτ⟩ : ∃ τ : ℝ, τ = 1 / 2 ^ 150 := ⟨_, rfl⟩
    have hτ0 : 0 ≤ τ ∧ τ ≤ 1 / 1000000000 := by rw [hτ]; norm_num
    rw [← hτ]
    linarith
  · rintro s hs
    rw [show L + 1 - 1 = L by omega] at hs
    have hL1 : (9 : ℝ) ≤ L := by exact_mod_cast hL
    have hL2 : (L : ℝ) ≤ 56 := by exact_mod_cast hL'
    have e1 : (L : ℝ) * 43 / L = 43 := by field_simp
    have e2 : (L : ℝ) * (25 / 10000) / L = 25 / 10000 := by field_simp
    have := hs.divNat (n := L) (e := 251 / 100000) (by omega) (by omega) (by rw [e1, e2]; norm_num) (by norm_num; linarith)
    rwa [e1] at this

theorem gammaA_near {dg : Int} {den : Nat} (hd : den = 1000000) (h : |dg| ≤ 6900000) {g : IEEE m} {g' : ℝ} (hg : Near (1 / 100000) 13.8 g g') :
    Near (1 / 100000) 13.8 (ftab dg den +ᶠ (toF (dlit 5 10) *ᶠ g) : IEEE m) (ftab dg den + 1 / 2 * g') := by
  subst hd
  have h1 := dhalf_near.mul hg (B := 6.9) (e := 65 / 10000000) (by norm_num) (by norm_num) (by norm_num)
  rw [RealArith.mul_r, dhalf_r] at h1
  obtain ⟨e, q, hv, hq⟩ := ftab_near (m := m) (d := 1000000) h (by decide) (by decide) (by decide)
  have ha := ftab_abs h (by decide)
  have h2 : Near (1 / 1000000) 6.9 (ftab dg 1000000 : IEEE m) (ftab dg 1000000 : ℝ) := by
    refine ⟨q, hv, ?_, ha.trans (by norm_num)⟩
    rw [e] at ha ⊢
    refine hq.trans ?_
    norm_num at ha ⊢
    linarith
  exact h2.add h1 (by norm_num) (by norm_num) (by norm_num)

theorem bigGamma_near (hl : Log2Acc m) {L : Nat} (hL : 9 ≤ L) (hL' : L ≤ 56) {g s : IEEE m} {g' s' : ℝ} (hg : Near (1 / 100000) 13.8 g g')
    (hs : Near (251 / 100000) 43 s s') :
    Near (26 / 10000) 60 ((g -ᶠ (lit 5 10 *ᶠ log2 (Arith.ofInt (L : Int)))) -ᶠ s : IEEE m) (g' - 1 / 2 * Real.logb 2 L - s') := by
  have v := Val.ofInt (m := m) (n := (L : Int)) (by rw [abs_of_nonneg (by omega)]; omega)
  have v : Val (Arith.ofInt (L : Int) : IEEE m) (L : ℚ) := by exact_mod_cast v
  obtain ⟨r, hr, e⟩ := hl _ _ v (by exact_mod_cast (by omega : 1 ≤ L)) (by exact_mod_cast hL')
  obtain ⟨n1, n2⟩ := half_log_bound (L := (L : Int)) (by omega) (by omega)
  rw [Int.cast_natCast] at n1 n2
  rw [Rat.cast_natCast] at e
  have hlg : Near (1 / 65536) 6 (log2 (Arith.ofInt (L : Int)) : IEEE m) (Real.logb 2 L) := ⟨r, hr, e, by rw [abs_le]; constructor <;> linarith⟩
  have h1 := half_near.mul hlg (B := 3) (e := 9 / 1000000) (by norm_num) (by norm_num) (by norm_num)
  rw [RealArith.mul_r, lit5_r] at h1
  exact (hg.sub h1 (B := 16.8) (e := 21 / 1000000) (by norm_num) (by norm_num) (by norm_num)).sub hs (by norm_num) (by norm_num) (by norm_num)

/-! ## The log amplitudes -/

section
variable {P L l : Nat} (hP : P ≤ 56) (hL : 9 ≤ L) (hL' : L ≤ 56) (hl : l ≤ L) {U : Nat → ℚ} (hU : ∀ i, |(U i : ℝ)| ≤ 265)
  {a b : IEEE m} (ha : Val a (U ⌊klQ P L l⌋.toNat)) (hb : Val b (U (⌊klQ P L l⌋.toNat + 1)))
  {t s g : IEEE m} {t' s' g' : ℝ} (ht : Near (23 / 10000) 43 t t') (hs : Near (335 / 100000) 172.25 s s') (hg : Near (26 / 10000) 60 g g')
include hP hL hL' hl hU ha hb ht hs hg

theorem predOutA_near : Near (12 / 1000) 448
    ((((t +ᶠ ((toF (dlit 65 100) *ᶠ (Arith.ofInt 1 -ᶠ (flokl (P : Int) (L : Int) l -ᶠ Arith.ofInt ⌊klQ P L l⌋))) *ᶠ a)) +ᶠ
      ((toF (dlit 65 100) *ᶠ (flokl (P : Int) (L : Int) l -ᶠ Arith.ofInt ⌊klQ P L l⌋)) *ᶠ b)) -ᶠ s) +ᶠ g : IEEE m)
    (t' + 65 / 100 * itp (fun i => (U i : ℝ)) (posR P L l) - s' + g') := by
  have hr := c65_near (m := m)
  have h1 := (hr.mul (omd_near (m := m) hP (by omega) hL' hl) (B := 65 / 100) (e := 6 / 2 ^ 24) (by norm_num) (by norm_num) (by norm_num)).mul
    (val_near' ha (hU _)) (B := 172.25) (e := 265 * 7 / 2 ^ 24) (by norm_num) (by norm_num) (by norm_num)
  have h2 := (hr.mul (dl_near (m := m) hP (by omega) hL' hl) (B := 65 / 100) (e := 5 / 2 ^ 24) (by norm_num) (by norm_num) (by norm_num)).mul
    (val_near' hb (hU _)) (B := 172.25) (e := 265 * 6 / 2 ^ 24) (by norm_num) (by norm_num) (by norm_num)
  rw [RealArith.mul_r, RealArith.mul_r] at h1 h2
  have hk := abs_le.mp (itpA_kl_abs hP (show 1 ≤ L by omega) hL' hl hU)
  have hp := abs_le.mp (itpA_pos_near hP (show 1 ≤ L by omega) hL' hl hU)
  have hx := abs_le.mp (itpA_pos_abs hP (show 1 ≤ L by omega) hL' hl hU)
  have h3 := ht.add h1 (B := 216) (e := 25 / 10000) (by norm_num) (by norm_num) (by norm_num)
  rw [RealArith.add_r] at h3
  have e : t' + (65 : ℝ) / 100 * (1 - dR P L l) * (U ⌊klQ P L l⌋.toNat : ℝ) + 65 / 100 * dR P L l * (U (⌊klQ P L l⌋.toNat + 1) : ℝ)
      = t' + 65 / 100 * itp (fun i => (U i : ℝ)) ((klQ P L l : ℚ) : ℝ) := by rw [itp_klQ]; ring
  have b1 := abs_le.mp (show |t'| ≤ 43 from ht.choose_spec.2.2)
  have b2 := abs_le.mp (show |s'| ≤ 172.25 from hs.choose_spec.2.2)
  have b3 := abs_le.mp (show |g'| ≤ 60 from hg.choose_spec.2.2)
  have h4 := h3.add' h2 (B := 216) (e := 27 / 10000) (by rw [e, abs_le]; constructor <;> linarith) (by norm_num) (by norm_num)
  rw [e] at h4
  have h5 : Near (52 / 10000) 216 (((t +ᶠ ((toF (dlit 65 100) *ᶠ (Arith.ofInt 1 -ᶠ (flokl (P : Int) (L : Int) l -ᶠ Arith.ofInt ⌊klQ P L l⌋))) *ᶠ a)) +ᶠ
      ((toF (dlit 65 100) *ᶠ (flokl (P : Int) (L : Int) l -ᶠ Arith.ofInt ⌊klQ P L l⌋)) *ᶠ b)) : IEEE m)
      (t' + 65 / 100 * itp (fun i => (U i : ℝ)) (posR P L l)) := by
    obtain ⟨q, v, c1, _⟩ := h4
    refine ⟨q, v, ?_, ?_⟩
    · rw [abs_le] at c1 ⊢
      constructor <;> linarith
    · rw [abs_le]
      constructor <;> linarith
  refine (h5.sub' hs (B := 388) (e := 86 / 10000) ?_ (by norm_num) (by norm_num)).add' hg ?_ (by norm_num) (by norm_num)
  · rw [abs_le]; constructor <;> linarith
  · rw [abs_le]; constructor <;> linarith
end

theorem predict3_near {lax : Bool} {P L : Nat} (hP : P ≤ 56) (hL : 9 ≤ L) (hL' : L ≤ 56) {prev : Parms (IEEE m)}
    {U : Nat → ℚ} (hU : LogVal 265 prev U) {K : Loc 57 Int} {D : Loc 57 (IEEE m)}
    (hKD : ∀ l : Fin 57, 1 ≤ l.val → l.val ≤ L → K l = some ⌊klQ P L l⌋ ∧ D l = some (flokl (P : Int) (L : Int) l -ᶠ Arith.ofInt ⌊klQ P L l⌋))
    {s g u : IEEE m} {s' g' : ℝ} (hs : Near (335 / 100000) 172.25 s s') (hg : Near (26 / 10000) 60 g g')
    {T : Arr 57 (IEEE m)} {T' : Arr 57 ℝ} (hT : ∀ l, Near (23 / 10000) 43 (T l) (T' l))
    (cur : Parms (IEEE m)) : Post (ambePredict3 lax (L : Int) prev K D s g u T cur) fun c =>
      (∀ l : Fin 57, 1 ≤ l.val → l.val ≤ L → Near (12 / 1000) 448 (c.log2Ml l)
        (T' l + 65 / 100 * itp (fun i => (U i : ℝ)) (posR P L l) - s' + g')) ∧
      (∀ l : Fin 57, l.val < 1 ∨ L < l.val → c.log2Ml l = cur.log2Ml l) ∧
      (∀ l : Fin 57, 1 ≤ l.val → l.val ≤ L → c.Ml l = if cur.Vl l = 1 then exp2 (c.log2Ml l) else u *ᶠ exp2 (c.log2Ml l)) ∧
      c = { cur with log2Ml := c.log2Ml, Ml := c.Ml } := by
  unfold ambePredict3
  dsimp only
  rw [Int.toNat_natCast]
  refine (loopFT_post (fun i (c : Parms (IEEE m)) =>
    (∀ l : Fin 57, 1 ≤ l.val → l.val < i → Near (12 / 1000) 448 (c.log2Ml l)
        (T' l + 65 / 100 * itp (fun i => (U i : ℝ)) (posR P L l) - s' + g')) ∧
    (∀ l : Fin 57, l.val < 1 ∨ i ≤ l.val → c.log2Ml l = cur.log2Ml l) ∧
    (∀ l : Fin 57, 1 ≤ l.val → l.val < i → c.Ml l = if cur.Vl l = 1 then exp2 (c.log2Ml l) else u *ᶠ exp2 (c.log2Ml l)) ∧
    c = { cur with log2Ml := c.log2Ml, Ml := c.Ml }) (by omega) ?_ ?_).mono ?_
  · exact ⟨fun l h1 h2 => by omega, fun _ _ => rfl, fun l h1 h2 => by omega, rfl⟩
  · rintro i h1 h2 c ⟨g1, g2, g4, g3⟩
    refine Post.bind Loc.rd_post fun dl hdl => Post.bind Loc.rd_post fun ik hik => ?_
    obtain ⟨h, hdl⟩ := hdl
    obtain ⟨_, hik⟩ := hik
    simp only [Int.toNat_natCast] at h hdl hik
    obtain ⟨k1, k2⟩ := hKD ⟨i, h⟩ h1 h2
    rw [k1] at hik
    rw [k2] at hdl
    cases hik
    cases hdl
    obtain ⟨f0, f1, _⟩ := floor_klQ hP (show 1 ≤ L by omega) hL' (show i ≤ L by omega)
    refine Post.bind (hU.rd f0 (by dsimp only; omega)) fun a ha => Post.bind (hU.rd (by dsimp only; omega) (by dsimp only; omega)) fun b hb => ?_
    rw [Int.toNat_add f0 (by decide)] at hb
    refine Post.bind Arr.rd_post fun t ht => ?_
    obtain ⟨_, rfl⟩ := ht
    refine Post.bind Arr.wr_post fun G hG => Post.bind Arr.rd_post fun w hw => Post.bind Arr.wr_post fun M hM => Post.pure ⟨fun l l1 l2 => ?_, fun l hl => ?_, fun l l1 l2 => ?_, ?_⟩
    · obtain ⟨_, _, rfl⟩ := hG
      dsimp only
      simp only [Int.toNat_natCast]
      by_cases e : l.val = i
      · obtain rfl : l = ⟨i, h⟩ := Fin.ext e
        rw [Arr.set_same e]
        exact predOutA_near hP hL hL' (show i ≤ L by omega) hU.2.2 ha hb (hT ⟨i, h⟩) hs hg
      · rw [Arr.set_ne e]
        exact g1 l l1 (by omega)
    · obtain ⟨_, _, rfl⟩ := hG
      dsimp only
      rw [Arr.set_ne (by rw [Int.toNat_natCast]; omega)]
      exact g2 l (by omega)
    · obtain ⟨_, _, rfl⟩ := hG
      obtain ⟨_, _, rfl⟩ := hM
      obtain ⟨_, rfl⟩ := hw
      dsimp only
      simp only [Int.toNat_natCast]
      by_cases e : l.val = i
      · obtain rfl : l = ⟨i, h⟩ := Fin.ext e
        rw [Arr.set_same e, Arr.set_same e, g3]
      · rw [Arr.set_ne e, Arr.set_ne e]
        exact g4 l l1 (by omega)
    · rw [g3]
  · rintro c ⟨g1, g2, g4, g3⟩
    exact ⟨fun l h1 h2 => g1 l h1 (by omega), fun l hl => g2 l (by omega), fun l h1 h2 => g4 l h1 (by omega), g3⟩

end Verif.Model
