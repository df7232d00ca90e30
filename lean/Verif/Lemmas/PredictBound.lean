import Verif.Lemmas.PredictReal

/-!
# Bounds on the spectral residuals

In exact arithmetic every residual decoded from the codebooks is bounded by a constant, whatever the bits are.
-/

set_option linter.unusedSectionVars false

namespace Verif.Model
open Verif Verif.Gen Verif.Spec Arith

theorem tab_post {α : Type} {t : List α} {i : Nat} : Post (tab t i) fun a => t[i]? = some a := by
  intro a h
  unfold tab at h
  cases e : t[i]? with
  | none => rw [e] at h; cases h
  | some b => rw [e] at h; cases h; rfl

theorem tabI_post {α : Type} {t : List α} {i : Int} : Post (tabI t i) fun a => 0 ≤ i ∧ t[i.toNat]? = some a := by
  unfold tabI
  refine Post.ite (fun h => tab_post.mono fun a ha => ⟨h, ha⟩) fun _ a h => by cases h

theorem tab2_post {α : Type} {t : List (List α)} {i j : Int} : Post (tab2 t i j) fun a =>
    ∃ r, 0 ≤ i ∧ 0 ≤ j ∧ t[i.toNat]? = some r ∧ r[j.toNat]? = some a := by
  unfold tab2
  exact Post.bind tabI_post fun r hr => tabI_post.mono fun a ha => ⟨r, hr.1, ha.1, hr.2, ha.2⟩

theorem Loc.rd2_post {m n : Nat} {α : Type} {C : Arr m (Loc n α)} {i j : Int} : Post (Loc.rd2 C i j) fun v =>
    ∃ (h1 : i.toNat < m) (h2 : j.toNat < n), C ⟨i.toNat, h1⟩ ⟨j.toNat, h2⟩ = some v := by
  unfold Loc.rd2
  refine Post.bind Arr.rd_post fun r hr => ?_
  obtain ⟨h, rfl⟩ := hr
  exact Loc.rd_post.mono fun v hv => ⟨h, hv.1, hv.2⟩

theorem Loc.wr2_post {m n : Nat} {α : Type} {C : Arr m (Loc n α)} {i j : Int} {v : α} : Post (Loc.wr2 C i j v) fun D =>
    D = Loc.set2 C i.toNat j.toNat v := by
  intro D h
  unfold Loc.wr2 at h
  by_cases hi : 0 ≤ i ∧ i < m
  · rw [Arr.rd_ok hi.1 hi.2] at h
    by_cases hj : 0 ≤ j ∧ j < n
    · simp only [ok_bind, Loc.wr, Arr.wr_ok hj.1 hj.2, Arr.wr_ok hi.1 hi.2] at h
      cases h
      funext p q
      simp only [Arr.set, Loc.set2]
      by_cases hp : p.val = i.toNat
      · obtain ⟨p, hp'⟩ := p
        dsimp only at hp
        subst hp
        by_cases hq : q.val = j.toNat <;> simp [hq, Arr.set]
      · simp [hp]
    · simp only [ok_bind, Loc.wr, Arr.wr_error hj] at h
      cases h
  · rw [Arr.rd_error hi] at h
    cases h

/-- The entries of a cosine cache lie in `[-1, 1]`. -/
def CacheBnd {r n : Nat} (c : DctCache ℝ r n) : Prop := (∀ i j, |c.ri i j| ≤ 1) ∧ ∀ i j k, |c.idct i j k| ≤ 1

theorem dctCos_abs (m i : Nat) (den : ℝ) : |(dctCos m i den : ℝ)| ≤ 1 := Real.abs_cos_le_one _

theorem fillCache_bnd (r n : Nat) : CacheBnd (fillCache r n : DctCache ℝ r n) := by
  have h0 : |(fi 0 : ℝ)| ≤ 1 := by rw [RealArith.fi_r]; norm_num
  refine ⟨fun i j => ?_, fun i j k => ?_⟩
  · show |if _ then _ else _| ≤ _
    split
    · exact dctCos_abs _ _ _
    · exact h0
  · show |if _ then _ else _| ≤ _
    split
    · exact dctCos_abs _ _ _
    · exact h0

theorem rdRi_bnd {r n : Nat} {c : DctCache ℝ r n} (h : CacheBnd c) (m i : Int) : Post (c.rdRi m i) fun v => |v| ≤ 1 := by
  unfold DctCache.rdRi
  refine Post.bind Arr.rd_post fun a ha => ?_
  obtain ⟨_, rfl⟩ := ha
  refine Arr.rd_post.mono fun v hv => ?_
  obtain ⟨_, rfl⟩ := hv
  exact h.1 _ _

theorem rdIdct_bnd {r n : Nat} {c : DctCache ℝ r n} (h : CacheBnd c) (p m i : Int) : Post (c.rdIdct p m i) fun v => |v| ≤ 1 := by
  unfold DctCache.rdIdct
  refine Post.bind Arr.rd_post fun a ha => ?_
  obtain ⟨_, rfl⟩ := ha
  refine Post.bind Arr.rd_post fun a ha => ?_
  obtain ⟨_, rfl⟩ := ha
  refine Arr.rd_post.mono fun v hv => ?_
  obtain ⟨_, rfl⟩ := hv
  exact h.2 _ _ _

/-- The weight of a coefficient in an inverse cosine transform. -/
noncomputable def wgt (m : Nat) : ℝ := if m = 1 then 1 else 2

theorem dctWeight_r (m : Nat) : (dctWeight m : ℝ) = wgt m := by
  unfold dctWeight wgt
  rw [RealArith.ofInt_r]
  split <;> norm_num

theorem wgt_nonneg (m : Nat) : 0 ≤ wgt m := by unfold wgt; split <;> norm_num

theorem term_abs {m : Nat} {g c b : ℝ} (hg : |g| ≤ b) (hc : |c| ≤ 1) :
    |((dctWeight m : ℝ) *ᶠ g) *ᶠ c| ≤ wgt m * b := by
  show |(dctWeight m : ℝ) * g * c| ≤ _
  rw [dctWeight_r, abs_mul, abs_mul, abs_of_nonneg (wgt_nonneg m)]
  have h1 : wgt m * |g| ≤ wgt m * b := mul_le_mul_of_nonneg_left hg (wgt_nonneg m)
  have h2 : 0 ≤ wgt m * |g| := mul_nonneg (wgt_nonneg m) (abs_nonneg g)
  nlinarith [abs_nonneg c]

theorem sum_step {s x b : ℝ} {i : Nat} (hi : 1 ≤ i) {f : Nat → ℝ} (hs : |s| ≤ ∑ m ∈ Finset.Icc 1 (i - 1), f m)
    (hx : |x| ≤ b) (hb : b = f i) : |s +ᶠ x| ≤ ∑ m ∈ Finset.Icc 1 (i + 1 - 1), f m := by
  rw [show i + 1 - 1 = (i - 1) + 1 by omega, Finset.sum_Icc_succ_top (by omega), show i - 1 + 1 = i by omega]
  show |s + x| ≤ _
  have := abs_add_le s x
  linarith

theorem idctRi_bnd {r n : Nat} {c : DctCache ℝ r n} (hc : CacheBnd c) (N : Nat) {G : Loc r ℝ} {g : Nat → ℝ}
    (hG : ∀ i v, G i = some v → |v| ≤ g i) : Post (idctRi c N G) fun R =>
      ∀ i v, R i = some v → |v| ≤ ∑ m ∈ Finset.Icc 1 N, wgt m * g m := by
  unfold idctRi
  refine loopFT_post' (fun R : Loc r ℝ => ∀ i v, R i = some v → |v| ≤ ∑ m ∈ Finset.Icc 1 N, wgt m * g m)
    (fun i v h => by cases h) fun i R hR => ?_
  refine Post.bind (P := fun s => |s| ≤ ∑ m ∈ Finset.Icc 1 N, wgt m * g m) ?_ fun s hs => ?_
  · refine (loopFT_post (fun k (s : ℝ) => |s| ≤ ∑ m ∈ Finset.Icc 1 (k - 1), wgt m * g m) (by omega) ?_ ?_).mono ?_
    · rw [RealArith.fi_r]; simp
    · intro k h1 h2 s hs
      refine Post.bind Loc.rd_post fun x hx => Post.bind (rdRi_bnd hc _ _) fun y hy => Post.pure ?_
      obtain ⟨h, hx⟩ := hx
      have := hG _ _ hx
      simp only [Int.toNat_natCast] at this
      exact sum_step h1 hs (term_abs this hy) rfl
    · intro s hs; simpa using hs
  · refine Loc.wr_post.mono fun R' hR' => ?_
    obtain ⟨_, _, rfl⟩ := hR'
    intro j v hv
    by_cases e : j.val = (i : Int).toNat
    · rw [Arr.set_same e] at hv
      cases hv
      exact hs
    · rw [Arr.set_ne e] at hv
      exact hR j v hv

theorem idctBlock_bnd {r n a b : Nat} {c : DctCache ℝ r n} (hc : CacheBnd c) {C : Arr a (Loc b ℝ)} {g : Nat → ℝ} {T : ℝ}
    (hC : ∀ i k v, C i k = some v → |v| ≤ g k) (i ji : Nat) (hT : ∑ m ∈ Finset.Icc 1 ji, wgt m * g m ≤ T)
    {s : Arr 57 ℝ × Int} (hs : ∀ l, |s.1 l| ≤ T) : Post (idctBlock c C i ji s) fun s => ∀ l, |s.1 l| ≤ T := by
  unfold idctBlock
  refine loopFT_post' (fun s : Arr 57 ℝ × Int => ∀ l, |s.1 l| ≤ T) hs fun j s hs => ?_
  refine Post.bind (P := fun s => |s| ≤ ∑ m ∈ Finset.Icc 1 ji, wgt m * g m) ?_ fun x hx => ?_
  · refine (loopFT_post (fun k (s : ℝ) => |s| ≤ ∑ m ∈ Finset.Icc 1 (k - 1), wgt m * g m) (by omega) ?_ ?_).mono ?_
    · rw [RealArith.fi_r]; simp
    · intro k h1 h2 s hs
      refine Post.bind Loc.rd2_post fun x hx => Post.bind (rdIdct_bnd hc _ _ _) fun y hy => Post.pure ?_
      obtain ⟨h, h', hx⟩ := hx
      have := hC _ _ _ hx
      simp only [Int.toNat_natCast] at this
      exact sum_step h1 hs (term_abs this hy) rfl
    · intro s hs; simpa using hs
  · refine Post.bind Arr.wr_post fun t ht => Post.pure fun l => ?_
    obtain ⟨_, _, rfl⟩ := ht
    dsimp only
    by_cases e : l.val = s.2.toNat
    · rw [Arr.set_same e]; linarith
    · rw [Arr.set_ne e]; exact hs l

theorem ftab_r {n : Int} {d : Nat} {b : ℤ} (h : |n| ≤ b) (hb : b < 1414213562373095) : (ftab n d : ℝ) = (n : ℝ) / d := by
  unfold ftab
  rw [RealArith.toF_r, RealArith.dlit_r]
  have := abs_le.1 h
  omega

theorem ftab_abs {n : Int} {b : Int} (h : |n| ≤ b) (hb : b < 1414213562373095) :
    |(ftab n 1000000 : ℝ)| ≤ (b : ℝ) / 1000000 := by
  rw [ftab_r h hb, abs_div]
  have : |(n : ℝ)| ≤ b := by exact_mod_cast h
  rw [show |((1000000 : Nat) : ℝ)| = 1000000 by norm_num]
  gcongr

/-! ## AMBE -/

/-- All entries of a table of rows have absolute value at most `b`. -/
def rowsBnd (t : List (List Int)) (b : Int) : Bool := t.all fun r => r.all fun x => decide (|x| ≤ b)

theorem rowsBnd_get {t : List (List Int)} {b : Int} (h : rowsBnd t b = true) {i j : Nat} {r : List Int} {x : Int}
    (hr : t[i]? = some r) (hx : r[j]? = some x) : |x| ≤ b := by
  unfold rowsBnd at h
  rw [List.all_eq_true] at h
  have := h r (List.mem_of_getElem? hr)
  rw [List.all_eq_true] at this
  simpa using this x (List.mem_of_getElem? hx)

/-- Bounds on the codebooks of an AMBE codec. -/
def AmbeTabs.Bnd (T : AmbeTabs) : Prop :=
  T.prba24Den = 1000000 ∧ T.prba58Den = 1000000 ∧ T.hoc5Den = 1000000 ∧ T.hoc6Den = 1000000 ∧ T.hoc7Den = 1000000 ∧
    T.hoc8Den = 1000000 ∧ T.dgDen = 1000000 ∧ rowsBnd T.prba24 1750000 = true ∧ rowsBnd T.prba58 550000 = true ∧
    rowsBnd T.hoc5 750000 = true ∧ rowsBnd T.hoc6 750000 = true ∧ rowsBnd T.hoc7 750000 = true ∧
    rowsBnd T.hoc8 750000 = true ∧ (T.dg.all fun x => decide (|x| ≤ 6900000)) = true ∧
    (T.lmprbl.all fun r => r.all fun x => decide (x ≤ 17)) = true

theorem bnd2450 : tabs2450.Bnd := by
  refine ⟨rfl, rfl, rfl, rfl, rfl, rfl, rfl, ?_, ?_, ?_, ?_, ?_, ?_, ?_, ?_⟩ <;> decide +kernel

theorem bnd2400 : tabs2400.Bnd := by
  refine ⟨rfl, rfl, rfl, rfl, rfl, rfl, rfl, ?_, ?_, ?_, ?_, ?_, ?_, ?_, ?_⟩ <;> decide +kernel

/-- Bound on the vector `Gm`. -/
noncomputable def ambeG (m : Nat) : ℝ := if m = 1 then 0 else if m ≤ 4 then 1.75 else 0.55

theorem ambeGm_bnd {T : AmbeTabs} (hT : T.Bnd) (f : AmbeFields) : Post (ambeGm T f : Exec (Loc 9 ℝ)) fun G =>
    ∀ i v, G i = some v → |v| ≤ ambeG i := by
  obtain ⟨d1, d2, _, _, _, _, _, t1, t2, _⟩ := hT
  have hset : ∀ (G : Loc 9 ℝ) (k : Nat) (x : ℝ), (∀ i v, G i = some v → |v| ≤ ambeG i) → |x| ≤ ambeG k →
      ∀ i v, Arr.set G k (some x) i = some v → |v| ≤ ambeG i := by
    intro G k x hG hx i v hv
    by_cases e : i.val = k
    · rw [Arr.set_same e] at hv
      cases hv
      rw [e]; exact hx
    · rw [Arr.set_ne e] at hv
      exact hG i v hv
  unfold ambeGm
  refine Post.bind (P := fun G : Loc 9 ℝ => ∀ i v, G i = some v → |v| ≤ ambeG i) (Loc.wr_post.mono ?_) fun G hG => ?_
  · rintro G ⟨_, _, rfl⟩
    refine hset _ _ _ (fun i v h => by cases h) ?_
    rw [RealArith.fi_r]; simp [ambeG]
  refine Post.bind (P := fun G : Loc 9 ℝ => ∀ i v, G i = some v → |v| ≤ ambeG i) ?_ fun G hG => ?_
  · refine loop_post (fun _ (G : Loc 9 ℝ) => ∀ i v, G i = some v → |v| ≤ ambeG i) hG fun c hc G hG => ?_
    refine Post.bind tab2_post fun x hx => Loc.wr_post.mono ?_
    rintro G' ⟨_, _, rfl⟩
    obtain ⟨r, _, _, hr, hx⟩ := hx
    refine hset _ _ _ hG ?_
    rw [d1]
    refine (ftab_abs (rowsBnd_get t1 hr hx) (by decide)).trans ?_
    rw [show ((c : Int) + 2).toNat = c + 2 by omega]
    unfold ambeG
    rw [if_neg (by omega), if_pos (by omega)]
    norm_num
  · refine loop_post (fun _ (G : Loc 9 ℝ) => ∀ i v, G i = some v → |v| ≤ ambeG i) hG fun c hc G hG => ?_
    refine Post.bind tab2_post fun x hx => Loc.wr_post.mono ?_
    rintro G' ⟨_, _, rfl⟩
    obtain ⟨r, _, _, hr, hx⟩ := hx
    refine hset _ _ _ hG ?_
    rw [d2]
    refine (ftab_abs (rowsBnd_get t2 hr hx) (by decide)).trans ?_
    rw [show ((c : Int) + 5).toNat = c + 5 by omega]
    unfold ambeG
    rw [if_neg (by omega), if_neg (by omega)]
    norm_num

theorem ambeG_sum : ∑ m ∈ Finset.Icc 1 8, wgt m * ambeG m ≤ 14.9 := by
  simp [Finset.sum_Icc_succ_top, wgt, ambeG]
  norm_num

/-- Bound on the block coefficients. -/
noncomputable def ambeC (k : Nat) : ℝ := if k = 1 then 14.9 else if k = 2 then 10.8 else if k ≤ 6 then 0.75 else 0

theorem rconst_abs : |(toF (ofInt 1 /ᵈ (ofInt 2 *ᵈ msqrt2)) : ℝ)| ≤ 0.36 := by
  have h : (1.4 : ℝ) ≤ Real.sqrt 2 := Real.le_sqrt_of_sq_le (by norm_num)
  have : (msqrt2 : ℝ) = Real.sqrt 2 := RealArith.msqrt2_r
  rw [RealArith.toF_r, this]
  show |((1 : Int) : ℝ) / (((2 : Int) : ℝ) * Real.sqrt 2)| ≤ _
  rw [abs_of_nonneg (by positivity), Int.cast_one, Int.cast_ofNat, div_le_iff₀ (by positivity)]
  linarith

theorem ambeCik12_bnd {R : Loc 9 ℝ} (hR : ∀ i v, R i = some v → |v| ≤ 14.9) : Post (ambeCik12 R) fun C =>
    ∀ i k v, C i k = some v → |v| ≤ ambeC k := by
  unfold ambeCik12
  dsimp only
  have hset : ∀ (C : Arr 5 (Loc 18 ℝ)) (i k : Nat) (x : ℝ), (∀ i k v, C i k = some v → |v| ≤ ambeC k) → |x| ≤ ambeC k →
      ∀ i' k' v, Loc.set2 C i k x i' k' = some v → |v| ≤ ambeC k' := by
    intro C i k x hC hx i' k' v hv
    unfold Loc.set2 at hv
    split at hv
    · rename_i h; cases hv; rw [h.2]; exact hx
    · exact hC _ _ _ hv
  refine loopFT_post' (fun C : Arr 5 (Loc 18 ℝ) => ∀ i k v, C i k = some v → |v| ≤ ambeC k)
    (fun i k v h => by cases h) fun i C hC => ?_
  refine Post.bind Loc.rd_post fun a ha => Post.bind Loc.rd_post fun b hb => ?_
  obtain ⟨_, ha⟩ := ha
  obtain ⟨_, hb⟩ := hb
  have ha := hR _ _ ha
  have hb := hR _ _ hb
  refine Post.bind Loc.wr2_post fun C' hC' => Loc.wr2_post.mono fun C'' hC'' => ?_
  subst hC' hC''
  have e5 : (toF (dlit 5 10) : ℝ) = 1 / 2 := by
    rw [RealArith.toF_r, RealArith.dlit_r _ _ (by decide)]; norm_num
  refine hset _ _ _ _ (hset _ _ _ _ hC ?_) ?_
  · rw [e5]
    show |1 / 2 * (a + b)| ≤ _
    rw [abs_mul, abs_of_nonneg (by norm_num : (0 : ℝ) ≤ 1 / 2)]
    have := abs_add_le a b
    unfold ambeC
    rw [if_pos (by decide)]
    linarith
  · show |_ * (a - b)| ≤ _
    rw [abs_mul]
    have h1 := abs_sub a b
    have h2 := rconst_abs
    unfold ambeC
    rw [if_neg (by decide), if_pos (by decide)]
    have h3 : |(a - b)| ≤ 29.8 := by linarith
    calc _ ≤ (0.36 : ℝ) * 29.8 := mul_le_mul h2 h3 (abs_nonneg _) (by norm_num)
      _ ≤ 10.8 := by norm_num

theorem ambeHoc_bnd {t : List (List Int)} {b i J den : Nat} (hd : den = 1000000) (ht : rowsBnd t 750000 = true)
    {C : Arr 5 (Loc 18 ℝ)} (hC : ∀ i k v, C i k = some v → |v| ≤ ambeC k) : Post (ambeHoc t den b i J C) fun C =>
    ∀ i k v, C i k = some v → |v| ≤ ambeC k := by
  subst hd
  unfold ambeHoc
  have hset : ∀ (C : Arr 5 (Loc 18 ℝ)) (i k : Nat) (x : ℝ), (∀ i k v, C i k = some v → |v| ≤ ambeC k) → |x| ≤ ambeC k →
      ∀ i' k' v, Loc.set2 C i k x i' k' = some v → |v| ≤ ambeC k' := by
    intro C i k x hC hx i' k' v hv
    unfold Loc.set2 at hv
    split at hv
    · rename_i h; cases hv; rw [h.2]; exact hx
    · exact hC _ _ _ hv
  by_cases hJ : 2 ≤ J
  · refine loopFT_post (fun _ (C : Arr 5 (Loc 18 ℝ)) => ∀ i k v, C i k = some v → |v| ≤ ambeC k) (by omega) hC
      fun k k1 k2 C hC => ?_
    refine Post.ite (fun h => Loc.wr2_post.mono fun D hD => ?_) fun h => Post.bind tab2_post fun x hx =>
      Loc.wr2_post.mono fun D hD => ?_
    · subst hD
      refine hset _ _ _ _ hC ?_
      rw [RealArith.fi_r]
      simp only [Int.cast_zero, abs_zero]
      unfold ambeC
      split_ifs <;> norm_num
    · subst hD
      refine hset _ _ _ _ hC ?_
      obtain ⟨r, _, _, hr, hx⟩ := hx
      refine (ftab_abs (rowsBnd_get ht hr hx) (by decide)).trans ?_
      rw [Int.toNat_natCast]
      unfold ambeC
      rw [if_neg (by omega), if_neg (by omega), if_pos (by omega)]
      norm_num
  · rw [show loopFT 3 J _ C = Except.ok C by unfold loopFT; rw [show J + 1 - 3 = 0 by omega]; rfl]
    exact Post.pure hC

theorem ambeC_nonneg (k : Nat) : 0 ≤ ambeC k := by unfold ambeC; split_ifs <;> norm_num

theorem ambeC_sum {J : Nat} (h : J ≤ 17) : ∑ m ∈ Finset.Icc 1 J, wgt m * ambeC m ≤ 43 := by
  refine (Finset.sum_le_sum_of_subset_of_nonneg (Finset.Icc_subset_Icc_right h) fun i _ _ =>
    mul_nonneg (wgt_nonneg i) (ambeC_nonneg i)).trans ?_
  simp [Finset.sum_Icc_succ_top, wgt, ambeC]
  norm_num

/-! ## The AMBE decoder -/

/-- The log amplitudes after the prediction. -/
theorem ambeBody_r (lax : Bool) (T : AmbeTabs) (f : AmbeFields) {L : Int} (hL : 1 ≤ L) (unvc : ℝ) (cache : DctCache ℝ 9 18)
    (cur prev : Parms ℝ) : Post (ambeBody lax T f L unvc cache cur prev) fun r => ∃ (Tl : Arr 57 ℝ) (g : Int),
      T.dg[f.b2]? = some g ∧ r.1.gamma = ftab g T.dgDen + 1 / 2 * prev.gamma ∧
      r.1 = { cur with gamma := r.1.gamma, log2Ml := r.1.log2Ml, Ml := r.1.Ml } ∧
      (∀ l : Fin 57, 1 ≤ l.val → l.val ≤ L.toNat → r.1.log2Ml l =
        Tl l + 65 / 100 * predQ lax L r.2 l - 65 / 100 / L * (∑ k ∈ Finset.Icc 1 L.toNat, predQ lax L r.2 k) +
          (r.1.gamma - 1 / 2 * Real.logb 2 L - (∑ k ∈ Finset.Icc 1 L.toNat, Tl.getD k 0) / L)) ∧
      r.2.log2Ml 0 = r.2.log2Ml 1 ∧ (T.Bnd → CacheBnd cache → ∀ l, |Tl l| ≤ 43) ∧
      r.1.log2Ml 0 = cur.log2Ml 0 := by
  unfold ambeBody
  refine Post.bind tab_post fun g hg => ?_
  dsimp only
  have key : ∀ {X : Type} {x : Exec X} {P : X → Prop}, (T.Bnd → CacheBnd cache → Post x P) →
      Post x fun a => T.Bnd → CacheBnd cache → P a := fun h a e hT hc => h hT hc a e
  refine Post.bind (key fun hT _ => ambeGm_bnd hT f) fun G hG => ?_
  refine Post.bind (key fun hT hc => idctRi_bnd hc 8 (hG hT hc)) fun R hR => ?_
  refine Post.bind (key fun hT hc => ambeCik12_bnd fun i v h => (hR hT hc i v h).trans ambeG_sum) fun C hC => ?_
  refine Post.bind tabI_post fun J hJ => ?_
  refine Post.bind tab_post fun J1 hJ1 => ?_
  refine Post.bind tab_post fun J2 hJ2 => ?_
  refine Post.bind tab_post fun J3 hJ3 => ?_
  refine Post.bind tab_post fun J4 hJ4 => ?_
  have hJs : ∀ (hT : T.Bnd) {k j : Nat}, J[k]? = some j → j ≤ 17 := by
    intro hT k j hj
    have h := hT.2.2.2.2.2.2.2.2.2.2.2.2.2.2
    rw [List.all_eq_true] at h
    have h := h J (List.mem_of_getElem? hJ.2)
    rw [List.all_eq_true] at h
    simpa using h j (List.mem_of_getElem? hj)
  refine Post.bind (key fun hT hc => ambeHoc_bnd hT.2.2.1 hT.2.2.2.2.2.2.2.2.2.1 (hC hT hc)) fun C hC => ?_
  refine Post.bind (key fun hT hc => ambeHoc_bnd hT.2.2.2.1 hT.2.2.2.2.2.2.2.2.2.2.1 (hC hT hc)) fun C hC => ?_
  refine Post.bind (key fun hT hc => ambeHoc_bnd hT.2.2.2.2.1 hT.2.2.2.2.2.2.2.2.2.2.2.1 (hC hT hc)) fun C hC => ?_
  refine Post.bind (key fun hT hc => ambeHoc_bnd hT.2.2.2.2.2.1 hT.2.2.2.2.2.2.2.2.2.2.2.2.1 (hC hT hc)) fun C hC => ?_
  refine Post.bind (key fun hT hc => idctBlock_bnd (T := 43) hc (hC hT hc) 1 J1 (ambeC_sum (hJs hT hJ1)) fun l => ?_) fun s hs => ?_
  · show |((0 : Int) : ℝ)| ≤ 43
    norm_num
  refine Post.bind (key fun hT hc => idctBlock_bnd (T := 43) hc (hC hT hc) 2 J2 (ambeC_sum (hJs hT hJ2)) (hs hT hc)) fun s hs => ?_
  refine Post.bind (key fun hT hc => idctBlock_bnd (T := 43) hc (hC hT hc) 3 J3 (ambeC_sum (hJs hT hJ3)) (hs hT hc)) fun s hs => ?_
  refine Post.bind (key fun hT hc => idctBlock_bnd (T := 43) hc (hC hT hc) 4 J4 (ambeC_sum (hJs hT hJ4)) (hs hT hc)) fun s hs => ?_
  refine Post.bind Post.true fun p _ => ?_
  refine Post.bind Arr.rd_post fun x hx => Post.bind Arr.wr_post fun G0 hG0 => ?_
  refine Post.bind Post.true fun _ _ => Post.bind Post.true fun M hM => ?_
  refine Post.bind (predict1_r lax L _) fun q hq => ?_
  refine Post.bind (sum42_r L s.1) fun s42 h42 => ?_
  refine Post.bind (predict3_r lax L _ q.1 q.2.1 hq.1 _ _ _ _ _) fun c hc => Post.pure ?_
  obtain ⟨c1, c2, c3⟩ := hc
  have eg : c.gamma = ftab g T.dgDen + 1 / 2 * prev.gamma := by
    rw [c3]
    show ftab g T.dgDen + toF (dlit 5 10) * prev.gamma = _
    rw [RealArith.toF_r, RealArith.dlit_r _ _ (by decide)]; norm_num
  have eg' : ftab g T.dgDen +ᶠ toF (dlit 5 10) *ᶠ prev.gamma = c.gamma := by rw [c3]
  refine ⟨s.1, g, hg, eg, ?_, fun l l1 l2 => ?_, ?_, hs, c2 0 (.inl (by decide))⟩
  · rw [c3]
  · rw [(c1 l l1 l2).1, hq.2, h42, eg']
    have e65 : (toF (dlit 65 100) : ℝ) = 65 / 100 := by
      rw [RealArith.toF_r, RealArith.dlit_r _ _ (by decide)]; norm_num
    have e5 : (lit 5 10 : ℝ) = 1 / 2 := by rw [RealArith.lit_r _ _ (by decide)]; norm_num
    rw [e65, e5]
    rfl
  · obtain ⟨_, _, rfl⟩ := hG0
    obtain ⟨_, rfl⟩ := hx
    rfl

end Verif.Model
