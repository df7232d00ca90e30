import Verif.Lemmas.PredictBound

/-!
# Bounds on the IMBE residuals and the IMBE log amplitudes in exact arithmetic
-/

set_option linter.unusedSectionVars false

namespace Verif.Model
open Verif Verif.Gen Verif.Spec Arith

theorem strtol2_lt : ∀ (cs : List Int) (a : Nat), strtol2 cs a < (a + 1) * 2 ^ cs.length := by
  intro cs
  induction cs with
  | nil => intro a; simp [strtol2]
  | cons c cs ih =>
    intro a
    have hp : 2 ^ (c :: cs).length = 2 * 2 ^ cs.length := by rw [List.length_cons, pow_succ]; ring
    have hpos : 1 ≤ 2 ^ cs.length := Nat.one_le_two_pow
    rw [hp]
    unfold strtol2
    split
    · have := ih (2 * a)
      nlinarith
    · split
      · have := ih (2 * a + 1)
        nlinarith
      · nlinarith

theorem loopDown_post {σ : Type} {n : Nat} {f : Nat → σ → Exec σ} {s : σ} (Inv : Nat → σ → Prop) (h0 : Inv n s)
    (hs : ∀ i, i < n → ∀ s, Inv (i + 1) s → Post (f i s) (Inv i)) : Post (loopDown n f s) (Inv 0) := by
  induction n generalizing s with
  | zero => exact Post.pure h0
  | succ n ih =>
    unfold loopDown
    exact Post.bind (hs n (Nat.lt_succ_self n) s h0) fun a ha => ih ha fun i hi => hs i (Nat.lt_succ_of_lt hi)

theorem bbField_post {bb : Arr 58 (Loc 12 Int)} {row n : Int} : Post (bbField bb row n) fun v =>
    0 ≤ n ∧ v < 2 ^ n.toNat := by
  unfold bbField
  refine Post.ite (fun h => ?_) fun _ a h => by cases h
  refine Post.bind (P := fun cs : List Int => cs.length = n.toNat) ?_ fun cs hcs => Post.pure ⟨h.1, ?_⟩
  · refine (loopDown_post (fun i (cs : List Int) => cs.length + i = n.toNat) (by simp) fun i hi s hs => ?_).mono
      fun cs h => by simpa using h
    refine Post.bind Post.true fun c _ => Post.pure ?_
    simp
    omega
  · have := strtol2_lt cs 0
    rw [hcs] at this
    simpa using this

/-- A quantiser index centred on zero. -/
theorem centred_abs {n : Nat} {b : Nat} (h : b < 2 ^ n) : |((b : ℝ) - (2 : ℝ) ^ ((n : ℝ) - 1)) + 1 / 2| ≤ (2 : ℝ) ^ n / 2 := by
  have e : (2 : ℝ) ^ ((n : ℝ) - 1) = (2 : ℝ) ^ n / 2 := by
    rw [Real.rpow_sub (by norm_num), Real.rpow_one, Real.rpow_natCast]
  have h' : (b : ℝ) + 1 ≤ 2 ^ n := by exact_mod_cast h
  have h0 : (0 : ℝ) ≤ b := Nat.cast_nonneg b
  rw [e, abs_le]
  constructor <;> linarith

/-- Bounds on the entries of the gain vector, in thousandths. -/
def imbeGI : List Nat := [0, 8700, 1600, 1030, 870, 750, 680]

/-- Bounds on the block coefficients, in thousandths; the first is the bound on the transformed gain vector. -/
def imbeCI : List Nat := [0, 18560, 1580, 1240, 1060, 980, 920, 890, 850, 880, 880]

noncomputable def imbeG (m : Nat) : ℝ := (imbeGI.getD m 0 : ℝ) / 1000
noncomputable def imbeC (m : Nat) : ℝ := (imbeCI.getD m 0 : ℝ) / 1000

theorem B2_bnd : (B2.all fun x => decide (|x| ≤ 8700000)) = true := by decide +kernel

/-- Entry `j` of a row of `ba`: an integer number of bits and a step size that fits the bound. -/
def baChk (e : List Int) (g : Nat) : Bool :=
  (List.range 12).any fun n => e.getD 0 0 == (n : Int) * 1000000 && decide (0 ≤ e.getD 1 0) &&
    decide (e.getD 1 0 * 2 ^ n ≤ 2000 * (g : Int))

theorem ba_bnd : (ba.all fun row => (List.range 5).all fun j => baChk (row.getD j []) (imbeGI.getD (j + 2) 0)) = true := by
  decide +kernel

theorem quant_bnd : ∀ B < 11, ∀ k < 9, 0 ≤ quantstep.getD B 0 * standdev.getD k 0 ∧
    quantstep.getD B 0 * standdev.getD k 0 * 2 ^ (B + 1) ≤ 200 * (imbeCI.getD (k + 2) 0 : Int) := by decide +kernel

theorem getD_of_some {α : Type} {l : List α} {i : Nat} {a x : α} (h : l[i]? = some a) : l.getD i x = a := by
  rw [List.getD_eq_getElem?_getD, h]; rfl

theorem set_bnd {r : Nat} {g : Nat → ℝ} {G : Loc r ℝ} {k : Nat} {x : ℝ} (hG : ∀ i v, G i = some v → |v| ≤ g i)
    (hx : |x| ≤ g k) : ∀ i v, Arr.set G k (some x) i = some v → |v| ≤ g i := by
  intro i v hv
  by_cases e : i.val = k
  · rw [Arr.set_same e] at hv
    cases hv
    rw [e]; exact hx
  · rw [Arr.set_ne e] at hv
    exact hG i v hv

theorem set2_bnd {a b : Nat} {g : Nat → ℝ} {C : Arr a (Loc b ℝ)} {i k : Nat} {x : ℝ}
    (hC : ∀ i k v, C i k = some v → |v| ≤ g k) (hx : |x| ≤ g k) : ∀ i' k' v, Loc.set2 C i k x i' k' = some v → |v| ≤ g k' := by
  intro i' k' v hv
  unfold Loc.set2 at hv
  split at hv
  · rename_i h; cases hv; rw [h.2]; exact hx
  · exact hC _ _ _ hv

theorem lit5_r : (lit 5 10 : ℝ) = 1 / 2 := by rw [RealArith.lit_r _ _ (by decide)]; norm_num

theorem imbeGm_bnd (bb : Arr 58 (Loc 12 Int)) (L9 : Int) : Post (imbeGm bb L9 : Exec (Loc 7 ℝ)) fun G =>
    ∀ i v, G i = some v → |v| ≤ imbeG i := by
  unfold imbeGm
  refine Post.bind Post.true fun b2 _ => Post.bind tabI_post fun x hx => ?_
  refine Post.bind (P := fun G : Loc 7 ℝ => ∀ i v, G i = some v → |v| ≤ imbeG i) (Loc.wr_post.mono ?_) fun G hG => ?_
  · rintro G ⟨_, _, rfl⟩
    refine set_bnd (fun i v h => by cases h) ?_
    have h := B2_bnd
    rw [List.all_eq_true] at h
    have h := h x (List.mem_of_getElem? hx.2)
    have h : |x| ≤ 8700000 := by simpa using h
    refine (ftab_abs h (by decide)).trans ?_
    norm_num [imbeG, imbeGI]
  refine Post.bind tabI_post fun row hrow => ?_
  refine loopFT_post (fun _ (G : Loc 7 ℝ) => ∀ i v, G i = some v → |v| ≤ imbeG i) (by decide) hG fun i h1 h2 G hG => ?_
  refine Post.bind tab_post fun e he => Post.bind tab_post fun e0 he0 => Post.bind tab_post fun e1 he1 => ?_
  have hck := ba_bnd
  rw [List.all_eq_true] at hck
  have hck := hck row (List.mem_of_getElem? hrow.2)
  rw [List.all_eq_true] at hck
  have hck := hck (i - 2) (by rw [List.mem_range]; omega)
  rw [getD_of_some he, show i - 2 + 2 = i by omega] at hck
  unfold baChk at hck
  rw [List.any_eq_true] at hck
  obtain ⟨n, hn, hck⟩ := hck
  rw [getD_of_some he0, getD_of_some he1] at hck
  simp only [Bool.and_eq_true, beq_iff_eq, decide_eq_true_eq] at hck
  obtain ⟨⟨c0, c1⟩, c2⟩ := hck
  rw [List.mem_range] at hn
  have f0 : (ftab e0 ba_den : ℝ) = n := by
    rw [ftab_r (b := 12000000) (by rw [c0, abs_of_nonneg (by positivity)]; omega) (by decide), c0]
    have : (ba_den : ℝ) = 1000000 := by norm_num [ba_den]
    rw [this]
    push_cast
    field_simp
  have hp : (1 : Int) ≤ 2 ^ n := by exact_mod_cast (Nat.one_le_two_pow (n := n))
  have hg : imbeGI.getD i 0 ≤ 100000 := by
    have : ∀ i < 7, imbeGI.getD i 0 ≤ 100000 := by decide
    exact this i (by omega)
  have f1 : (ftab e1 ba_den : ℝ) = e1 / 1000000 := by
    rw [ftab_r (b := 200000000) (by rw [abs_of_nonneg c1]; nlinarith) (by decide)]
    norm_num [ba_den]
  rw [f0, f1]
  refine Post.bind (toI32_r_post _) fun k hk => ?_
  rw [if_pos (by positivity), Int.floor_natCast] at hk
  subst hk
  refine Post.bind bbField_post fun bm hbm => Loc.wr_post.mono ?_
  rintro G' ⟨_, _, rfl⟩
  refine set_bnd hG ?_
  rw [Int.toNat_natCast] at hbm ⊢
  have hcent := centred_abs hbm.2
  rw [lit1_r, lit5_r]
  show |(e1 : ℝ) / 1000000 * (((((bm : Int) : ℝ)) - (2 : ℝ) ^ ((n : ℝ) - 1)) + 1 / 2)| ≤ _
  rw [Int.cast_natCast, abs_mul]
  have e1' : (0 : ℝ) ≤ e1 := by exact_mod_cast c1
  rw [abs_of_nonneg (by positivity : (0 : ℝ) ≤ e1 / 1000000)]
  have c2' : (e1 : ℝ) * 2 ^ n ≤ 2000 * (imbeGI.getD i 0 : ℝ) := by exact_mod_cast c2
  unfold imbeG
  calc (e1 : ℝ) / 1000000 * _ ≤ (e1 : ℝ) / 1000000 * (2 ^ n / 2) := by gcongr
    _ ≤ _ := by rw [div_mul_div_comm, div_le_div_iff₀ (by norm_num) (by norm_num)]; linarith

theorem imbeG_sum : ∑ m ∈ Finset.Icc 1 6, wgt m * imbeG m ≤ imbeC 1 := by
  norm_num [Finset.sum_Icc_succ_top, wgt, imbeG, imbeC, imbeGI, imbeCI]

theorem imbeC_nonneg (k : Nat) : 0 ≤ imbeC k := by unfold imbeC; positivity

theorem imbeCik_bnd (bb : Arr 58 (Loc 12 Int)) (L9 : Int) {R : Loc 7 ℝ} (hR : ∀ i v, R i = some v → |v| ≤ imbeC 1) :
    Post (imbeCik bb L9 R) fun C => ∀ i k v, C i k = some v → |v| ≤ imbeC k := by
  unfold imbeCik
  refine Post.bind (P := fun s : Arr 7 (Loc 11 ℝ) × Int => ∀ i k v, s.1 i k = some v → |v| ≤ imbeC k) ?_
    fun s hs => Post.pure hs
  refine loopFT_post (fun _ (s : Arr 7 (Loc 11 ℝ) × Int) => ∀ i k v, s.1 i k = some v → |v| ≤ imbeC k) (by decide)
    (fun i k v h => by cases h) fun i h1 h2 s hs => ?_
  refine Post.bind Loc.rd_post fun x hx => Post.bind Loc.wr2_post fun C hC => Post.bind Post.true fun J _ => ?_
  obtain ⟨_, hx⟩ := hx
  subst hC
  have hC := set2_bnd (C := s.1) (i := (i : Int).toNat) (k := (1 : Int).toNat) hs (hR _ _ hx)
  by_cases hJ : 1 ≤ J
  swap
  · obtain rfl : J = 0 := by omega
    exact Post.pure hC
  refine loopFT_post (fun _ (s : Arr 7 (Loc 11 ℝ) × Int) => ∀ i k v, s.1 i k = some v → |v| ≤ imbeC k) (by omega)
    hC fun k k1 k2 s hs => ?_
  refine Post.bind Post.true fun B _ => Post.ite (fun h => Post.bind Loc.wr2_post fun D hD => Post.pure ?_) fun h => ?_
  · subst hD
    refine set2_bnd hs ?_
    rw [RealArith.fi_r]
    simpa using imbeC_nonneg _
  refine Post.bind bbField_post fun bm hbm => Post.bind tabI_post fun q hq => Post.bind tabI_post fun sd hsd => ?_
  refine Post.bind Loc.wr2_post fun D hD => Post.pure ?_
  subst hD
  refine set2_bnd hs ?_
  obtain ⟨q0, hq⟩ := hq
  obtain ⟨s0, hsd⟩ := hsd
  have lq : ((B : Int) - 1).toNat < 11 := by
    have := (List.getElem?_eq_some_iff.mp hq).1
    exact this
  have ls : ((k : Int) - 2).toNat < 9 := (List.getElem?_eq_some_iff.mp hsd).1
  have ck := quant_bnd _ lq _ ls
  rw [getD_of_some hq, getD_of_some hsd, show ((k : Int) - 2).toNat + 2 = k by omega,
    show ((B : Int) - 1).toNat + 1 = B by omega] at ck
  have hqb : |q| ≤ 1000 := by
    have : (quantstep.all fun x => decide (|x| ≤ 1000)) = true := by decide
    rw [List.all_eq_true] at this
    simpa using this q (List.mem_of_getElem? hq)
  have hsb : |sd| ≤ 1000 := by
    have : (standdev.all fun x => decide (|x| ≤ 1000)) = true := by decide
    rw [List.all_eq_true] at this
    simpa using this sd (List.mem_of_getElem? hsd)
  rw [ftab_r hqb (by decide), ftab_r hsb (by decide), lit1_r, lit5_r, Int.toNat_natCast]
  rw [Int.toNat_natCast] at hbm
  have hcent := centred_abs hbm.2
  show |(q : ℝ) / (quantstep_den : ℝ) * ((sd : ℝ) / (standdev_den : ℝ)) * ((((bm : Int) : ℝ) - (2 : ℝ) ^ (((B : Int) : ℝ) - 1)) + 1 / 2)| ≤ _
  have d1 : (quantstep_den : ℝ) = 100 := by norm_num [quantstep_den]
  have d2 : (standdev_den : ℝ) = 1000 := by norm_num [standdev_den]
  rw [d1, d2, Int.cast_natCast, Int.cast_natCast, abs_mul, div_mul_div_comm]
  have c1 : (0 : ℝ) ≤ (q : ℝ) * sd := by exact_mod_cast ck.1
  have c2 : (q : ℝ) * sd * 2 ^ B ≤ 200 * (imbeCI.getD k 0 : ℝ) := by exact_mod_cast ck.2
  rw [abs_of_nonneg (by positivity : (0 : ℝ) ≤ (q : ℝ) * sd / (100 * 1000))]
  unfold imbeC
  calc (q : ℝ) * sd / (100 * 1000) * _ ≤ (q : ℝ) * sd / (100 * 1000) * (2 ^ B / 2) := by gcongr
    _ ≤ _ := by rw [div_mul_div_comm, div_le_div_iff₀ (by norm_num) (by norm_num)]; linarith

theorem imbeC_sum {J : Nat} (h : J ≤ 10) : ∑ m ∈ Finset.Icc 1 J, wgt m * imbeC m ≤ 37.12 := by
  refine (Finset.sum_le_sum_of_subset_of_nonneg (Finset.Icc_subset_Icc_right h) fun i _ _ =>
    mul_nonneg (wgt_nonneg i) (imbeC_nonneg i)).trans ?_
  norm_num [Finset.sum_Icc_succ_top, wgt, imbeC, imbeCI]

theorem Ji_bnd : (ImbeJi.all fun r => r.all fun x => decide (x ≤ 10)) = true := by decide +kernel

theorem imbeTl_bnd {c : DctCache ℝ 7 11} (hc : CacheBnd c) (L9 : Int) {C : Arr 7 (Loc 11 ℝ)}
    (hC : ∀ i k v, C i k = some v → |v| ≤ imbeC k) : Post (imbeTl c L9 C) fun T => ∀ l, |T l| ≤ 37.12 := by
  unfold imbeTl
  refine Post.bind (P := fun s : Arr 57 ℝ × Int => ∀ l, |s.1 l| ≤ 37.12) ?_ fun s hs => Post.pure hs
  refine loopFT_post' (fun s : Arr 57 ℝ × Int => ∀ l, |s.1 l| ≤ 37.12) (fun l => ?_) fun i s hs => ?_
  · show |((0 : Int) : ℝ)| ≤ _
    norm_num
  · refine Post.bind tab2_post fun J hJ => ?_
    obtain ⟨r, _, _, hr, hJ⟩ := hJ
    have h := Ji_bnd
    rw [List.all_eq_true] at h
    have h := h r (List.mem_of_getElem? hr)
    rw [List.all_eq_true] at h
    have h : J ≤ 10 := by simpa using h J (List.mem_of_getElem? hJ)
    exact idctBlock_bnd hc hC i J (imbeC_sum h) hs

/-- The log amplitudes after the prediction. -/
theorem imbeBody_r (lax : Bool) (d : Nat → Int) {L K : Int} (cur prev : Parms ℝ) (t : Tls ℝ) :
    Post (imbeDecodeBody lax d L K cur prev t) fun r => ∃ Tl : Arr 57 ℝ,
      (∀ l : Fin 57, 1 ≤ l.val → l.val ≤ L.toNat → r.cur.log2Ml l =
        Tl l + imbeRho L * predQ lax L r.prev l - imbeRho L / L * (∑ k ∈ Finset.Icc 1 L.toNat, predQ lax L r.prev k) ∧
        r.cur.Ml l = (2 : ℝ) ^ (r.cur.log2Ml l)) ∧
      (∀ l : Fin 57, l.val < 1 ∨ L.toNat < l.val → r.cur.log2Ml l = cur.log2Ml l) ∧ r.cur.L = cur.L ∧
      (CacheBnd (imbeGetCache t).1 → ∀ l, |Tl l| ≤ 37.12) := by
  unfold imbeDecodeBody
  dsimp only
  have key : ∀ {X : Type} {x : Exec X} {P : X → Prop}, (CacheBnd (imbeGetCache t).1 → Post x P) →
      Post x fun a => CacheBnd (imbeGetCache t).1 → P a := fun h a e hc => h hc a e
  refine Post.bind Post.true fun bb _ => Post.bind Post.true fun V _ => ?_
  refine Post.bind (imbeGm_bnd bb _) fun G hG => ?_
  refine Post.bind (key fun hc => idctRi_bnd hc 6 hG) fun R hR => ?_
  refine Post.bind (key fun hc => imbeCik_bnd bb _ fun i v h => (hR hc i v h).trans imbeG_sum) fun C hC => ?_
  refine Post.bind (key fun hc => imbeTl_bnd hc _ (hC hc)) fun T hT => ?_
  refine Post.bind Post.true fun p _ => ?_
  refine Post.bind (predict1_r lax L _) fun q hq => ?_
  refine Post.bind (predict2_r lax L _ q.1 q.2.1 hq.1 _ _ _ _) fun c hc => Post.pure ?_
  obtain ⟨c1, c2, c3⟩ := hc
  refine ⟨T, fun l l1 l2 => ⟨?_, (c1 l l1 l2).2⟩, c2, by rw [c3], hT⟩
  rw [(c1 l l1 l2).1, hq.2]
  rfl

end Verif.Model
