import Verif.Lemmas.SpectrumImbe
import Verif.Lemmas.PredictStep

/-!
# Decoded log amplitudes of an AMBE frame, block by block
-/

set_option linter.unusedSectionVars false

namespace Verif.Model
open Verif Verif.Gen Verif.Spec Arith

/-- Adding a constant changes only the first coefficient. -/
theorem idct_add_const {N j : Nat} (hN : 1 ≤ N) (c : Nat → ℝ) (κ : ℝ) :
    idct N c j + κ = idct N (fun k => if k = 1 then c k + κ else c k) j := by
  unfold idct
  have : ∀ k ∈ Finset.Icc 1 N, wgt k * (if k = 1 then c k + κ else c k) * Real.cos (Real.pi * ((k : ℝ) - 1) * ((j : ℝ) - 1 / 2) / N) =
      wgt k * c k * Real.cos (Real.pi * ((k : ℝ) - 1) * ((j : ℝ) - 1 / 2) / N) + if k = 1 then κ else 0 := by
    intro k _
    by_cases e : k = 1
    · subst e
      rw [if_pos rfl, if_pos rfl]
      simp [wgt]
    · rw [if_neg e, if_neg e, add_zero]
  rw [Finset.sum_congr rfl this, Finset.sum_add_distrib, Finset.sum_ite_eq' , if_pos (Finset.mem_Icc.mpr ⟨le_rfl, hN⟩)]

/-- The shape selected by the fields. -/
noncomputable def shapeOf (T : AmbeTabs) (f : AmbeFields) : Shape where
  vector := vectorOf T.prba24 T.prba58 f.b3 f.b4
  higher := higherOf (fun i => if i = 1 then T.hoc5 else if i = 2 then T.hoc6 else if i = 3 then T.hoc7 else T.hoc8)
    fun i => if i = 1 then f.b5 else if i = 2 then f.b6 else if i = 3 then f.b7 else f.b8
  lens := T.lmprbl

/-- The vector `Gm`. -/
noncomputable def gmOf (S : Shape) (m : Nat) : ℝ := if m = 1 then 0 else S.vector m

theorem entry_of {t : List (List Int)} {i j : Nat} {r : List Int} {x b : Int} (hb : rowsBnd t b = true) (hb' : b < 1414213562373095)
    (hr : t[i]? = some r) (hx : r[j]? = some x) : (ftab x 1000000 : ℝ) = entry t i j := by
  rw [ftab_r (rowsBnd_get hb hr hx) hb']
  unfold entry
  rw [getD_of_some hr, getD_of_some hx]
  norm_num

theorem ambeGm_r {T : AmbeTabs} (hT : T.Bnd) (f : AmbeFields) :
    Post (ambeGm T f : Exec (Loc 9 ℝ)) fun G => Holds 8 G (gmOf (shapeOf T f)) := by
  obtain ⟨d1, d2, _, _, _, _, _, t1, t2, _⟩ := hT
  unfold ambeGm
  refine Post.bind (P := fun G : Loc 9 ℝ => Holds 1 G (gmOf (shapeOf T f))) (Loc.wr_post.mono ?_) fun G hG => ?_
  · rintro G ⟨_, _, rfl⟩
    refine Holds.set (fun j c1 c2 c3 => absurd (show j.val = 1 by omega) c3) ?_
    rw [RealArith.fi_r]; simp [gmOf]
  refine Post.bind (loop_post (n := 3) (fun c (G : Loc 9 ℝ) => Holds (c + 1) G (gmOf (shapeOf T f))) hG fun c hc G hG => ?_)
    fun G hG => (loop_post (n := 4) (fun c (G : Loc 9 ℝ) => Holds (c + 4) G (gmOf (shapeOf T f))) hG fun c hc G hG => ?_)
  · refine Post.bind tab2_post fun x hx => Loc.wr_post.mono ?_
    rintro G' ⟨_, _, rfl⟩
    obtain ⟨r, _, _, hr, hx⟩ := hx
    rw [show ((c : Int) + 2).toNat = c + 2 by omega]
    refine Holds.set (fun j c1 c2 c3 => hG j c1 (by omega)) ?_
    rw [d1, entry_of t1 (by decide) hr hx]
    simp only [Int.toNat_natCast]
    unfold gmOf
    rw [if_neg (by omega)]
    show _ = vectorOf _ _ _ _ _
    unfold vectorOf
    rw [if_pos (by omega), show c + 2 - 2 = c by omega]
  · refine Post.bind tab2_post fun x hx => Loc.wr_post.mono ?_
    rintro G' ⟨_, _, rfl⟩
    obtain ⟨r, _, _, hr, hx⟩ := hx
    rw [show ((c : Int) + 5).toNat = c + 5 by omega]
    refine Holds.set (fun j c1 c2 c3 => hG j c1 (by omega)) ?_
    rw [d2, entry_of t2 (by decide) hr hx]
    simp only [Int.toNat_natCast]
    unfold gmOf
    rw [if_neg (by omega)]
    show _ = vectorOf T.prba24 T.prba58 f.b3 f.b4 (c + 5)
    unfold vectorOf
    rw [if_neg (by omega), show c + 5 - 5 = c by omega]

/-- The coefficients of block `i`. -/
noncomputable def ambeCoef (S : Shape) (R : Nat → ℝ) (i k : Nat) : ℝ :=
  if k = 1 then (R (2 * i - 1) + R (2 * i)) / 2 else if k = 2 then (R (2 * i - 1) - R (2 * i)) / (2 * Real.sqrt 2) else S.higher i k

theorem rconst_r : (toF (ofInt 1 /ᵈ (ofInt 2 *ᵈ msqrt2)) : ℝ) = 1 / (2 * Real.sqrt 2) := by
  have : (msqrt2 : ℝ) = Real.sqrt 2 := RealArith.msqrt2_r
  rw [RealArith.toF_r, this]
  show ((1 : Int) : ℝ) / (((2 : Int) : ℝ) * _) = _
  push_cast
  rfl

/-- The blocks are filled up to coefficient `N i`. -/
def Filled (C : Arr 5 (Loc 18 ℝ)) (g : Nat → Nat → ℝ) (N : Nat → Nat) : Prop :=
  ∀ i, 1 ≤ i → i ≤ 4 → ∀ hi : i < 5, Holds (N i) (C ⟨i, hi⟩) (g i)

theorem ambeCik12_r {S : Shape} {Ri : Loc 9 ℝ} {R : Nat → ℝ} (hR : Holds 8 Ri R) :
    Post (ambeCik12 Ri) fun C => Filled C (ambeCoef S R) fun _ => 2 := by
  unfold ambeCik12
  dsimp only
  refine (loopFT_post (lo := 1) (hi := 4) (fun i (C : Arr 5 (Loc 18 ℝ)) => ∀ i', 1 ≤ i' → i' < i → ∀ hi : i' < 5,
    Holds 2 (C ⟨i', hi⟩) (ambeCoef S R i')) (by omega) (fun i' _ _ => by omega) ?_).mono fun C h i h1 h2 => h i h1 (by omega)
  intro i h1 h2 C hC
  have ra : Loc.rd Ri (2 * (i : Int) - 1) = .ok (R (2 * i - 1)) := by
    rw [show 2 * (i : Int) - 1 = ((2 * i - 1 : Nat) : Int) by omega]
    exact Loc.rd_nat (by omega) (hR ⟨2 * i - 1, by omega⟩ (by show 1 ≤ 2 * i - 1; omega) (by show 2 * i - 1 ≤ 8; omega))
  have rb : Loc.rd Ri (2 * (i : Int)) = .ok (R (2 * i)) := by
    rw [show 2 * (i : Int) = ((2 * i : Nat) : Int) by omega]
    exact Loc.rd_nat (by omega) (hR ⟨2 * i, by omega⟩ (by show 1 ≤ 2 * i; omega) (by show 2 * i ≤ 8; omega))
  rw [ra, ok_bind, rb, ok_bind]
  refine Post.bind Loc.wr2_post fun C' hC' => Loc.wr2_post.mono fun C'' hC'' => ?_
  subst hC' hC''
  simp only [Int.toNat_natCast]
  intro i' a b
  refine Holds.set2 (fun hi j c1 c2 c3 => ?_) fun e => ?_
  · refine Holds.set2 (J := if i' = i then 1 else 2) (fun hi j e1 e2 e3 => ?_) (fun e => ?_) hi j c1 ?_
    · by_cases e : i' = i
      · rw [if_pos e] at e2
        exact absurd ⟨e, show j.val = (1 : Int).toNat by show j.val = 1; omega⟩ e3
      · rw [if_neg e] at e2
        exact hC i' a (by omega) hi j e1 e2
    · rw [show (toF (dlit 5 10) : ℝ) = 1 / 2 by rw [RealArith.toF_r, RealArith.dlit_r _ _ (by decide)]; norm_num]
      show 1 / 2 * (R (2 * i - 1) + R (2 * i)) = ambeCoef S R i' 1
      unfold ambeCoef
      rw [if_pos rfl, e]
      ring
    · by_cases e : i' = i
      · rw [if_pos e]
        have : j.val ≠ 2 := fun h => c3 ⟨e, h⟩
        omega
      · rw [if_neg e]; exact c2
  · rw [rconst_r]
    show 1 / (2 * Real.sqrt 2) * (R (2 * i - 1) - R (2 * i)) = ambeCoef S R i' 2
    unfold ambeCoef
    rw [if_neg (by decide), if_pos rfl, e]
    ring

theorem ambeHoc_r {S : Shape} {R : Nat → ℝ} {t : List (List Int)} {b i J den : Nat} (hd : den = 1000000)
    (ht : rowsBnd t 750000 = true) (hJ : 2 ≤ J) (hi : 1 ≤ i) (hS : ∀ k, S.higher i k = if k ≤ 6 then entry t b (k - 3) else 0)
    {C : Arr 5 (Loc 18 ℝ)} {N : Nat → Nat} (hC : Filled C (ambeCoef S R) N) (hN : N i = 2) :
    Post (ambeHoc t den b i J C) fun C => Filled C (ambeCoef S R) fun i' => if i' = i then J else N i' := by
  subst hd
  unfold ambeHoc
  refine (loopFT_post (fun k (C : Arr 5 (Loc 18 ℝ)) => Filled C (ambeCoef S R) fun i' => if i' = i then k - 1 else N i') (by omega)
    ?_ fun k k1 k2 C hC => ?_).mono ?_
  · intro i' a b' hi'
    dsimp only
    by_cases e : i' = i
    · rw [if_pos e]
      subst e
      have := hC i' a b' hi'
      rw [hN] at this
      exact this
    · rw [if_neg e]; exact hC i' a b' hi'
  · have step : ∀ v : ℝ, v = S.higher i k → Filled (Loc.set2 C i k v) (ambeCoef S R) fun i' => if i' = i then k + 1 - 1 else N i' := by
      intro v hv i' a b'
      refine Holds.set2 (fun hi' j c1 c2 c3 => ?_) fun e => ?_
      · refine hC i' a b' hi' j c1 ?_
        dsimp only at c2 ⊢
        by_cases e : i' = i
        · rw [if_pos e] at c2 ⊢
          have : j.val ≠ k := fun h => c3 ⟨e, h⟩
          omega
        · rw [if_neg e] at c2 ⊢; exact c2
      · unfold ambeCoef
        rw [if_neg (by omega), if_neg (by omega), hv, e]
    refine Post.ite (fun h => Loc.wr2_post.mono fun D hD => ?_) fun h => Post.bind tab2_post fun x hx =>
      Loc.wr2_post.mono fun D hD => ?_
    · subst hD
      simp only [Int.toNat_natCast]
      refine step _ ?_
      rw [hS, if_neg (by omega), RealArith.fi_r]
      norm_num
    · subst hD
      simp only [Int.toNat_natCast]
      obtain ⟨r, _, _, hr, hx⟩ := hx
      refine step _ ?_
      rw [hS, if_pos (by omega), entry_of ht (by decide) hr hx]
      simp only [Int.toNat_natCast]
      rw [show ((k : Int) - 3).toNat = k - 3 by omega]
  · intro C h
    simpa using h

theorem lens4 {J : List Nat} (h : J.length = 4) : before J 1 = 0 ∧ before J 2 = len J 1 ∧ before J 3 = len J 1 + len J 2 ∧
    before J 4 = len J 1 + len J 2 + len J 3 ∧ J.sum = len J 1 + len J 2 + len J 3 + len J 4 := by
  match J, h with
  | [a, b, c, d], _ => simp [before, len]; omega

theorem predict3_ex (lax : Bool) (L : Int) (prev : Parms ℝ) (K : Loc 57 Int) (D : Loc 57 ℝ)
    (hKD : ∀ l : Fin 57, 1 ≤ l.val → l.val ≤ L.toNat → K l = some (posI prev.L L l) ∧
      D l = some (posR prev.L L l - posI prev.L L l)) (s43 bg unvc : ℝ) (Tl : Arr 57 ℝ) (cur : Parms ℝ) :
    Post (ambePredict3 lax L prev K D s43 bg unvc Tl cur) fun c => ∃ κ : ℝ,
      (∀ l : Fin 57, 1 ≤ l.val → l.val ≤ L.toNat → c.log2Ml l = Tl l + 65 / 100 * predQ lax L prev l - s43 + κ) ∧
      (∀ l : Fin 57, 1 ≤ l.val → l.val ≤ L.toNat →
        c.Ml l = if c.Vl l = 1 then (2 : ℝ) ^ (c.log2Ml l) else unvc * (2 : ℝ) ^ (c.log2Ml l)) ∧
      c = { cur with log2Ml := c.log2Ml, Ml := c.Ml } :=
  (predict3_r lax L prev K D hKD s43 bg unvc Tl cur).mono fun _ hc =>
    ⟨bg, fun l l1 l2 => (hc.1 l l1 l2).1, fun l l1 l2 => (hc.1 l l1 l2).2, hc.2.2⟩

/-- The residual of an AMBE voice frame, block by block; its mean is replaced by the gain. -/
theorem ambeBody_blocks {lax : Bool} {T : AmbeTabs} (hT : T.Shape) (hB : T.Bnd) (f : AmbeFields) {L M : Nat} (h9 : 9 ≤ L) (hL : L ≤ 56)
    (h2 : ∀ i, 1 ≤ i → i ≤ 4 → 2 ≤ len (T.lmprbl.getD L []) i) (unvc : ℝ) (cur prev : Parms ℝ) (hM : prev.L = (M : Int)) (hM1 : 1 ≤ M)
    (hM' : M ≤ 56) :
    Post (ambeBody lax T f (L : Int) unvc (fillCache 9 18) cur prev) fun r =>
      (∃ κ : ℝ, ∀ i, 1 ≤ i → i ≤ 4 → ∀ j, 1 ≤ j → j ≤ len (T.lmprbl.getD L []) i →
        logAmp r.1 (before (T.lmprbl.getD L []) i + j) - prediction 0.65 (fun i => logAmp prev (max 1 i)) M L (before (T.lmprbl.getD L []) i + j) =
          idct (len (T.lmprbl.getD L []) i) (ambeCoef (shapeOf T f) (idct 8 (gmOf (shapeOf T f))) i) j + κ) ∧
      (∀ l : Fin 57, 1 ≤ l.val → l.val ≤ L → r.1.Ml l =
        if r.1.Vl l = 1 then (2 : ℝ) ^ (r.1.log2Ml l) else unvc * (2 : ℝ) ^ (r.1.log2Ml l)) ∧
      r.1.w0 = cur.w0 ∧ r.1.L = cur.L ∧ r.1.Vl = cur.Vl := by
  obtain ⟨r1, r2, r3⟩ := hT.lmr L (by omega) h9
  obtain ⟨b1, b2, b3, b4, b5⟩ := lens4 r1
  have hd3 := hB.2.2.1
  have hd4 := hB.2.2.2.1
  have hd5 := hB.2.2.2.2.1
  have hd6 := hB.2.2.2.2.2.1
  have t5 := hB.2.2.2.2.2.2.2.2.2.1
  have t6 := hB.2.2.2.2.2.2.2.2.2.2.1
  have t7 := hB.2.2.2.2.2.2.2.2.2.2.2.1
  have t8 := hB.2.2.2.2.2.2.2.2.2.2.2.2.1
  unfold ambeBody
  refine Post.bind Post.true fun g _ => ?_
  dsimp only
  refine Post.bind (ambeGm_r hB f) fun G hG => ?_
  refine Post.bind (idctRi_r rfl hG) fun R hR => ?_
  refine Post.bind (ambeCik12_r (S := shapeOf T f) hR) fun C hC => ?_
  rw [tabI_getD (x := []) (by rw [hT.lm]; omega), ok_bind]
  generalize T.lmprbl.getD L [] = J at *
  rw [tab_getD (x := 0) (by omega), ok_bind, tab_getD (x := 0) (by omega), ok_bind, tab_getD (x := 0) (by omega), ok_bind,
    tab_getD (x := 0) (by omega), ok_bind]
  change Post (ambeHoc T.hoc5 T.hoc5Den f.b5 1 (len J 1) C >>= fun C => ambeHoc T.hoc6 T.hoc6Den f.b6 2 (len J 2) C >>= fun C =>
    ambeHoc T.hoc7 T.hoc7Den f.b7 3 (len J 3) C >>= fun C => ambeHoc T.hoc8 T.hoc8Den f.b8 4 (len J 4) C >>= fun C =>
    idctBlock (fillCache 9 18) C 1 (len J 1) (Arr.const 57 (fi 0), 1) >>= fun s => idctBlock (fillCache 9 18) C 2 (len J 2) s >>= fun s =>
    idctBlock (fillCache 9 18) C 3 (len J 3) s >>= fun s => idctBlock (fillCache 9 18) C 4 (len J 4) s >>= fun s => _) _
  refine Post.bind (ambeHoc_r hd3 t5 (h2 1 (by omega) (by omega)) le_rfl (fun k => rfl) hC rfl) fun C hC => ?_
  refine Post.bind (ambeHoc_r hd4 t6 (h2 2 (by omega) (by omega)) (by omega) (fun k => rfl) hC rfl) fun C hC => ?_
  refine Post.bind (ambeHoc_r hd5 t7 (h2 3 (by omega) (by omega)) (by omega) (fun k => rfl) hC rfl) fun C hC => ?_
  refine Post.bind (ambeHoc_r hd6 t8 (h2 4 (by omega) (by omega)) (by omega) (fun k => rfl) hC rfl) fun C hC => ?_
  refine Post.bind (idctBlock_r (l := 0) (J := len J 1) (hC 1 (by omega) (by omega)) rfl) fun s1 hs1 => ?_
  refine Post.bind (idctBlock_r (J := len J 2) (hC 2 (by omega) (by omega)) hs1.1) fun s2 hs2 => ?_
  refine Post.bind (idctBlock_r (J := len J 3) (hC 3 (by omega) (by omega)) hs2.1) fun s3 hs3 => ?_
  refine Post.bind (idctBlock_r (J := len J 4) (hC 4 (by omega) (by omega)) hs3.1) fun s hs4 => ?_
  refine Post.bind (P := fun q => q.L = (M : Int) ∧ ∀ i, 1 ≤ i → i ≤ M → logAmp q i = logAmp prev i) ?_ fun q hq => ?_
  · intro q hq
    have h1 := extendPrev_post _ _ q hq
    have h2 := extendPrev_keep _ _ q hq
    refine ⟨by rw [h1]; exact hM, fun i hi1 hi => ?_⟩
    unfold logAmp
    rw [Arr.getD_lt (by omega), Arr.getD_lt (by omega)]
    exact (h2 ⟨i, by omega⟩ hi1 (by rw [hM]; exact_mod_cast hi)).2
  refine Post.bind Arr.rd_post fun x hx => Post.bind Arr.wr_post fun G0 hG0 => ?_
  refine Post.bind Post.true fun _ _ => Post.bind Post.true fun Mm _ => ?_
  obtain ⟨_, rfl⟩ := hx
  obtain ⟨_, _, rfl⟩ := hG0
  have hq' : ∀ k, k ≤ M → (Arr.set q.log2Ml 0 (q.log2Ml 1)).getD k 0 = logAmp prev (max 1 k) := by
    intro k hk
    by_cases e : k = 0
    · subst e
      rw [Arr.getD_lt (by decide), Arr.set_same (show (⟨0, by decide⟩ : Fin 57).val = 0 from rfl)]
      have := hq.2 1 le_rfl hM1
      unfold logAmp at this
      rw [Arr.getD_lt (by decide)] at this
      exact this
    · rw [Arr.getD_lt (by omega), Arr.set_ne (by exact e)]
      have := hq.2 k (by omega) hk
      unfold logAmp at this ⊢
      rw [Arr.getD_lt (by omega)] at this
      rw [this, show max 1 k = k by omega]
  have hq'' : ∀ k, k ≤ M → logAmp { q with log2Ml := Arr.set q.log2Ml (0 : Int).toNat (q.log2Ml ⟨(1 : Int).toNat, by decide⟩), Ml := Mm } k =
      logAmp prev (max 1 k) := hq'
  have hqL : ({ q with log2Ml := Arr.set q.log2Ml (0 : Int).toNat (q.log2Ml ⟨(1 : Int).toNat, by decide⟩), Ml := Mm } : Parms ℝ).L = (M : Int) := hq.1
  generalize ({ q with log2Ml := Arr.set q.log2Ml (0 : Int).toNat (q.log2Ml ⟨(1 : Int).toNat, by decide⟩), Ml := Mm } : Parms ℝ) = Q at hq'' hqL ⊢
  refine Post.bind (predict1_r lax _ _) fun p hp => ?_
  refine Post.bind Post.true fun s42 _ => ?_
  refine Post.bind (predict3_ex lax _ _ p.1 p.2.1 hp.1 _ _ _ _ _) fun c hc => Post.pure ?_
  obtain ⟨κ, c1, c2, c3⟩ := hc
  rw [Int.toNat_natCast] at c1 c2 hp
  have hTl : ∀ i, 1 ≤ i → i ≤ 4 → ∀ j, 1 ≤ j → j ≤ len J i → ∀ h : before J i + j < 57,
      s.1 ⟨before J i + j, h⟩ = idct (len J i) (ambeCoef (shapeOf T f) (idct 8 (gmOf (shapeOf T f))) i) j := by
    intro i i1 i2 j j1 j2 h
    have h4 := hs4.2 ⟨before J i + j, h⟩
    have h3 := hs3.2 ⟨before J i + j, h⟩
    have h2 := hs2.2 ⟨before J i + j, h⟩
    have h1 := hs1.2 ⟨before J i + j, h⟩
    dsimp only at h1 h2 h3 h4
    obtain rfl | rfl | rfl | rfl : i = 1 ∨ i = 2 ∨ i = 3 ∨ i = 4 := by omega
    · rw [h4, if_neg (by omega), h3, if_neg (by omega), h2, if_neg (by omega), h1, if_pos (by omega)]
      congr 1; omega
    · rw [h4, if_neg (by omega), h3, if_neg (by omega), h2, if_pos (by omega)]
      congr 1; omega
    · rw [h4, if_neg (by omega), h3, if_pos (by omega)]
      congr 1; omega
    · rw [h4, if_pos (by omega)]
      congr 1; omega
  refine ⟨⟨κ, fun i i1 i2 j j1 j2 => ?_⟩, c2, by rw [c3], by rw [c3], by rw [c3]⟩
  · have hbl : before J i + len J i ≤ L := by
      obtain rfl | rfl | rfl | rfl : i = 1 ∨ i = 2 ∨ i = 3 ∨ i = 4 := by omega
      all_goals omega
    have hlt : before J i + j < 57 := by omega
    show logAmp c _ - _ = _
    rw [← hTl i i1 i2 j j1 j2 hlt]
    have hpr := prediction_eq (lax := lax) hqL hM' (show 1 ≤ L by omega) hq'' 0.65 (show before J i + j ≤ L by omega)
    rw [← hpr]
    unfold logAmp
    rw [Arr.getD_lt hlt, (c1 ⟨_, hlt⟩ (by show 1 ≤ before J i + j; omega) (by show before J i + j ≤ L; omega)), hp.2]
    have e65 : (toF (dlit 65 100) : ℝ) = 65 / 100 := by
      rw [RealArith.toF_r, RealArith.dlit_r _ _ (by decide)]; norm_num
    rw [e65, show (0.65 : ℝ) = 65 / 100 by norm_num]
    show _ + _ - (65 / 100 / (((L : Nat) : Int) : ℝ)) * _ + _ - _ = _
    ring

theorem sqrtTwo_ne : Real.sqrt 2 ≠ 0 := by positivity

/-- Blocks with the coefficients of `S` and a common offset have the shape `S`. -/
theorem hasShape_of_blocks {S : Shape} {L : Nat} {x : Nat → ℝ} {κ : ℝ} (h2 : ∀ i, 1 ≤ i → i ≤ 4 → 2 ≤ len (S.lens.getD L []) i)
    (hx : ∀ i, 1 ≤ i → i ≤ 4 → ∀ j, 1 ≤ j → j ≤ len (S.lens.getD L []) i →
      x (before (S.lens.getD L []) i + j) = idct (len (S.lens.getD L []) i) (ambeCoef S (idct 8 (gmOf S)) i) j + κ) :
    HasShape S L x := by
  unfold HasShape
  generalize S.lens.getD L [] = J at *
  have key : ∀ i, 1 ≤ i → i ≤ 4 → ∀ k, 1 ≤ k → k ≤ len J i → blockDct J x i k =
      if k = 1 then ambeCoef S (idct 8 (gmOf S)) i k + κ else ambeCoef S (idct 8 (gmOf S)) i k := by
    intro i i1 i2 k k1 k2
    unfold blockDct
    refine Eq.trans ?_ (dct_idct (fun k => if k = 1 then ambeCoef S (idct 8 (gmOf S)) i k + κ else ambeCoef S (idct 8 (gmOf S)) i k) k1 k2)
    refine dct_congr fun j j1 j2 => ?_
    rw [hx i i1 i2 j j1 j2, idct_add_const (by omega)]
  refine ⟨fun m m1 m2 => ?_, fun i i1 i2 k k1 k2 => ?_⟩
  · have e : (fun m => if m = 1 then gmOf S m + κ else gmOf S m) m = S.vector m := by
      dsimp only
      unfold gmOf
      rw [if_neg (by omega), if_neg (by omega)]
    refine Eq.trans ?_ ((dct_idct (fun m => if m = 1 then gmOf S m + κ else gmOf S m) (show 1 ≤ m by omega) m2).trans e)
    refine dct_congr fun n n1 n2 => ?_
    rw [← idct_add_const (by decide)]
    have main : ∀ i, 1 ≤ i → i ≤ 4 →
        blockDct J x i 1 + Real.sqrt 2 * blockDct J x i 2 = idct 8 (gmOf S) (2 * i - 1) + κ ∧
        blockDct J x i 1 - Real.sqrt 2 * blockDct J x i 2 = idct 8 (gmOf S) (2 * i) + κ := by
      intro i i1 i2
      have hl := h2 i i1 i2
      rw [key i i1 i2 1 le_rfl (by omega), key i i1 i2 2 (by omega) hl, if_pos rfl, if_neg (by decide)]
      unfold ambeCoef
      rw [if_pos rfl, if_neg (by decide), if_pos rfl]
      have := sqrtTwo_ne
      constructor
      · field_simp
        ring
      · field_simp
        ring
    unfold vector8
    by_cases c : n % 2 = 1
    · rw [if_pos c, (main ((n + 1) / 2) (by omega) (by omega)).1, show 2 * ((n + 1) / 2) - 1 = n by omega]
    · rw [if_neg c, (main (n / 2) (by omega) (by omega)).2, show 2 * (n / 2) = n by omega]
  · rw [key i i1 i2 k (by omega) k2, if_neg (by omega)]
    unfold ambeCoef
    rw [if_neg (by omega), if_neg (by omega)]

/-- What a voice frame says about the spectrum. -/
structure VoiceSpectrum (S : Shape) (prev cur : Parms ℝ) (f0 : ℝ) : Prop where
  shape : HasShape S cur.L.toNat (ambeResidual cur prev)
  amp : ∀ l, 1 ≤ l → l ≤ cur.L.toNat → cur.Ml.getD l 0 =
    (if cur.Vl.getD l 0 = 1 then 1 else 0.2046 / Real.sqrt cur.w0) * (2 : ℝ) ^ logAmp cur l
  w0 : cur.w0 = 2 * Real.pi * f0

theorem unvc_r (w : ℝ) : (ambeUnvc w : ℝ) = 0.2046 / Real.sqrt w := by
  unfold ambeUnvc
  rw [RealArith.div_r, RealArith.toF_r, RealArith.dlit_r _ _ (by decide)]
  show _ / Real.sqrt w = _
  norm_num

theorem ambeBody_spectrum {lax : Bool} {T : AmbeTabs} (hT : T.Shape) (hB : T.Bnd) (f : AmbeFields) {L M : Nat} (h9 : 9 ≤ L) (hL : L ≤ 56)
    (h2 : ∀ i, 1 ≤ i → i ≤ 4 → 2 ≤ len (T.lmprbl.getD L []) i) {f0 : ℝ} (cur prev : Parms ℝ) (hM : prev.L = (M : Int)) (hM1 : 1 ≤ M)
    (hM' : M ≤ 56) (hc : cur.L = (L : Int)) (hw : cur.w0 = 2 * Real.pi * f0) :
    Post (ambeBody lax T f (L : Int) (ambeUnvc cur.w0) (fillCache 9 18) cur prev) fun r => VoiceSpectrum (shapeOf T f) prev r.1 f0 := by
  refine (ambeBody_blocks hT hB f h9 hL h2 _ cur prev hM hM1 hM').mono ?_
  rintro ⟨c, p⟩ ⟨⟨κ, h1⟩, h3, h4, h5, h6⟩
  dsimp only at h1 h3 h4 h5 h6 ⊢
  have hcL : c.L.toNat = L := by rw [h5, hc]; rfl
  have hpM : prev.L.toNat = M := by omega
  refine ⟨?_, fun l l1 l2 => ?_, by rw [h4]; exact hw⟩
  · rw [hcL]
    refine hasShape_of_blocks (κ := κ) (show ∀ i, 1 ≤ i → i ≤ 4 → 2 ≤ len ((shapeOf T f).lens.getD L []) i from h2)
      fun i i1 i2 j j1 j2 => ?_
    unfold ambeResidual
    rw [hcL, hpM]
    exact h1 i i1 i2 j j1 j2
  · have hl : l < 57 := by omega
    unfold logAmp
    rw [Arr.getD_lt hl, Arr.getD_lt hl, Arr.getD_lt hl, h3 ⟨l, hl⟩ l1 (by show l ≤ L; omega), h4, unvc_r]
    split <;> simp

theorem lens2450_ge : ∀ L < 57, 9 ≤ L → ∀ i < 5, 1 ≤ i → 2 ≤ len (AmbeLmprbl.getD L []) i := by decide +kernel
theorem lens2400_ge : ∀ L < 57, 9 ≤ L → ∀ i < 5, 1 ≤ i → 2 ≤ len (AmbePlusLmprbl.getD L []) i := by decide +kernel

theorem fields2450_shape {d : Nat → Int} (hd : Bits 49 d) : Post (fields2450 d) fun f => shapeOf tabs2450 f = shape2450Of d := by
  unfold fields2450
  rw [orField_eq hd (by decide), ok_bind, orField_eq hd (by decide), ok_bind, orField_eq hd (by decide), ok_bind,
    orField_eq hd (by decide), ok_bind, orField_eq hd (by decide), ok_bind, orField_eq hd (by decide), ok_bind,
    orField_eq hd (by decide), ok_bind]
  exact Post.pure rfl

theorem fields2400_shape {d : Nat → Int} (hd : Bits 49 d) : Post (fields2400 d) fun f => shapeOf tabs2400 f = shape2400Of d := by
  unfold fields2400
  rw [orField_eq hd (by decide), ok_bind, orField_eq hd (by decide), ok_bind, orField_eq hd (by decide), ok_bind,
    orField_eq hd (by decide), ok_bind, orField_eq hd (by decide), ok_bind, orField_eq hd (by decide), ok_bind,
    orField_eq hd (by decide), ok_bind]
  refine Post.pure ?_
  rw [Nat.shiftLeft_eq, Nat.pow_one, Nat.mul_comm]
  rfl

theorem cache2450_fill {E : Env ℝ} {t : Tls ℝ} (h : CacheOk E t) : (ambe2450GetCache t).1 = fillCache 9 18 := by
  unfold ambe2450GetCache
  cases h1 : t.ambe2450Cache with
  | some c => exact h.2.1 c h1
  | none => rfl

theorem cache2400_fill {E : Env ℝ} {t : Tls ℝ} (h : CacheOk E t) : (ambe2400GetCache t).1 = fillCache 9 18 := by
  unfold ambe2400GetCache
  cases h1 : t.ambe2400Cache with
  | some c => exact h.2.2.1 c h1
  | none => rfl

theorem header2450_spectrum (b0 : Nat) (cur : Parms ℝ) : Post (ambe2450Header b0 cur) fun h =>
    9 ≤ h.2.2 ∧ h.2.2 ≤ 56 ∧ h.2.1.L = h.2.2 ∧ h.2.1.w0 = 2 * Real.pi * ambeF0_2450 b0 := by
  unfold ambe2450Header
  refine Post.ite (fun h => ?_) fun h => ?_
  · refine Post.bind Post.true fun _ _ => Post.pure ?_
    dsimp only
    refine ⟨?_, ?_, rfl, ?_⟩
    · split <;> omega
    · split <;> omega
    · rw [RealArith.mul_r, RealArith.div_r, RealArith.fpi_r, RealArith.toF_r, RealArith.dmul_r, RealArith.mpi_r,
        RealArith.dlit_r _ _ (by decide), RealArith.lit_r _ _ (by decide)]
      unfold ambeF0_2450
      rw [if_pos (by simpa using h)]
      push_cast
      ring
  · refine Post.bind tab_post fun y hy => ?_
    refine Post.bind tab_post fun x hx => Post.bind (toI32_int_r _) fun L hL => Post.pure ?_
    subst hL
    have := List.all_eq_true.mp ltabAll _ (List.mem_of_getElem? hx)
    rw [decide_eq_true_eq] at this
    refine ⟨this.1, this.2, rfl, ?_⟩
    have hb : (AmbeW0table.all fun x => decide (|x| ≤ 100000000)) = true := by decide +kernel
    have hb := List.all_eq_true.mp hb _ (List.mem_of_getElem? hy)
    rw [decide_eq_true_eq] at hb
    show ambeW0 _ = _
    rw [ambeW0_r, ftab_r hb (by decide)]
    unfold ambeF0_2450
    rw [if_neg (by simpa using h), getD_of_some hy]
    ring

theorem ambe2450Voice_spectrum {lax : Bool} {d : Nat → Int} (hd : Bits 49 d) {b0 M : Nat} {E : Env ℝ} {cur prev : Parms ℝ} {t : Tls ℝ}
    (ht : CacheOk E t) (hM : prev.L = (M : Int)) (hM1 : 1 ≤ M) (hM' : M ≤ 56) :
    Post (ambe2450Voice lax d b0 cur prev t) fun r => VoiceSpectrum (shape2450Of d) prev r.cur (ambeF0_2450 b0) := by
  unfold ambe2450Voice
  refine Post.bind (header2450_spectrum _ _) fun h hh => ?_
  obtain ⟨h1, h2, h3, h4⟩ := hh
  obtain ⟨f0, c, L⟩ := h
  dsimp only at h1 h2 h3 h4 ⊢
  obtain ⟨n, rfl⟩ := Int.eq_ofNat_of_zero_le (show 0 ≤ L by omega)
  refine Post.bind Post.true fun b1 _ => Post.bind Post.true fun V _ => ?_
  refine Post.bind (fields2450_shape hd) fun f hf => ?_
  rw [← hf, cache2450_fill ht]
  exact Post.bind (ambeBody_spectrum shape2450 bnd2450 f (by omega) (by omega)
    (fun i i1 i2 => lens2450_ge n (by omega) (by omega) i (by omega) i1) _ prev hM hM1 hM' h3 h4) fun r hr => Post.pure hr

theorem ambe2400Voice_spectrum {lax : Bool} {d : Nat → Int} (hd : Bits 49 d) {b0 M : Nat} {E : Env ℝ} {cur prev : Parms ℝ} {t : Tls ℝ}
    (ht : CacheOk E t) (hM : prev.L = (M : Int)) (hM1 : 1 ≤ M) (hM' : M ≤ 56) :
    Post (ambe2400Voice lax d b0 cur prev t) fun r => VoiceSpectrum (shape2400Of d) prev r.cur (ambeF0_2400 b0) := by
  unfold ambe2400Voice
  refine Post.bind tab_post fun x hx => Post.bind (toI32_int_r _) fun L hL => ?_
  subst hL
  have := List.all_eq_true.mp ltabPlusAll _ (List.mem_of_getElem? hx)
  rw [decide_eq_true_eq] at this
  obtain ⟨h1, h2⟩ := this
  obtain ⟨n, rfl⟩ := Int.eq_ofNat_of_zero_le (show 0 ≤ L by omega)
  refine Post.bind Post.true fun b1 _ => Post.bind Post.true fun V _ => ?_
  refine Post.bind (fields2400_shape hd) fun f hf => ?_
  dsimp only
  rw [← hf, cache2400_fill ht]
  refine Post.bind (ambeBody_spectrum (f0 := ambeF0_2400 b0) shape2400 bnd2400 f (by omega) (by omega)
    (fun i i1 i2 => lens2400_ge n (by omega) (by omega) i (by omega) i1) _ prev hM hM1 hM' rfl ?_) fun r hr => Post.pure hr
  show ambeW0 _ = _
  rw [ambeW0_r, f0Of2400_r]
  unfold ambeF0_2400 y2400
  push_cast
  norm_num
  ring

end Verif.Model
