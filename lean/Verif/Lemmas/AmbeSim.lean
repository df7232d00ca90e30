import Verif.Lemmas.AmbeNear
import Verif.Lemmas.LogSim

/-!
# The AMBE log amplitudes in binary32 against exact arithmetic: one frame
-/

namespace Verif.Model
open Verif Verif.Gen Verif.Spec Verif.Num Arith
variable {m : Libm}

/-- All log amplitudes are numbers of moderate size, the float behind the array is 0. -/
structure ALogOk (p : Parms (IEEE m)) : Prop where
  num : ∀ i, Val (p.log2Ml i) (fq (p.log2Ml i)) ∧ |(fq (p.log2Ml i) : ℝ)| ≤ 265
  phi : Val (p.PHIl 0) 0

/-- The parameter set with the muting threshold of the AMBE decoders, which plays no role in what follows. -/
def athr {F : Type} [Arith F] (p : Parms F) : Parms F := { p with mutingThreshold := mutingAmbe }

/-- The two parameter sets have the same number of bands, and gains and log amplitudes close to each other. -/
structure AClose (p : Parms (IEEE m)) (p' : Parms ℝ) : Prop where
  L_eq : p.L = p'.L
  ok : ALogOk p
  set : ASet (athr p')
  gamma : Near (1 / 100000) 13.8 p.gamma p'.gamma
  diff : ∀ i j : Fin 57, 1 ≤ i.val → (i.val : Int) ≤ p'.L → 1 ≤ j.val → (j.val : Int) ≤ p'.L → lerr p p' i - lerr p p' j ≤ 7 / 100
  band : ∀ i : Fin 57, 1 ≤ i.val → (i.val : Int) ≤ p'.L → |lerr p p' i| ≤ 58 / 1000

theorem ALogOk.of {p q : Parms (IEEE m)} (h : ALogOk p) (hj : ∀ i, ∃ j, q.log2Ml i = p.log2Ml j) (hp : q.PHIl 0 = p.PHIl 0) : ALogOk q :=
  ⟨fun i => by obtain ⟨j, e⟩ := hj i; rw [e]; exact h.num j, by rw [hp]; exact h.phi⟩

theorem ALogOk.logVal {p : Parms (IEEE m)} (h : ALogOk p) : LogVal 265 p (logU p) := by
  refine ⟨fun i => ?_, ?_, fun i => ?_⟩
  · unfold logU
    rw [dif_pos i.isLt]
    exact (h.num i).1
  · exact h.phi
  · unfold logU
    split
    · exact (h.num _).2
    · norm_num

/-- Parameter sets that agree in the bands are close to the same sets. -/
theorem AClose.of {p q : Parms (IEEE m)} {p' q' : Parms ℝ} (h : AClose p p') (hok : ALogOk q) (hL : q.L = p.L) (hL' : q'.L = p'.L)
    (hg : q.gamma = p.gamma) (hg' : q'.gamma = p'.gamma) (hs : ASet (athr q'))
    (hk : ∀ i : Fin 57, 1 ≤ i.val → (i.val : Int) ≤ p.L → q.log2Ml i = p.log2Ml i)
    (hk' : ∀ i : Fin 57, 1 ≤ i.val → (i.val : Int) ≤ p'.L → q'.log2Ml i = p'.log2Ml i) : AClose q q' := by
  have e : ∀ i : Fin 57, 1 ≤ i.val → (i.val : Int) ≤ p'.L → lerr q q' i = lerr p p' i := by
    intro i h1 hi
    unfold lerr
    rw [hk i h1 (by rw [h.L_eq]; exact hi), hk' i h1 hi]
  refine ⟨by rw [hL, hL', h.L_eq], hok, hs, by rw [hg, hg']; exact h.gamma, fun i j a b c d => ?_, fun i a b => ?_⟩
  · rw [hL'] at b d
    rw [e i a b, e j c d]; exact h.diff i j a b c d
  · rw [hL'] at b
    rw [e i a b]; exact h.band i a b

theorem AClose.same {p q : Parms (IEEE m)} {p' : Parms ℝ} (h : AClose p p') (hok : ALogOk q) (hL : q.L = p.L) (hg : q.gamma = p.gamma)
    (hk : ∀ i : Fin 57, 1 ≤ i.val → (i.val : Int) ≤ p.L → q.log2Ml i = p.log2Ml i) : AClose q p' :=
  h.of hok hL rfl hg rfl h.set hk fun _ _ _ => rfl

/-- The previous set as the prediction reads it: the first band is copied to element 0. -/
theorem prevCopy {F : Type} [Arith F] {L : Int} {prev pe : Parms F} {x : F} {y M : Arr 57 F} (h : 1 ≤ prev.L) (h' : prev.L ≤ 56)
    (he : extendPrev L prev = .ok pe) (hx : pe.log2Ml.rd 1 = .ok x) (hy : pe.log2Ml.wr 0 x = .ok y) {q : Parms F}
    (hq : q = { pe with log2Ml := y, Ml := M }) :
    q.L = prev.L ∧ (∀ i : Fin 57, 1 ≤ i.val → (i.val : Int) ≤ prev.L → q.log2Ml i = prev.log2Ml i) ∧ q.log2Ml 0 = prev.log2Ml 1 ∧
      (∀ i, ∃ j, q.log2Ml i = prev.log2Ml j) ∧ q.PHIl = prev.PHIl := by
  obtain ⟨a1, a2, a3, a4⟩ := extendPrev_logs (by omega) h' _ he
  obtain ⟨_, rfl⟩ := Arr.rd_post _ hx
  obtain ⟨_, _, rfl⟩ := Arr.wr_post _ hy
  subst hq
  refine ⟨a1, fun i h1 h2 => ?_, ?_, fun i => ?_, a4⟩
  · show Arr.set pe.log2Ml _ _ i = _
    rw [Arr.set_ne (by show i.val ≠ 0; omega)]
    exact a2 i h2
  · refine (Arr.set_same (a := pe.log2Ml) (i := (0 : Int).toNat) (j := (0 : Fin 57)) rfl).trans ?_
    exact a2 1 (by show ((1 : Nat) : Int) ≤ _; omega)
  · show ∃ j, Arr.set pe.log2Ml _ _ i = _
    by_cases e : i.val = (0 : Int).toNat
    · rw [Arr.set_same e]; exact a3 _
    · rw [Arr.set_ne e]; exact a3 _

/-- The log amplitudes of a decoded frame. -/
theorem ambeBody_close (hl : Log2Acc m) {lax lax' : Bool} {T : AmbeTabs} (hT : T.Bnd) {f : AmbeFields} {L : Nat} (hL : 9 ≤ L) (hL' : L ≤ 56)
    {u : IEEE m} {u' : ℝ} {c : DctCache (IEEE m) 9 18} {c' : DctCache ℝ 9 18} (hc : CacheNear c c')
    {cur prev : Parms (IEEE m)} {cur' prev' : Parms ℝ} (hp : AClose prev prev') :
    Rel2 (fun (r : Parms (IEEE m) × Parms (IEEE m)) (r' : Parms ℝ × Parms ℝ) => ALogOk r.2 ∧
        (∀ i : Fin 57, i.val < 1 ∨ L < i.val → r.1.log2Ml i = cur.log2Ml i) ∧
        r.1 = { cur with gamma := r.1.gamma, log2Ml := r.1.log2Ml, Ml := r.1.Ml } ∧
        Near (1 / 100000) 13.8 r.1.gamma r'.1.gamma ∧
        (∀ l : Fin 57, 1 ≤ l.val → l.val ≤ L → Val (r.1.log2Ml l) (fq (r.1.log2Ml l))) ∧
        (∀ i j : Fin 57, 1 ≤ i.val → i.val ≤ L → 1 ≤ j.val → j.val ≤ L → lerr r.1 r'.1 i - lerr r.1 r'.1 j ≤ 7 / 100) ∧
        (∀ i : Fin 57, 1 ≤ i.val → i.val ≤ L → |lerr r.1 r'.1 i| ≤ 58 / 1000) ∧
        ∀ l : Fin 57, 1 ≤ l.val → l.val ≤ L → r.1.Ml l = if cur.Vl l = 1 then exp2 (r.1.log2Ml l) else u *ᶠ exp2 (r.1.log2Ml l))
      (ambeBody lax T f (L : Int) u c cur prev) (ambeBody lax' T f (L : Int) u' c' cur' prev') := by
  intro r r' hr hr'
  obtain ⟨dg, R, pe, x, y, e1, e2, e3, e4, e5, ⟨M, e6⟩, e7⟩ := ambeBody_run hr
  obtain ⟨dg', R', pe', x', y', f1, f2, f3, f4, f5, ⟨M', f6⟩, f7⟩ := ambeBody_run hr'
  have hdd : dg' = dg := ok_inj (f1.symm.trans e1)
  subst hdd
  have plo : 9 ≤ prev'.L := hp.set.lo
  have phi : prev'.L ≤ 56 := hp.set.hi
  have hLe := hp.L_eq
  obtain ⟨a1, a2, a3, a4, a5⟩ := prevCopy (by omega) (by omega) e3 e4 e5 e6
  obtain ⟨b1, b2, b3, b4, b5⟩ := prevCopy (by omega) (by omega) f3 f4 f5 f6
  have hok : ALogOk r.2 := hp.ok.of a4 (by rw [a5])
  have hR := ambeResidual_near hc hT f (L : Int) _ _ e2 f2
  obtain ⟨P, hP⟩ := Int.eq_ofNat_of_zero_le (show 0 ≤ prev'.L by omega)
  replace hP : prev'.L = (P : Int) := hP
  have hP0 : r.2.L = (P : Int) := by rw [a1, hLe, hP]
  have hP1 : r'.2.L = (P : Int) := by rw [b1, hP]
  have hPle : P ≤ 56 := by omega
  have hU := hok.logVal
  -- the gain
  have hdgb : |dg'| ≤ 6900000 := by
    have h := hT.2.2.2.2.2.2.2.2.2.2.2.2.2.1
    rw [List.all_eq_true] at h
    simpa using h dg' (List.mem_of_getElem? (tab_post _ e1))
  have hden : T.dgDen = 1000000 := hT.2.2.2.2.2.2.1
  have hg := gammaA_near hden hdgb hp.gamma
  -- binary32
  unfold ambeRun at e7 f7
  obtain ⟨q, e8, e7⟩ := bind_ok e7
  obtain ⟨s, e9, e7⟩ := bind_ok e7
  obtain ⟨q', f8, f7⟩ := bind_ok f7
  obtain ⟨s', f9, f7⟩ := bind_ok f7
  obtain ⟨g1, g2⟩ := predictA1_near hPle (by omega) hL' hP0 hU _ e8
  have h42 := sum42_near hL hL' hR _ e9
  have hG := bigGamma_near hl hL hL' hg h42
  obtain ⟨k1, k2, k4, k3⟩ := predict3_near hPle hL hL' hU g1 (sum43_near hL hL' g2) hG hR _ _ e7
  -- exact
  obtain ⟨j1, j2⟩ := predict1_r lax' _ _ _ f8
  have j42 := sum42_r _ _ _ f9
  obtain ⟨i1, i2, i3⟩ := predict3_r lax' _ _ _ _ j1 _ _ _ _ _ _ f7
  rw [j2, j42] at i1
  simp only [Int.toNat_natCast] at i1 i2
  have hgr : r'.1.gamma = ftab dg' T.dgDen + 1 / 2 * prev'.gamma := by
    rw [i3]
    show ftab dg' T.dgDen + toF (dlit 5 10) * prev'.gamma = _
    rw [dhalf_r]
  have hgi : r.1.gamma = ftab dg' T.dgDen +ᶠ (toF (dlit 5 10) *ᶠ prev.gamma) := by rw [k3]
  -- the interpolation of the errors
  let fk : Parms ℝ := { r'.2 with log2Ml := lerr r.2 r'.2 }
  have hfk : ∀ l : Nat, l ≤ L → predQ lax (L : Int) fk l = itp (fun i => ((logU r.2 i : ℚ) : ℝ)) (posR (P : Int) (L : Int) l) - predQ lax' (L : Int) r'.2 l := by
    intro l hl
    rw [predQ_itp lax (p := fk) (by show 0 ≤ r'.2.L; omega) (by show r'.2.L ≤ 56; omega) (by omega) (by omega),
      predQ_itp lax' (p := r'.2) (by omega) (by omega) (by omega) (by omega), show fk.L = (P : Int) from hP1, ← itp_sub]
    congr 1
    funext i
    unfold logU
    by_cases c : i < 57
    · rw [Arr.getD_lt c, Arr.getD_lt c, dif_pos c]
      rfl
    · unfold Arr.getD
      rw [dif_neg c, dif_neg c, dif_neg c]
      norm_num
  let Γ : ℝ := ftab dg' T.dgDen + 1 / 2 * prev'.gamma - 1 / 2 * Real.logb 2 L - (∑ l ∈ Finset.Icc 1 L, R'.getD l 0) / L
  let η : Nat → ℝ := fun l => if h : 1 ≤ l ∧ l ≤ L then (fq (r.1.log2Ml ⟨l, by omega⟩) : ℝ) -
    (R' ⟨l, by omega⟩ + 65 / 100 * itp (fun i => ((logU r.2 i : ℚ) : ℝ)) (posR (P : Int) (L : Int) l) -
      65 / 100 / L * (∑ l ∈ Finset.Icc 1 L, itp (fun i => ((logU r.2 i : ℚ) : ℝ)) (posR (P : Int) (L : Int) l)) + Γ) else 0
  have hη : ∀ l, |η l| ≤ 12 / 1000 := by
    intro l
    dsimp only [η, Γ]
    split
    · rename_i h
      obtain ⟨x, v, b, _⟩ := k1 ⟨l, by omega⟩ h.1 h.2
      rw [Val.fq_eq v]
      exact b
    · norm_num
  have hval : ∀ l : Fin 57, 1 ≤ l.val → l.val ≤ L → Val (r.1.log2Ml l) (fq (r.1.log2Ml l)) := by
    intro l l1 l2
    obtain ⟨x, v, _, _⟩ := k1 l l1 l2
    rw [Val.fq_eq v]
    exact v
  have hsum : ∑ k ∈ Finset.Icc 1 L, predQ lax (L : Int) fk k =
      (∑ l ∈ Finset.Icc 1 L, itp (fun i => ((logU r.2 i : ℚ) : ℝ)) (posR (P : Int) (L : Int) l)) - ∑ l ∈ Finset.Icc 1 L, predQ lax' (L : Int) r'.2 l := by
    rw [← Finset.sum_sub_distrib]
    exact Finset.sum_congr rfl fun l hl => hfk l (Finset.mem_Icc.mp hl).2
  have herr : ∀ l : Fin 57, 1 ≤ l.val → l.val ≤ L → lerr r.1 r'.1 l =
      η l + 65 / 100 * predQ lax (L : Int) fk l - 65 / 100 / ((L : Int) : ℝ) * ∑ k ∈ Finset.Icc 1 (L : Int).toNat, predQ lax (L : Int) fk k := by
    intro l l1 l2
    rw [Int.toNat_natCast, hsum, hfk l l2]
    dsimp only [η]
    rw [dif_pos ⟨l1, l2⟩]
    unfold lerr
    rw [(i1 l l1 l2).1]
    have e1 : ((toF (dlit 65 100) /ᶠ Arith.ofInt (L : Int)) *ᶠ (∑ l ∈ Finset.Icc 1 L, predQ lax' (L : Int) r'.2 l) : ℝ) =
        65 / 100 / (L : ℝ) * (∑ l ∈ Finset.Icc 1 L, predQ lax' (L : Int) r'.2 l) := by
      rw [c65_r]
      rfl
    have e2 : (((ftab dg' T.dgDen +ᶠ (toF (dlit 5 10) *ᶠ prev'.gamma)) -ᶠ (lit 5 10 *ᶠ log2 (Arith.ofInt (L : Int)))) -ᶠ
        ((∑ l ∈ Finset.Icc 1 L, R'.getD l 0) /ᶠ Arith.ofInt (L : Int)) : ℝ) = Γ := by
      rw [dhalf_r, lit5_r]
      rfl
    rw [e1, e2]
    push_cast
    ring
  have hdiff : ∀ i j : Fin 57, (i.val : Int) ≤ fk.L → (j.val : Int) ≤ fk.L → fk.log2Ml i - fk.log2Ml j ≤ 7 / 100 := by
    have key : ∀ i : Fin 57, (i.val : Int) ≤ r'.2.L → ∃ k : Fin 57, 1 ≤ k.val ∧ (k.val : Int) ≤ prev'.L ∧ lerr r.2 r'.2 i = lerr prev prev' k := by
      intro i hi
      rw [b1] at hi
      by_cases ci : i.val = 0
      · refine ⟨1, by decide, by show ((1 : Nat) : Int) ≤ _; omega, ?_⟩
        obtain rfl : i = 0 := Fin.ext ci
        unfold lerr
        rw [a3, b3]
      · refine ⟨i, by omega, hi, ?_⟩
        unfold lerr
        rw [a2 i (by omega) (by omega), b2 i (by omega) hi]
    intro i j hi hj
    obtain ⟨i', x1, x2, x3⟩ := key i hi
    obtain ⟨j', y1, y2, y3⟩ := key j hj
    show lerr r.2 r'.2 i - lerr r.2 r'.2 j ≤ _
    rw [x3, y3]
    exact hp.diff i' j' x1 x2 y1 y2
  obtain ⟨c1, c2⟩ := contract (lax := lax) (p := fk) (L := (L : Int)) (Tl := η) (B := 12 / 1000) (S := 7 / 100) (c := 65 / 100) (rho := 65 / 100)
    (show 0 ≤ r'.2.L by omega) (show r'.2.L ≤ 56 by omega) (by omega) hη (by norm_num) (le_refl _) (by norm_num) hdiff
  refine ⟨hok, k2, by rw [k3], by rw [hgi, hgr]; exact hg, hval, fun i j a b c d => ?_, fun i a b => ?_, fun l l1 l2 => k4 l l1 l2⟩
  · rw [herr i a b, herr j c d]
    have := c1 i j (by omega) (by omega)
    linarith
  · rw [herr i a b]
    exact (c2 i (by omega)).trans (by norm_num)

end Verif.Model
