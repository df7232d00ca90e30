import Verif.Lemmas.PredNear
import Verif.Lemmas.PredictHist
import Verif.Lemmas.Phi0

/-!
# The IMBE log amplitudes in binary32 against exact arithmetic: one frame
-/

namespace Verif.Model
open Verif Verif.Gen Verif.Spec Verif.Num Arith
variable {m : Libm}

/-- The value of a finite datum. -/
def fq : FP → ℚ
  | .fin _ q => q
  | _ => 0

theorem Val.fq_eq {x : FP} {q : ℚ} (h : Val x q) : fq x = q := by
  obtain ⟨s, rfl⟩ := h
  rfl

/-- All log amplitudes are numbers of moderate size, element 0 and the float behind the array are 0. -/
structure LogOk (p : Parms (IEEE m)) : Prop where
  num : ∀ i, Val (p.log2Ml i) (fq (p.log2Ml i)) ∧ |(fq (p.log2Ml i) : ℝ)| ≤ 212
  zero : fq (p.log2Ml 0) = 0
  phi : Val (p.PHIl 0) 0

/-- The error of a log amplitude. -/
noncomputable def lerr (p : Parms (IEEE m)) (p' : Parms ℝ) (i : Fin 57) : ℝ := (fq (p.log2Ml i) : ℝ) - p'.log2Ml i

/-- The two parameter sets have the same number of bands and log amplitudes close to each other. -/
structure Close (p : Parms (IEEE m)) (p' : Parms ℝ) : Prop where
  L_eq : p.L = p'.L
  ok : LogOk p
  set : PSet 0 248 211 p'
  diff : ∀ i j : Fin 57, (i.val : Int) ≤ p'.L → (j.val : Int) ≤ p'.L → lerr p p' i - lerr p p' j ≤ 6 / 100
  band : ∀ i : Fin 57, (i.val : Int) ≤ p'.L → |lerr p p' i| ≤ 51 / 1000

/-! ## The copy of the last band -/

theorem extendPrev_logs {F : Type} [Arith F] {L : Int} {prev : Parms F} (h : 0 ≤ prev.L) (h' : prev.L ≤ 56) : Post (extendPrev L prev) fun q =>
    q.L = prev.L ∧ (∀ i : Fin 57, (i.val : Int) ≤ prev.L → q.log2Ml i = prev.log2Ml i) ∧ (∀ i, ∃ j, q.log2Ml i = prev.log2Ml j) ∧
      q.PHIl = prev.PHIl := by
  unfold extendPrev
  refine Post.ite (fun _ => ?_) (fun _ => Post.pure ⟨rfl, fun _ _ => rfl, fun i => ⟨i, rfl⟩, rfl⟩)
  refine loop_post' (fun q : Parms F => q.L = prev.L ∧ (∀ i : Fin 57, (i.val : Int) ≤ prev.L → q.log2Ml i = prev.log2Ml i) ∧
    (∀ i, ∃ j, q.log2Ml i = prev.log2Ml j) ∧ q.PHIl = prev.PHIl) ⟨rfl, fun _ _ => rfl, fun i => ⟨i, rfl⟩, rfl⟩ fun n p hp => ?_
  refine Post.bind Post.true fun _ _ => Post.bind Post.true fun M hM => Post.bind Arr.rd_post fun x hx =>
    Post.bind Arr.wr_post fun G hG => Post.pure ⟨hp.1, fun i hi => ?_, fun i => ?_, hp.2.2.2⟩
  · obtain ⟨_, _, rfl⟩ := hG
    have := hp.1
    dsimp only
    rw [Arr.set_ne (by omega)]
    exact hp.2.1 i hi
  · obtain ⟨_, _, rfl⟩ := hG
    obtain ⟨hk, rfl⟩ := hx
    dsimp only
    by_cases e : i.val = (p.L + 1 + n).toNat
    · rw [Arr.set_same e]
      exact hp.2.2.1 _
    · rw [Arr.set_ne e]
      exact hp.2.2.1 i

theorem LogOk.of {p q : Parms (IEEE m)} (h : LogOk p) (h0 : q.log2Ml 0 = p.log2Ml 0) (hj : ∀ i, ∃ j, q.log2Ml i = p.log2Ml j)
    (hp : q.PHIl 0 = p.PHIl 0) : LogOk q :=
  ⟨fun i => by obtain ⟨j, e⟩ := hj i; rw [e]; exact h.num j, by rw [h0]; exact h.zero, by rw [hp]; exact h.phi⟩

theorem Close.of {p q : Parms (IEEE m)} {p' q' : Parms ℝ} (h : Close p p') (hok : LogOk q) (hL : q.L = p.L) (hL' : q'.L = p'.L)
    (hk : ∀ i : Fin 57, (i.val : Int) ≤ p.L → q.log2Ml i = p.log2Ml i) (hk' : ∀ i : Fin 57, (i.val : Int) ≤ p'.L → q'.log2Ml i = p'.log2Ml i) :
    Close q q' := by
  have e : ∀ i : Fin 57, (i.val : Int) ≤ p'.L → lerr q q' i = lerr p p' i := by
    intro i hi
    unfold lerr
    rw [hk i (by rw [h.L_eq]; exact hi), hk' i hi]
  have hlo := h.set.lo
  refine ⟨by rw [hL, hL', h.L_eq], hok, h.set.of_keep hL' (hk' 0 (by show (0 : Int) ≤ _; omega)) fun l _ hl => hk' l hl, fun i j hi hj => ?_, fun i hi => ?_⟩
  · rw [hL'] at hi hj
    rw [e i hi, e j hj]; exact h.diff i j hi hj
  · rw [hL'] at hi
    rw [e i hi]; exact h.band i hi

theorem extendPrev_close {L : Int} {prev : Parms (IEEE m)} {prev' : Parms ℝ} (h : Close prev prev') :
    Rel2 Close (extendPrev L prev) (extendPrev L prev') := by
  have hlo := h.set.lo
  have hhi := h.set.hi
  have hL := h.L_eq
  refine .posts (extendPrev_logs (by omega) (by omega)) (extendPrev_logs (by omega) (by omega)) fun q q' ⟨a1, a2, a3, a4⟩ ⟨b1, b2, _, _⟩ => ?_
  exact h.of (h.ok.of (a2 0 (by show (0 : Int) ≤ _; omega)) a3 (by rw [a4])) a1 b1 a2 b2

/-! ## The parts of the decoder body -/

theorem imbeDecodeBody_inv {F : Type} [Arith F] {lax : Bool} {d : Nat → Int} {L K : Int} {cur prev : Parms F} {t : Tls F} {r : DecodeRes F}
    (h : imbeDecodeBody lax d L K cur prev t = .ok r) : ∃ V T q, imbeResidual (imbeGetCache t).1 (L - 9) d = .ok T ∧
      extendPrev L prev = .ok r.prev ∧ imbePredict1 lax L r.prev = .ok q ∧
      imbePredict2 lax L r.prev q.1 q.2.1 (imbeRho L) ((imbeRho L /ᶠ ofInt L) *ᶠ q.2.2) T { cur with Vl := V } = .ok r.cur ∧ r.bad = 0 := by
  unfold imbeDecodeBody at h
  obtain ⟨bb, hbb, h⟩ := bind_ok h
  obtain ⟨V, hV, h⟩ := bind_ok h
  obtain ⟨G, hG, h⟩ := bind_ok h
  obtain ⟨R, hR, h⟩ := bind_ok h
  obtain ⟨C, hC, h⟩ := bind_ok h
  obtain ⟨T, hT, h⟩ := bind_ok h
  obtain ⟨p, hp, h⟩ := bind_ok h
  obtain ⟨q, hq, h⟩ := bind_ok h
  obtain ⟨c, hc, h⟩ := bind_ok h
  injection h with h
  subst h
  refine ⟨V, T, q, ?_, hp, hq, hc, rfl⟩
  replace hR : idctRi (imbeGetCache t).1 6 G = .ok R := hR
  replace hT : imbeTl (imbeGetCache t).1 (L - 9) C = .ok T := hT
  unfold imbeResidual
  rw [hbb, ok_bind, hG, ok_bind, hR, ok_bind, hC, ok_bind, hT]

/-! ## One frame -/

/-- The values of a set of log amplitudes. -/
def logU (p : Parms (IEEE m)) (i : Nat) : ℚ := if h : i < 57 then fq (p.log2Ml ⟨i, h⟩) else 0

theorem LogOk.logVal {p : Parms (IEEE m)} (h : LogOk p) : LogVal 212 p (logU p) := by
  refine ⟨fun i => ?_, ?_, fun i => ?_⟩
  · unfold logU
    rw [dif_pos i.isLt]
    exact (h.num i).1
  · exact h.phi
  · unfold logU
    split
    · exact (h.num _).2
    · norm_num

/-- The log amplitudes of a decoded frame. -/
theorem imbeBody_close (hm : LibmAcc m) {lax lax' : Bool} {d : Nat → Int} {L : Nat} (hL : 9 ≤ L) (hL' : L ≤ 56) {K K' : Int}
    {cur prev : Parms (IEEE m)} {cur' prev' : Parms ℝ} {t : Tls (IEEE m)} {t' : Tls ℝ}
    (hc : CacheNear (imbeGetCache t).1 (imbeGetCache t').1) (hp : Close prev prev') (ho : LogOk cur) (h0 : cur'.log2Ml 0 = 0) :
    Rel2 (fun (r : DecodeRes (IEEE m)) (r' : DecodeRes ℝ) => Close r.prev r'.prev ∧
        (∀ i : Fin 57, i.val < 1 ∨ L < i.val → r.cur.log2Ml i = cur.log2Ml i) ∧ r.cur.PHIl = cur.PHIl ∧
        (∀ l : Fin 57, 1 ≤ l.val → l.val ≤ L → Val (r.cur.log2Ml l) (fq (r.cur.log2Ml l))) ∧
        (∀ i j : Fin 57, i.val ≤ L → j.val ≤ L → lerr r.cur r'.cur i - lerr r.cur r'.cur j ≤ 6 / 100) ∧
        ∀ i : Fin 57, i.val ≤ L → |lerr r.cur r'.cur i| ≤ 51 / 1000)
      (imbeDecodeBody lax d (L : Int) K cur prev t) (imbeDecodeBody lax' d (L : Int) K' cur' prev' t') := by
  intro r r' hr hr'
  obtain ⟨V, T, q, e1, e2, e3, e4, _⟩ := imbeDecodeBody_inv hr
  obtain ⟨V', T', q', f1, f2, f3, f4, _⟩ := imbeDecodeBody_inv hr'
  have hpp : Close r.prev r'.prev := extendPrev_close hp _ _ e2 f2
  have hT := imbeResidual_near hm hc _ _ _ _ e1 f1
  have plo := hpp.set.lo
  have phi := hpp.set.hi
  obtain ⟨P, hP⟩ := Int.eq_ofNat_of_zero_le (show 0 ≤ r'.prev.L by omega)
  have hP0 : r.prev.L = (P : Int) := by rw [hpp.L_eq, hP]
  replace hP : r'.prev.L = (P : Int) := hP
  have hPle : P ≤ 56 := by omega
  have hU := hpp.ok.logVal
  obtain ⟨g1, g2⟩ := predict1_near hPle (by omega) hL' hP0 hU _ e3
  obtain ⟨k1, k2, k3⟩ := predict2_near hPle hL hL' hU g1 (sum77_near hL hL' g2) hT _ _ e4
  obtain ⟨j1, j2⟩ := predict1_r lax' _ _ _ f3
  obtain ⟨i1, i2, i3⟩ := predict2_r lax' _ _ _ _ j1 _ _ _ _ _ f4
  rw [j2] at i1
  rw [Int.toNat_natCast] at i1 i2
  obtain ⟨r0, r1⟩ := imbeRho_range (L := (L : Int)) (by omega)
  -- the interpolation of the errors
  let fk : Parms ℝ := { r'.prev with log2Ml := lerr r.prev r'.prev }
  have hfk : ∀ l : Nat, l ≤ L → predQ lax (L : Int) fk l = itp (fun i => ((logU r.prev i : ℚ) : ℝ)) (posR (P : Int) (L : Int) l) - predQ lax' (L : Int) r'.prev l := by
    intro l hl
    rw [predQ_itp lax (p := fk) (by show 0 ≤ r'.prev.L; omega) phi (by omega) (by omega),
      predQ_itp lax' (p := r'.prev) (by omega) phi (by omega) (by omega), show fk.L = (P : Int) from hP, ← itp_sub]
    congr 1
    funext i
    unfold logU
    by_cases c : i < 57
    · rw [Arr.getD_lt c, Arr.getD_lt c, dif_pos c]
      rfl
    · unfold Arr.getD
      rw [dif_neg c, dif_neg c, dif_neg c]
      norm_num
  let η : Nat → ℝ := fun l => if h : 1 ≤ l ∧ l ≤ L then (fq (r.cur.log2Ml ⟨l, by omega⟩) : ℝ) -
    (T' ⟨l, by omega⟩ + imbeRho (L : Int) * itp (fun i => ((logU r.prev i : ℚ) : ℝ)) (posR (P : Int) (L : Int) l) -
      imbeRho (L : Int) / L * (∑ l ∈ Finset.Icc 1 L, itp (fun i => ((logU r.prev i : ℚ) : ℝ)) (posR (P : Int) (L : Int) l))) else 0
  have hη : ∀ l, |η l| ≤ 9 / 1000 := by
    intro l
    dsimp only [η]
    split
    · rename_i h
      obtain ⟨x, v, b, _⟩ := k1 ⟨l, by omega⟩ h.1 h.2
      rw [Val.fq_eq v]
      exact b
    · norm_num
  have hval : ∀ l : Fin 57, 1 ≤ l.val → l.val ≤ L → Val (r.cur.log2Ml l) (fq (r.cur.log2Ml l)) := by
    intro l l1 l2
    obtain ⟨x, v, _, _⟩ := k1 l l1 l2
    rw [Val.fq_eq v]
    exact v
  have hsum : ∑ k ∈ Finset.Icc 1 L, predQ lax (L : Int) fk k =
      (∑ l ∈ Finset.Icc 1 L, itp (fun i => ((logU r.prev i : ℚ) : ℝ)) (posR (P : Int) (L : Int) l)) - ∑ l ∈ Finset.Icc 1 L, predQ lax' (L : Int) r'.prev l := by
    rw [← Finset.sum_sub_distrib]
    exact Finset.sum_congr rfl fun l hl => hfk l (Finset.mem_Icc.mp hl).2
  have herr : ∀ l : Fin 57, 1 ≤ l.val → l.val ≤ L → lerr r.cur r'.cur l =
      η l + imbeRho (L : Int) * predQ lax (L : Int) fk l - imbeRho (L : Int) / ((L : Int) : ℝ) * ∑ k ∈ Finset.Icc 1 (L : Int).toNat, predQ lax (L : Int) fk k := by
    intro l l1 l2
    rw [Int.toNat_natCast, hsum, hfk l l2]
    dsimp only [η]
    rw [dif_pos ⟨l1, l2⟩]
    unfold lerr
    rw [(i1 l l1 l2).1]
    rw [show ((imbeRho (L : Int) /ᶠ Arith.ofInt (L : Int)) *ᶠ (∑ l ∈ Finset.Icc 1 L, predQ lax' (L : Int) r'.prev l) : ℝ) =
      imbeRho (L : Int) / ((L : Int) : ℝ) * (∑ l ∈ Finset.Icc 1 L, predQ lax' (L : Int) r'.prev l) from rfl]
    push_cast
    ring
  obtain ⟨c1, c2⟩ := contract (lax := lax) (p := fk) (L := (L : Int)) (Tl := η) (B := 9 / 1000) (S := 6 / 100) (show 0 ≤ r'.prev.L by omega) phi (by omega) hη r0 r1
    (by norm_num) (fun i j hi hj => hpp.diff i j hi hj)
  have hb : ∀ i : Fin 57, i.val ≤ L → |lerr r.cur r'.cur i| ≤ 51 / 1000 := by
    intro i hi
    by_cases ci : i.val = 0
    · have ci : i = 0 := Fin.ext ci
      subst ci
      unfold lerr
      rw [k2 0 (.inl (by decide)), i2 0 (.inl (by decide))]
      show |(fq (cur.log2Ml 0) : ℝ) - cur'.log2Ml 0| ≤ _
      rw [ho.zero, h0]
      norm_num
    · rw [herr i (by omega) hi]
      exact (c2 i (by omega)).trans (by norm_num)
  have hz : lerr r.cur r'.cur 0 = 0 := by
    unfold lerr
    rw [k2 0 (.inl (by decide)), i2 0 (.inl (by decide))]
    show (fq (cur.log2Ml 0) : ℝ) - cur'.log2Ml 0 = 0
    rw [ho.zero, h0]
    norm_num
  refine ⟨hpp, k2, by rw [k3], hval, fun i j hi hj => ?_, hb⟩
  by_cases ci : i.val = 0
  · rw [show i = 0 from Fin.ext ci, hz]
    have := abs_le.mp (hb j hj)
    linarith
  · by_cases cj : j.val = 0
    · rw [show j = 0 from Fin.ext cj, hz]
      have := abs_le.mp (hb i hi)
      linarith
    · rw [herr i (by omega) hi, herr j (by omega) hj]
      have := c1 i j (by omega) (by omega)
      linarith

end Verif.Model
