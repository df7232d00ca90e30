import Verif.Num.Real
import Verif.Lemmas.Keep
import Verif.Lemmas.Enhance

/-!
# Inter-frame prediction of the log amplitudes in exact arithmetic
-/

set_option linter.unusedSectionVars false

namespace Verif.Model
open Verif Verif.Gen Verif.Spec Arith

theorem Loc.rd_post {n : Nat} {α : Type} {a : Loc n α} {i : Int} :
    Post (Loc.rd a i) fun v => ∃ h : i.toNat < n, a ⟨i.toNat, h⟩ = some v := by
  unfold Loc.rd
  refine Post.bind Arr.rd_post fun o ho => ?_
  obtain ⟨h, rfl⟩ := ho
  intro v hv
  refine ⟨h, ?_⟩
  cases e : a ⟨i.toNat, h⟩ with
  | none => rw [e] at hv; cases hv
  | some w => rw [e] at hv; cases hv; rfl

theorem Loc.wr_post {n : Nat} {α : Type} {a : Loc n α} {i : Int} {v : α} :
    Post (Loc.wr a i v) fun b => 0 ≤ i ∧ i < n ∧ b = Arr.set a i.toNat (some v) := Arr.wr_post

/-- The position `L(-1) / L · l` of band `l` among the bands of the previous frame. -/
noncomputable def posR (prevL L : Int) (l : Nat) : ℝ := (prevL : ℝ) / (L : ℝ) * (l : ℝ)

/-- Its truncation. -/
noncomputable def posI (prevL L : Int) (l : Nat) : Int :=
  if 0 ≤ posR prevL L l then ⌊posR prevL L l⌋ else ⌈posR prevL L l⌉

/-- The log amplitude read for band `i` of the previous frame. -/
noncomputable def lgAt (lax : Bool) (p : Parms ℝ) (i : Int) : ℝ :=
  match rdLog2 lax p i with
  | .ok v => v
  | .error _ => 0

/-- The interpolated log amplitude of the previous frame at band `l`. -/
noncomputable def predQ (lax : Bool) (L : Int) (p : Parms ℝ) (l : Nat) : ℝ :=
  (1 - (posR p.L L l - posI p.L L l)) * lgAt lax p (posI p.L L l) +
    (posR p.L L l - posI p.L L l) * lgAt lax p (posI p.L L l + 1)

theorem toI32_r_post (x : ℝ) : Post (toI32 x) fun n => n = if 0 ≤ x then ⌊x⌋ else ⌈x⌉ := by
  intro n h
  unfold toI32 at h
  change (match some (if 0 ≤ x then ⌊x⌋ else ⌈x⌉) with
    | some n => if -2147483648 ≤ n ∧ n < 2147483648 then Except.ok n else Except.error UB.floatToInt
    | none => Except.error UB.floatToInt) = Except.ok n at h
  generalize (if 0 ≤ x then ⌊x⌋ else ⌈x⌉) = k at h ⊢
  dsimp only at h
  split at h
  · cases h; rfl
  · cases h

theorem flokl_r (prevL L : Int) (l : Nat) : (flokl prevL L l : ℝ) = posR prevL L l := by
  show (prevL : ℝ) / (L : ℝ) * ((l : Int) : ℝ) = _
  unfold posR
  push_cast
  rfl

theorem rdLog2_lgAt (lax : Bool) (p : Parms ℝ) (i : Int) : Post (rdLog2 lax p i) fun v => v = lgAt lax p i := by
  intro v h
  unfold lgAt
  rw [h]

theorem predict1_r (lax : Bool) (L : Int) (prev : Parms ℝ) : Post (imbePredict1 lax L prev) fun p =>
    (∀ l : Fin 57, 1 ≤ l.val → l.val ≤ L.toNat → p.1 l = some (posI prev.L L l) ∧
      p.2.1 l = some (posR prev.L L l - posI prev.L L l)) ∧
    p.2.2 = ∑ l ∈ Finset.Icc 1 L.toNat, predQ lax L prev l := by
  unfold imbePredict1
  refine (loopFT_post (fun i (s : Loc 57 Int × Loc 57 ℝ × ℝ) =>
    (∀ l : Fin 57, 1 ≤ l.val → l.val < i → s.1 l = some (posI prev.L L l) ∧
      s.2.1 l = some (posR prev.L L l - posI prev.L L l)) ∧
    s.2.2 = ∑ l ∈ Finset.Icc 1 (i - 1), predQ lax L prev l) (by omega) ?_ ?_).mono ?_
  · refine ⟨fun l h1 h2 => by omega, ?_⟩
    show ((0 : Int) : ℝ) = _
    simp
  · rintro i h1 h2 ⟨K, D, q⟩ ⟨g1, g2⟩
    dsimp only at g1 g2 ⊢
    refine Post.bind (toI32_r_post _) fun ik hik => ?_
    rw [flokl_r] at hik
    have hik' : ik = posI prev.L L i := hik
    subst hik'
    refine Post.bind Loc.wr_post fun K' hK => Post.bind Loc.wr_post fun D' hD => ?_
    refine Post.bind (rdLog2_lgAt _ _ _) fun a ha => Post.bind (rdLog2_lgAt _ _ _) fun b hb => Post.pure ⟨fun l l1 l2 => ?_, ?_⟩
    · obtain ⟨_, _, rfl⟩ := hK
      obtain ⟨_, _, rfl⟩ := hD
      dsimp only
      rw [Int.toNat_natCast]
      by_cases e : l.val = i
      · rw [Arr.set_same e, Arr.set_same e, flokl_r, e]
        exact ⟨rfl, rfl⟩
      · rw [Arr.set_ne e, Arr.set_ne e]
        exact g1 l l1 (by omega)
    · dsimp only
      rw [g2, show i + 1 - 1 = (i - 1) + 1 by omega, Finset.sum_Icc_succ_top (by omega), show i - 1 + 1 = i by omega]
      subst ha hb
      rw [flokl_r]
      show _ + ((((1 : Int) : ℝ) - (_ - _)) * _ + (_ - _) * _) = _
      unfold predQ
      push_cast
      rfl
  · rintro s ⟨g1, g2⟩
    exact ⟨fun l h1 h2 => g1 l h1 (by omega), by simpa using g2⟩

theorem predict2_r (lax : Bool) (L : Int) (prev : Parms ℝ) (K : Loc 57 Int) (D : Loc 57 ℝ)
    (hKD : ∀ l : Fin 57, 1 ≤ l.val → l.val ≤ L.toNat → K l = some (posI prev.L L l) ∧
      D l = some (posR prev.L L l - posI prev.L L l)) (rho s77 : ℝ) (Tl : Arr 57 ℝ) (cur : Parms ℝ) :
    Post (imbePredict2 lax L prev K D rho s77 Tl cur) fun c =>
      (∀ l : Fin 57, 1 ≤ l.val → l.val ≤ L.toNat → c.log2Ml l = Tl l + rho * predQ lax L prev l - s77 ∧
        c.Ml l = (2 : ℝ) ^ (c.log2Ml l)) ∧
      (∀ l : Fin 57, l.val < 1 ∨ L.toNat < l.val → c.log2Ml l = cur.log2Ml l) ∧
      c = { cur with log2Ml := c.log2Ml, Ml := c.Ml } := by
  unfold imbePredict2
  refine (loopFT_post (fun i (c : Parms ℝ) =>
    (∀ l : Fin 57, 1 ≤ l.val → l.val < i → c.log2Ml l = Tl l + rho * predQ lax L prev l - s77 ∧
      c.Ml l = (2 : ℝ) ^ (c.log2Ml l)) ∧
    (∀ l : Fin 57, l.val < 1 ∨ i ≤ l.val → c.log2Ml l = cur.log2Ml l) ∧
    c = { cur with log2Ml := c.log2Ml, Ml := c.Ml }) (by omega) ?_ ?_).mono ?_
  · exact ⟨fun l h1 h2 => by omega, fun _ _ => rfl, rfl⟩
  · rintro i h1 h2 c ⟨g1, g2, g3⟩
    refine Post.bind Loc.rd_post fun dl hdl => Post.bind Loc.rd_post fun ik hik => ?_
    obtain ⟨h, hdl⟩ := hdl
    obtain ⟨_, hik⟩ := hik
    simp only [Int.toNat_natCast] at h hdl hik
    obtain ⟨k1, k2⟩ := hKD ⟨i, h⟩ h1 h2
    rw [k1] at hik
    rw [k2] at hdl
    cases hik
    cases hdl
    refine Post.bind (rdLog2_lgAt _ _ _) fun a ha => Post.bind (rdLog2_lgAt _ _ _) fun b hb => ?_
    refine Post.bind Arr.rd_post fun t ht => ?_
    obtain ⟨_, rfl⟩ := ht
    subst ha hb
    refine Post.bind Arr.wr_post fun G hG => Post.bind Arr.wr_post fun M hM => Post.pure ⟨fun l l1 l2 => ?_, fun l hl => ?_, ?_⟩
    · obtain ⟨_, _, rfl⟩ := hG
      obtain ⟨_, _, rfl⟩ := hM
      dsimp only
      simp only [Int.toNat_natCast]
      by_cases e : l.val = i
      · obtain rfl : l = ⟨i, h⟩ := Fin.ext e
        rw [Arr.set_same e, Arr.set_same e]
        refine ⟨?_, rfl⟩
        show _ + rho * (((1 : Int) : ℝ) - _) * _ + rho * _ * _ - s77 = _
        unfold predQ
        push_cast
        ring
      · rw [Arr.set_ne e, Arr.set_ne e]
        exact g1 l l1 (by omega)
    · obtain ⟨_, _, rfl⟩ := hG
      dsimp only
      rw [Arr.set_ne (by rw [Int.toNat_natCast]; omega)]
      exact g2 l (by omega)
    · rw [g3]
  · rintro c ⟨g1, g2, g3⟩
    exact ⟨fun l h1 h2 => g1 l h1 (by omega), fun l hl => g2 l (by omega), g3⟩

theorem predict3_r (lax : Bool) (L : Int) (prev : Parms ℝ) (K : Loc 57 Int) (D : Loc 57 ℝ)
    (hKD : ∀ l : Fin 57, 1 ≤ l.val → l.val ≤ L.toNat → K l = some (posI prev.L L l) ∧
      D l = some (posR prev.L L l - posI prev.L L l)) (s43 bg unvc : ℝ) (Tl : Arr 57 ℝ) (cur : Parms ℝ) :
    Post (ambePredict3 lax L prev K D s43 bg unvc Tl cur) fun c =>
      (∀ l : Fin 57, 1 ≤ l.val → l.val ≤ L.toNat → c.log2Ml l = Tl l + 65 / 100 * predQ lax L prev l - s43 + bg ∧
        c.Ml l = if c.Vl l = 1 then (2 : ℝ) ^ (c.log2Ml l) else unvc * (2 : ℝ) ^ (c.log2Ml l)) ∧
      (∀ l : Fin 57, l.val < 1 ∨ L.toNat < l.val → c.log2Ml l = cur.log2Ml l) ∧
      c = { cur with log2Ml := c.log2Ml, Ml := c.Ml } := by
  unfold ambePredict3
  dsimp only
  refine (loopFT_post (fun i (c : Parms ℝ) =>
    (∀ l : Fin 57, 1 ≤ l.val → l.val < i → c.log2Ml l = Tl l + 65 / 100 * predQ lax L prev l - s43 + bg ∧
      c.Ml l = if cur.Vl l = 1 then (2 : ℝ) ^ (c.log2Ml l) else unvc * (2 : ℝ) ^ (c.log2Ml l)) ∧
    (∀ l : Fin 57, l.val < 1 ∨ i ≤ l.val → c.log2Ml l = cur.log2Ml l) ∧
    c = { cur with log2Ml := c.log2Ml, Ml := c.Ml }) (by omega) ?_ ?_).mono ?_
  · exact ⟨fun l h1 h2 => by omega, fun _ _ => rfl, rfl⟩
  · rintro i h1 h2 c ⟨g1, g2, g3⟩
    refine Post.bind Loc.rd_post fun dl hdl => Post.bind Loc.rd_post fun ik hik => ?_
    obtain ⟨h, hdl⟩ := hdl
    obtain ⟨_, hik⟩ := hik
    simp only [Int.toNat_natCast] at h hdl hik
    obtain ⟨k1, k2⟩ := hKD ⟨i, h⟩ h1 h2
    rw [k1] at hik
    rw [k2] at hdl
    cases hik
    cases hdl
    refine Post.bind (rdLog2_lgAt _ _ _) fun a ha => Post.bind (rdLog2_lgAt _ _ _) fun b hb => ?_
    refine Post.bind Arr.rd_post fun t ht => ?_
    obtain ⟨_, rfl⟩ := ht
    subst ha hb
    refine Post.bind Arr.wr_post fun G hG => Post.bind Arr.rd_post fun v hv => Post.bind Arr.wr_post fun M hM =>
      Post.pure ⟨fun l l1 l2 => ?_, fun l hl => ?_, ?_⟩
    · obtain ⟨_, _, rfl⟩ := hG
      obtain ⟨_, _, rfl⟩ := hM
      obtain ⟨_, rfl⟩ := hv
      dsimp only
      simp only [Int.toNat_natCast]
      by_cases e : l.val = i
      · obtain rfl : l = ⟨i, h⟩ := Fin.ext e
        rw [Arr.set_same e, Arr.set_same e]
        have hV : c.Vl = cur.Vl := by rw [g3]
        refine ⟨?_, by rw [hV]; rfl⟩
        have e65 : (toF (dlit 65 100) : ℝ) = 65 / 100 := by
          rw [RealArith.toF_r, RealArith.dlit_r _ _ (by decide)]; norm_num
        rw [e65]
        show _ + 65 / 100 * (((1 : Int) : ℝ) - _) * _ + 65 / 100 * _ * _ - s43 + bg = _
        unfold predQ
        push_cast
        ring
      · rw [Arr.set_ne e, Arr.set_ne e]
        exact g1 l l1 (by omega)
    · obtain ⟨_, _, rfl⟩ := hG
      dsimp only
      rw [Arr.set_ne (by rw [Int.toNat_natCast]; omega)]
      exact g2 l (by omega)
    · rw [g3]
  · rintro c ⟨g1, g2, g3⟩
    refine ⟨fun l h1 h2 => ?_, fun l hl => g2 l (by omega), g3⟩
    rw [show c.Vl = cur.Vl by rw [g3]]
    exact g1 l h1 (by omega)

theorem sum42_r (L : Int) (Tl : Arr 57 ℝ) : Post (ambeSum42 L Tl) fun s =>
    s = ∑ l ∈ Finset.Icc 1 L.toNat, Tl.getD l 0 := by
  unfold ambeSum42
  refine (loopFT_post (fun i (s : ℝ) => s = ∑ l ∈ Finset.Icc 1 (i - 1), Tl.getD l 0) (by omega) ?_ ?_).mono ?_
  · show ((0 : Int) : ℝ) = _
    simp
  · rintro i h1 h2 s rfl
    refine Post.bind Arr.rd_post fun t ht => Post.pure ?_
    obtain ⟨h, rfl⟩ := ht
    rw [show i + 1 - 1 = (i - 1) + 1 by omega, Finset.sum_Icc_succ_top (by omega), show i - 1 + 1 = i by omega]
    simp only [Int.toNat_natCast] at h ⊢
    rw [Arr.getD_lt h]
    rfl
  · rintro s hs
    simpa using hs

end Verif.Model
