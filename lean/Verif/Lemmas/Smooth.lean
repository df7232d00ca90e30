import Verif.Spec.Smooth
import Verif.Lemmas.UnvoicedReal

/-!
# Adaptive smoothing, step by step
-/

set_option linter.unusedSectionVars false

namespace Verif.Model
open Verif Verif.Gen Verif.Spec Verif.Num Arith

variable {F : Type} [Arith F]

/-- A loop over `1 .. L` with a step that cannot fail is a fold. -/
theorem loopTo_foldl {σ} (L : Int) (g : Nat → σ → σ) (s : σ) (f : Nat → σ → Exec σ)
    (h : ∀ l : Nat, 1 ≤ l → (l : Int) ≤ L → ∀ s, f l s = .ok (g l s)) :
    loopTo 1 L f s = .ok ((List.range L.toNat).foldl (fun s i => g (i + 1) s) s) := by
  unfold loopTo loopFT
  rw [show L.toNat + 1 - 1 = L.toNat by omega]
  refine (loop_foldl L.toNat (fun i s => g (i + 1) s) s _ fun i hi s => ?_)
  rw [show 1 + i = i + 1 by omega]
  exact h (i + 1) (by omega) (by omega) s

/-- A loop over `1 .. L` whose step `l` rewrites element `l` only. -/
theorem loopTo_ptwise {α : Type} {n : Nat} {L : Int} (hL : L < n) (g : Fin n → α → α) (body : Nat → Arr n α → Exec (Arr n α))
    (h : ∀ l (hl : l < n), 1 ≤ l → (l : Int) ≤ L → ∀ a : Arr n α, body l a = .ok (a.set l (g ⟨l, hl⟩ (a ⟨l, hl⟩)))) (a : Arr n α) :
    loopTo 1 L body a = .ok (fun j => if 1 ≤ j.val ∧ (j.val : Int) ≤ L then g j (a j) else a j) := by
  have key : ∀ k : Nat, k ≤ L.toNat → loop k (fun i s => body (1 + i) s) a =
      .ok (fun j => if 1 ≤ j.val ∧ j.val ≤ k then g j (a j) else a j) := by
    intro k
    induction k with
    | zero =>
      intro _
      have : (fun j : Fin n => if 1 ≤ j.val ∧ j.val ≤ 0 then g j (a j) else a j) = a := funext fun j => if_neg (by omega)
      rw [this]
      rfl
    | succ k ih =>
      intro hk
      rw [loop_succ, ih (by omega), ok_bind, h (1 + k) (by omega) (by omega) (by omega)]
      refine congrArg _ (funext fun j => ?_)
      by_cases e : j.val = 1 + k
      · rw [Arr.set_same e]
        have : (⟨1 + k, by omega⟩ : Fin n) = j := Fin.ext e.symm
        rw [this, if_neg (by omega), if_pos (by omega)]
      · rw [Arr.set_ne e]
        by_cases e' : 1 ≤ j.val ∧ j.val ≤ k
        · rw [if_pos e', if_pos (by omega)]
        · rw [if_neg e', if_neg (by omega)]
  unfold loopTo loopFT
  rw [show L.toNat + 1 - 1 = L.toNat by omega, key _ (le_refl _)]
  refine congrArg _ (funext fun j => ?_)
  by_cases e : 1 ≤ j.val ∧ (j.val : Int) ≤ L
  · rw [if_pos e, if_pos (by omega)]
  · rw [if_neg e, if_neg (by omega)]

theorem rd_getD {n : Nat} {α : Type} (a : Arr n α) {l : Nat} (h : l < n) (d : α) : a.rd (l : Int) = .ok (a.getD l d) := by
  rw [Arr.rd_nat h, Arr.getD_lt h]

theorem smoothAm_eq {L : Int} (hL : L ≤ 56) (Ml : Arr 57 F) : smoothAm L Ml = .ok (ampSum Ml L) := by
  unfold smoothAm ampSum
  exact loopTo_foldl L (fun l s => s +ᶠ Ml.getD l (lit 0 1)) _ _ fun l h1 h2 s => by
    rw [rd_getD Ml (by omega) (lit 0 1), ok_bind]

theorem smoothRm0_eq (a : Nat) (cur : Parms F) (t : Tls F) (hL : cur.L ≤ 56) :
    smoothRm0 a cur t = .ok (if t.preEnhValid ∧ t.preEnhOwner = a then (t.preEnhRm0, { t with preEnhValid := false, preEnhOwner := 0 })
      else (sqSum cur.Ml cur.L, t)) := by
  unfold smoothRm0
  by_cases h : t.preEnhValid ∧ t.preEnhOwner = a
  · rw [if_pos h, if_pos h]
  · rw [if_neg h, if_neg h]
    unfold sqSum
    rw [loopTo_foldl cur.L (fun l s => s +ᶠ (cur.Ml.getD l (lit 0 1) *ᶠ cur.Ml.getD l (lit 0 1))) _ _ fun l h1 h2 s => by
      rw [rd_getD cur.Ml (by omega) (lit 0 1), ok_bind], ok_bind]

theorem smoothVoicing_eq {L : Int} (hL : L ≤ 56) (vm : F) (Ml : Arr 57 F) (Vl : Arr 57 Int) :
    smoothVoicing L vm Ml Vl =
      .ok (fun l => if 1 ≤ l.val ∧ (l.val : Int) ≤ L then (if lt vm (Ml l) then 1 else Vl l) else Vl l) := by
  unfold smoothVoicing
  refine loopTo_ptwise (by omega) (fun l v => if lt vm (Ml l) then 1 else v) _ (fun l hl h1 h2 a => ?_) Vl
  rw [Arr.rd_nat hl, ok_bind]
  by_cases h : lt vm (Ml ⟨l, hl⟩) = true
  · rw [if_pos h, if_pos h, Arr.wr_nat hl]
  · rw [if_neg h, if_neg h, Arr.set_self]

theorem smoothScale_eq {L : Int} (hL : L ≤ 56) (am : F) (tm : Int) (Ml : Arr 57 F) :
    smoothScale L am tm Ml = .ok (fun l => if (1 ≤ l.val ∧ (l.val : Int) ≤ L) ∧ lt (ofInt tm) am = true ∧ lt (lit 0 1) am = true then
      Ml l *ᶠ (ofInt tm /ᶠ am) else Ml l) := by
  unfold smoothScale
  by_cases h : lt (ofInt tm) am = true ∧ lt (lit 0 1) am = true
  · rw [if_pos h]
    dsimp only
    rw [loopTo_ptwise (by omega) (fun l v => v *ᶠ (ofInt tm /ᶠ am)) _ (fun l hl h1 h2 a => by
      rw [Arr.rd_nat hl, ok_bind, Arr.wr_nat hl]) Ml]
    refine congrArg _ (funext fun l => ?_)
    by_cases e : 1 ≤ l.val ∧ (l.val : Int) ≤ L
    · rw [if_pos e, if_pos ⟨e, h⟩]
    · rw [if_neg e, if_neg fun h' => e h'.1]
  · rw [if_neg h]
    exact congrArg _ (funext fun l => (if_neg fun h' => h h'.2).symm)

/-- What a smoothed parameter set is. -/
def smoothed (cur prev : Parms F) (rm0 : F) (tm : Int) : Parms F :=
  let vm := smoothVM cur.errorRate (smoothEnergy prev.localEnergy rm0) cur.errorCountTotal cur.errorCount4
  { cur with
    localEnergy := smoothEnergy prev.localEnergy rm0
    amplitudeThreshold := tm
    Vl := fun l => if 1 ≤ l.val ∧ (l.val : Int) ≤ cur.L then (if lt vm (cur.Ml l) then 1 else cur.Vl l) else cur.Vl l
    Ml := fun l => if (1 ≤ l.val ∧ (l.val : Int) ≤ cur.L) ∧ lt (ofInt tm) (ampSum cur.Ml cur.L) = true ∧
        lt (lit 0 1) (ampSum cur.Ml cur.L) = true then
      cur.Ml l *ᶠ (ofInt tm /ᶠ ampSum cur.Ml cur.L) else cur.Ml l }

theorem applySmoothing_eq (a : Nat) (cur prev : Parms F) (t : Tls F) (hL : cur.L ≤ 56) :
    applySmoothing a cur prev t = (do
      let tm ← smoothTm cur.errorRate cur.errorCountTotal prev.amplitudeThreshold
      .ok (smoothed cur prev (if t.preEnhValid ∧ t.preEnhOwner = a then t.preEnhRm0 else sqSum cur.Ml cur.L) tm,
        if t.preEnhValid ∧ t.preEnhOwner = a then { t with preEnhValid := false, preEnhOwner := 0 } else t)) := by
  unfold applySmoothing
  rw [smoothRm0_eq a cur t hL, ok_bind]
  have : ∀ x : F × Tls F, x = (x.1, x.2) := fun _ => rfl
  by_cases h : t.preEnhValid ∧ t.preEnhOwner = a
  · rw [if_pos h, if_pos h, if_pos h]
    dsimp only
    rw [smoothVoicing_eq hL, ok_bind, smoothAm_eq hL, ok_bind]
    refine congrArg (Bind.bind _) (funext fun tm => ?_)
    rw [smoothScale_eq hL, ok_bind]
    rfl
  · rw [if_neg h, if_neg h, if_neg h]
    dsimp only
    rw [smoothVoicing_eq hL, ok_bind, smoothAm_eq hL, ok_bind]
    refine congrArg (Bind.bind _) (funext fun tm => ?_)
    rw [smoothScale_eq hL, ok_bind]
    rfl

theorem smoothTm_eq {cur prev : Parms F} {tm : Int}
    (h : smoothTm cur.errorRate cur.errorCountTotal prev.amplitudeThreshold = .ok tm) :
    NextThreshold cur prev tm ∧ tm < 2147483648 := by
  unfold smoothTm at h
  by_cases hc : le cur.errorRate (lit 5 1000) = true ∧ cur.errorCountTotal ≤ 6
  · rw [if_pos hc] at h
    have := ok_inj h
    exact ⟨.inl ⟨hc, this.symm⟩, by omega⟩
  · rw [if_neg hc] at h
    have i32_inv : ∀ {x y : Int}, i32 x = .ok y → y = x ∧ x < 2147483648 := by
      intro x y h
      unfold i32 at h
      split at h
      · rename_i hx
        exact ⟨(ok_inj h).symm, hx.2⟩
      · cases h
    obtain ⟨a, ha, h⟩ := bind_ok h
    obtain ⟨b, hb, h⟩ := bind_ok h
    have e1 := i32_inv ha
    have e2 := i32_inv hb
    have e3 := i32_inv h
    refine ⟨.inr ⟨hc, ?_⟩, ?_⟩ <;> omega

/-! ## IEEE: values that are not negative -/

variable {m : Libm}

/-- A non-negative finite number or +∞. -/
def NN (x : FP) : Prop := x = FP.inf false ∨ ∃ q : ℚ, Val x q ∧ 0 ≤ q

theorem NN.ne_nan {x : FP} (h : NN x) : x ≠ FP.nan := by
  rcases h with rfl | ⟨q, ⟨s, rfl⟩, _⟩ <;> simp

theorem round_nn {s : Bool} {q : ℚ} (h : 0 ≤ q) : NN (FP.round F32 s q) := by
  unfold FP.round
  by_cases h0 : q = 0
  · rw [if_pos h0]
    exact .inr ⟨0, ⟨s, rfl⟩, le_refl _⟩
  · rw [if_neg h0]
    dsimp only
    split
    · left
      rw [decide_eq_false (not_lt.2 h)]
    · exact .inr ⟨_, ⟨_, rfl⟩, rnd_nonneg h⟩

theorem NN.add {x y : FP} (hx : NN x) (hy : NN y) : NN (FP.addR F32 x y) := by
  rcases hx with rfl | ⟨q, ⟨s, rfl⟩, hq⟩
  · rcases hy with rfl | ⟨q, ⟨s, rfl⟩, hq⟩
    · exact .inl rfl
    · exact .inl rfl
  · rcases hy with rfl | ⟨q', ⟨s', rfl⟩, hq'⟩
    · exact .inl rfl
    · exact round_nn (add_nonneg hq hq')

/-- The square of anything but NaN. -/
theorem NN.sq {x : FP} (hx : x ≠ FP.nan) : NN (FP.mulR F32 x x) := by
  cases x with
  | nan => exact absurd rfl hx
  | inf s => cases s <;> exact .inl rfl
  | fin s q => exact round_nn (mul_self_nonneg q)

/-- Multiplication by a positive constant. -/
theorem NN.cmul {c : ℚ} {s : Bool} {x : FP} (hc : 0 < c) (hx : NN x) : NN (FP.mulR F32 (FP.fin s c) x) := by
  rcases hx with rfl | ⟨q, ⟨t, rfl⟩, hq⟩
  · left
    show (if c = 0 then FP.nan else FP.inf (xor (FP.sgn (FP.fin s c)) false)) = _
    rw [if_neg hc.ne']
    unfold FP.sgn
    dsimp only
    rw [if_neg hc.ne', decide_eq_false (not_lt.2 hc.le)]
    rfl
  · exact round_nn (mul_nonneg hc.le hq)

theorem energyConst0 : IEEE.get (lit 95 100 : IEEE libm0) = FP.fin false (15938355 / 16777216) ∧
    IEEE.get (lit 5 100 : IEEE libm0) = FP.fin false (13421773 / 268435456) ∧
    IEEE.get (lit 10000 1 : IEEE libm0) = FP.fin false 10000 ∧
    IEEE.get (defaultLocalEnergy : IEEE libm0) = FP.fin false 75000 := by decide +kernel

/-- The stored energy is at least 10000 if neither the previous energy nor the new term is NaN. -/
theorem smoothEnergy_ieee {pe rm0 : IEEE m} (hp : pe ≠ FP.nan) (hr : NN rm0) :
    IEEE.get (smoothEnergy pe rm0) = FP.inf false ∨ ∃ q : ℚ, Val (IEEE.get (smoothEnergy pe rm0)) q ∧ 10000 ≤ q := by
  have c1 : (lit 95 100 : IEEE m) = FP.fin false (15938355 / 16777216) := energyConst0.1
  have c2 : (lit 5 100 : IEEE m) = FP.fin false (13421773 / 268435456) := energyConst0.2.1
  have c3 : (lit 10000 1 : IEEE m) = FP.fin false 10000 := energyConst0.2.2.1
  have c4 : (defaultLocalEnergy : IEEE m) = FP.fin false 75000 := energyConst0.2.2.2
  have hpe : NN (IEEE.get (if lt pe (lit 10000 1) = true then defaultLocalEnergy else pe : IEEE m)) := by
    by_cases h : lt pe (lit 10000 1) = true
    · rw [if_pos h, c4]
      exact .inr ⟨75000, ⟨_, rfl⟩, by norm_num⟩
    · rw [if_neg h]
      rw [c3] at h
      cases pe with
      | nan => exact absurd rfl hp
      | inf s =>
        cases s
        · exact .inl rfl
        · exact absurd rfl h
      | fin s q =>
        refine .inr ⟨q, ⟨s, rfl⟩, ?_⟩
        by_contra hq
        exact h (decide_eq_true (by linarith))
  unfold smoothEnergy
  dsimp only
  have he : NN (IEEE.get ((lit 95 100 *ᶠ (if lt pe (lit 10000 1) = true then defaultLocalEnergy else pe)) +ᶠ
      (lit 5 100 *ᶠ rm0) : IEEE m)) := by
    refine NN.add ?_ ?_
    · rw [c1]; exact NN.cmul (by norm_num) hpe
    · rw [c2]; exact NN.cmul (by norm_num) hr
  generalize ((lit 95 100 *ᶠ (if lt pe (lit 10000 1) = true then defaultLocalEnergy else pe)) +ᶠ (lit 5 100 *ᶠ rm0) : IEEE m) = e at he
  by_cases h : lt e (lit 10000 1) = true
  · rw [if_pos h, c3]
    exact .inr ⟨10000, ⟨_, rfl⟩, le_refl _⟩
  · rw [if_neg h]
    rcases he with he | ⟨q, hq, _⟩
    · exact .inl he
    · refine .inr ⟨q, hq, ?_⟩
      by_contra hq'
      rw [c3] at h
      obtain ⟨s, rfl⟩ := hq
      exact h (decide_eq_true (not_le.1 hq'))

theorem sqSum_nn {Ml : Arr 57 (IEEE m)} {L : Int} (hL : L ≤ 56) (h : ∀ l : Fin 57, 1 ≤ l.val → (l.val : Int) ≤ L → Ml l ≠ FP.nan) :
    NN (IEEE.get (sqSum Ml L)) := by
  unfold sqSum
  have key : ∀ k : Nat, (k : Int) ≤ max L 0 → NN (IEEE.get ((List.range k).foldl
      (fun s i => s +ᶠ (Ml.getD (i + 1) (lit 0 1) *ᶠ Ml.getD (i + 1) (lit 0 1))) (lit 0 1 : IEEE m))) := by
    intro k
    induction k with
    | zero => exact fun _ => .inr ⟨0, ⟨false, rfl⟩, le_refl _⟩
    | succ k ih =>
      intro hk
      rw [List.range_succ, List.foldl_append]
      refine NN.add (ih (by omega)) ?_
      rw [Arr.getD_lt (show k + 1 < 57 by omega)]
      exact NN.sq (h _ (by dsimp only; omega) (by dsimp only; omega))
  exact key _ (by omega)

/-! ## Exact arithmetic -/

theorem ampSum_scale (Ml Ml' : Arr 57 ℝ) (L : Int) (c : ℝ) (hL : L ≤ 56)
    (h : ∀ l : Fin 57, 1 ≤ l.val → (l.val : Int) ≤ L → Ml' l = Ml l * c) : ampSum Ml' L = ampSum Ml L * c := by
  unfold ampSum
  have key : ∀ k : Nat, (k : Int) ≤ max L 0 → (List.range k).foldl (fun s i => s +ᶠ Ml'.getD (i + 1) (lit 0 1)) (lit 0 1) =
      (List.range k).foldl (fun s i => s +ᶠ Ml.getD (i + 1) (lit 0 1)) (lit 0 1) * c := by
    intro k
    induction k with
    | zero =>
      intro _
      rw [List.range_zero, List.foldl_nil, List.foldl_nil, RealArith.lit_r _ _ (by decide)]
      simp
    | succ k ih =>
      intro hk
      rw [List.range_succ, List.foldl_append, List.foldl_append, ih (by omega)]
      have hk' : k + 1 < 57 := by omega
      show _ + Ml'.getD (k + 1) (lit 0 1) = (_ + Ml.getD (k + 1) (lit 0 1)) * c
      rw [Arr.getD_lt hk', Arr.getD_lt hk', h _ (by dsimp only; omega) (by dsimp only; omega)]
      ring
  exact key _ (by omega)

end Verif.Model
