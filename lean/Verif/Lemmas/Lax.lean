import Verif.Lemmas.Decode

/-!
# Giving a value to the one out-of-bounds read does not change executions that do not perform it
-/

namespace Verif

/-- `x` is `y`, unless it fails with an out-of-bounds read. -/
def Refines {α : Type} (x y : Exec α) : Prop := x = y ∨ x = .error .oobRead

theorem Refines.refl {α} (x : Exec α) : Refines x x := .inl rfl

/-- Whatever `x` returns, `y` returns too. -/
theorem Refines.ok {α} {x y : Exec α} (h : Refines x y) {a : α} (ha : x = .ok a) : y = .ok a := by
  rcases h with h | h
  · rw [← h, ha]
  · rw [h] at ha; cases ha

theorem Refines.bind {α β} {x y : Exec α} {f g : α → Exec β} (h : Refines x y) (hf : ∀ a, Refines (f a) (g a)) :
    Refines (x >>= f) (y >>= g) := by
  rcases h with rfl | rfl
  · cases x with
    | ok a => exact hf a
    | error e => exact .inl rfl
  · exact .inr rfl

theorem Refines.bind_right {α β} {x : Exec α} {f g : α → Exec β} (hf : ∀ a, Refines (f a) (g a)) :
    Refines (x >>= f) (x >>= g) := Refines.bind (Refines.refl x) hf

theorem Refines.ite {α} {c : Prop} [Decidable c] {x y x' y' : Exec α} (h1 : Refines x x') (h2 : Refines y y') :
    Refines (if c then x else y) (if c then x' else y') := by
  by_cases h : c
  · rw [if_pos h, if_pos h]; exact h1
  · rw [if_neg h, if_neg h]; exact h2

theorem Refines.loop {σ} {n : Nat} {f g : Nat → σ → Exec σ} {s : σ} (h : ∀ i s, Refines (f i s) (g i s)) :
    Refines (Verif.loop n f s) (Verif.loop n g s) := by
  induction n with
  | zero => exact Refines.refl _
  | succ n ih => rw [loop_succ, loop_succ]; exact Refines.bind ih fun a => h n a

theorem Refines.loopFT {σ} {lo hi : Nat} {f g : Nat → σ → Exec σ} {s : σ} (h : ∀ i s, Refines (f i s) (g i s)) :
    Refines (Verif.loopFT lo hi f s) (Verif.loopFT lo hi g s) := Refines.loop fun i s => h (lo + i) s

end Verif

namespace Verif.Model
open Verif Verif.Gen Arith
variable {F : Type} [Arith F]
set_option linter.unusedSectionVars false

theorem rdLog2_lax (p : Parms F) (i : Int) : Refines (rdLog2 false p i) (rdLog2 true p i) := by
  unfold rdLog2
  rw [if_neg (by simp)]
  by_cases e : i = 57
  · subst e
    exact .inr (Arr.rd_error (by omega))
  · rw [if_neg fun h => e h.1]
    exact Refines.refl _

theorem imbePredict1_lax (L : Int) (p : Parms F) : Refines (imbePredict1 false L p) (imbePredict1 true L p) := by
  unfold imbePredict1
  refine Refines.loopFT fun l s => ?_
  exact Refines.bind_right fun _ => Refines.bind_right fun _ => Refines.bind_right fun _ =>
    Refines.bind (rdLog2_lax _ _) fun _ => Refines.bind (rdLog2_lax _ _) fun _ => Refines.refl _

theorem imbePredict2_lax (L : Int) (p : Parms F) (ik : Loc 57 Int) (dl : Loc 57 F) (rho s : F) (Tl : Arr 57 F)
    (cur : Parms F) : Refines (imbePredict2 false L p ik dl rho s Tl cur) (imbePredict2 true L p ik dl rho s Tl cur) := by
  unfold imbePredict2
  refine Refines.loopFT fun l s => ?_
  exact Refines.bind_right fun _ => Refines.bind_right fun _ =>
    Refines.bind (rdLog2_lax _ _) fun _ => Refines.bind (rdLog2_lax _ _) fun _ => Refines.refl _

theorem decodeImbe4400_lax (d : Nat → Int) (cur prev : Parms F) (t : Tls F) :
    Refines (decodeImbe4400 false d cur prev t) (decodeImbe4400 true d cur prev t) := by
  unfold decodeImbe4400
  refine Refines.bind_right fun _ => Refines.ite (Refines.refl _) (Refines.bind_right fun _ =>
    Refines.ite (Refines.refl _) (Refines.bind_right fun _ => ?_))
  unfold imbeDecodeBody
  iterate 7 refine Refines.bind_right fun _ => ?_
  exact Refines.bind (imbePredict1_lax _ _) fun _ => Refines.bind (imbePredict2_lax _ _ _ _ _ _ _ _) fun _ => Refines.refl _

theorem ambePredict1_lax (L : Int) (p : Parms F) : Refines (ambePredict1 false L p) (ambePredict1 true L p) := by
  unfold ambePredict1
  refine Refines.loopFT fun l s => ?_
  exact Refines.bind_right fun _ => Refines.bind_right fun _ => Refines.bind_right fun _ =>
    Refines.bind (rdLog2_lax _ _) fun _ => Refines.bind (rdLog2_lax _ _) fun _ => Refines.refl _

theorem ambePredict3_lax (L : Int) (p : Parms F) (ik : Loc 57 Int) (dl : Loc 57 F) (s g u : F) (Tl : Arr 57 F)
    (cur : Parms F) : Refines (ambePredict3 false L p ik dl s g u Tl cur) (ambePredict3 true L p ik dl s g u Tl cur) := by
  unfold ambePredict3
  refine Refines.loopFT fun l s => ?_
  exact Refines.bind_right fun _ => Refines.bind_right fun _ =>
    Refines.bind (rdLog2_lax _ _) fun _ => Refines.bind (rdLog2_lax _ _) fun _ => Refines.refl _

theorem ambeBody_lax (T : AmbeTabs) (f : AmbeFields) (L : Int) (unvc : F) (cache : DctCache F 9 18) (cur prev : Parms F) :
    Refines (ambeBody false T f L unvc cache cur prev) (ambeBody true T f L unvc cache cur prev) := by
  unfold ambeBody
  iterate 17 refine Refines.bind_right fun _ => ?_
  iterate 5 refine Refines.bind_right fun _ => ?_
  exact Refines.bind (ambePredict1_lax _ _) fun _ => Refines.bind_right fun _ =>
    Refines.bind (ambePredict3_lax _ _ _ _ _ _ _ _ _) fun _ => Refines.refl _

theorem decodeAmbe2450_lax (d : Nat → Int) (e : Int) (cur prev : Parms F) (t : Tls F) :
    Refines (decodeAmbe2450 false d e cur prev t) (decodeAmbe2450 true d e cur prev t) := by
  unfold decodeAmbe2450
  refine Refines.bind_right fun _ => Refines.bind_right fun _ => Refines.ite (Refines.refl _) (Refines.ite (Refines.refl _)
    (Refines.ite (Refines.refl _) ?_))
  unfold ambe2450Voice
  iterate 4 refine Refines.bind_right fun _ => ?_
  exact Refines.bind (ambeBody_lax _ _ _ _ _ _ _) fun _ => Refines.refl _

theorem decodeAmbe2400_lax (d : Nat → Int) (cur prev : Parms F) (t : Tls F) :
    Refines (decodeAmbe2400 false d cur prev t) (decodeAmbe2400 true d cur prev t) := by
  unfold decodeAmbe2400
  refine Refines.bind_right fun _ => Refines.ite (Refines.refl _) ?_
  unfold ambe2400Voice
  iterate 5 refine Refines.bind_right fun _ => ?_
  exact Refines.bind (ambeBody_lax _ _ _ _ _ _ _) fun _ => Refines.refl _

end Verif.Model
