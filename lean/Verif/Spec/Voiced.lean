import Verif.Spec.Unvoiced
import Verif.Spec.Cache
import Verif.Num.Real
import Mathlib.Analysis.Calculus.Deriv.Basic

/-!
# Specification vocabulary for voiced synthesis

All in exact arithmetic. Time `t` counts samples; the current frame is `0 ≤ t < 160`, the previous one `-160 ≤ t < 0`.
-/

namespace Verif.Spec
open Verif Verif.Model Arith

/-- The synthesis window of one frame of voiced speech: it rises from 0 to 1 between `t = 55` and `t = 105`, stays at 1,
and falls to 0 between `t = 215` and `t = 265`. -/
noncomputable def trapezoid (t : ℝ) : ℝ := max 0 (min 1 (min ((t - 55) / 50) ((265 - t) / 50)))

/-- Two angles describe the same point of the circle. -/
def SameAngle (a b : ℝ) : Prop := ∃ k : ℤ, a = b + 2 * Real.pi * k

/-- `θ` is a phase track over one frame from phase `φ0` to phase `φ1`: it starts at `φ0`, arrives at `φ1` up to full
turns, and its frequency glides linearly from `ω0` to `ω1` apart from a constant correction of at most half a turn per
frame. -/
structure Track (φ0 φ1 ω0 ω1 : ℝ) (θ : ℝ → ℝ) : Prop where
  start : θ 0 = φ0
  stop : SameAngle (θ 160) φ1
  glide : ∃ δ : ℝ, |δ| ≤ Real.pi / 160 ∧ ∀ t, HasDerivAt θ (ω0 + δ + (ω1 - ω0) * t / 160) t

/-- Harmonic `l` is rendered by phase interpolation: it is voiced in both frames, it is one of the first seven, and the
fundamental changed by less than 10 %. -/
def Glides (cur prev : Parms ℝ) (l : Fin 57) : Prop :=
  cur.Vl l = 1 ∧ prev.Vl l = 1 ∧ l.val < 8 ∧ |cur.w0 - prev.w0| < 1 / 10 * cur.w0

/-- `x` is the contribution of harmonic `l` to the samples of the current frame. -/
def Contribution (cur prev : Parms ℝ) (l : Fin 57) (x : Fin 160 → ℝ) : Prop :=
  (Glides cur prev l ∧ ∃ θ, Track (prev.PHIl l) (cur.PHIl l) (l.val * prev.w0) (l.val * cur.w0) θ ∧
    ∀ n : Fin 160, x n = 2 * ((1 - (n.val : ℝ) / 160) * prev.Ml l + (n.val : ℝ) / 160 * cur.Ml l) * Real.cos (θ n.val)) ∨
  (¬ Glides cur prev l ∧ ∀ n : Fin 160, x n =
    (if prev.Vl l = 1 then
      2 * trapezoid (n.val + 160) * prev.Ml l * Real.cos (prev.PHIl l + l.val * prev.w0 * n.val) else 0) +
    (if cur.Vl l = 1 then
      2 * trapezoid n.val * cur.Ml l * Real.cos (cur.PHIl l + l.val * cur.w0 * (n.val - 160)) else 0))

/-- The number of bands `0 .. L` marked unvoiced. -/
def unvoicedCount (L : Int) (Vl : Arr 57 Int) : Nat := (Finset.univ.filter fun l : Fin 57 => (l.val : Int) ≤ L ∧ Vl l = 0).card

/-- Clipping to `[-b, b]`. -/
noncomputable def clipTo (b x : ℝ) : ℝ := max (-b) (min b x)

end Verif.Spec
