import Verif.Lemmas.VecNear
import Verif.Props.FftVec
import Verif.Props.Accuracy

/-!
# C71: rounding errors of the transforms on vectors
-/

namespace Verif.Props
open Verif Verif.Spec Verif.Model Verif.Num Verif.Gen Arith

variable {m : Libm}

/-- The forward transform of the vector build in binary32 is, element by element, within `B / 200` of the discrete Fourier
transform of its input in the ordered layout, `B` being a bound on the input. -/
theorem C71_forward (hcos : CosAcc m) (hsin : SinAcc m) (E : Env (IEEE m)) (hE : RunsV E) (U : Arr 256 (IEEE m)) (u : Fin 256 → ℚ)
    (hU : ∀ i, Val (U i) (u i)) (B : ℝ) (hB : 1 / 2 ^ 100 ≤ B) (hB' : B ≤ 2 ^ 100) (h : ∀ i, |(u i : ℝ)| ≤ B) :
    ∃ X : Arr 256 ℝ, Ordered X (dft 256 (seqOf fun i => (u i : ℝ))) ∧ ∀ j, ∃ r : ℚ, Val (E.fwd U j) r ∧ |(r : ℝ) - X j| ≤ B / 200 := by
  refine ⟨_, Vec.outFV_ordered _, fun j => ?_⟩
  obtain ⟨r, v, a, _⟩ := (Vec.outV_near hcos hsin hB hB' (near_exact hU h) j).1
  rw [(runsV_eq hE).1]
  exact ⟨r, v, a⟩

/-- The backward transform of the vector build in binary32 is within `B / 100` of the unnormalised inverse. -/
theorem C71_backward (hcos : CosAcc m) (hsin : SinAcc m) (E : Env (IEEE m)) (hE : RunsV E) (X : Arr 256 (IEEE m)) (x : Fin 256 → ℚ)
    (hX : ∀ i, Val (X i) (x i)) (B : ℝ) (hB : 1 / 2 ^ 100 ≤ B) (hB' : B ≤ 2 ^ 100) (h : ∀ i, |(x i : ℝ)| ≤ B) (n : Fin 256) :
    ∃ r : ℚ, Val (E.bwd X n) r ∧
      ‖((r : ℝ) : ℂ) - ∑ k ∈ Finset.range 256, binAt (fun i => (x i : ℝ)) k * Complex.exp (2 * Real.pi * k * n.val / 256 * Complex.I)‖ ≤ B / 100 := by
  obtain ⟨R, hR, _⟩ := (C70_env (F := ℝ) true true).1
  obtain ⟨r, v, a, _⟩ := (Vec.outV_near hcos hsin hB hB' (near_exact hX h) n).2
  refine ⟨r, ?_, ?_⟩
  · rw [(runsV_eq hE).2]; exact v
  · rw [← C70_backward R hR (fun i => (x i : ℝ)) n, ← Complex.ofReal_sub, Complex.norm_real, Real.norm_eq_abs, (runsV_eq hR).2]
    exact a

/-- The builds with and without vectors, with the same library, agree within `B / 100` and `B / 50`. -/
theorem C71_builds (hcos : CosAcc m) (hsin : SinAcc m) (E E' : Env (IEEE m)) (hE : RunsV E) (hE' : Runs E') (U : Arr 256 (IEEE m)) (u : Fin 256 → ℚ)
    (hU : ∀ i, Val (U i) (u i)) (B : ℝ) (hB : 1 / 2 ^ 100 ≤ B) (hB' : B ≤ 2 ^ 100) (h : ∀ i, |(u i : ℝ)| ≤ B) (j : Fin 256) :
    (∃ r s : ℚ, Val (E.fwd U j) r ∧ Val (E'.fwd U j) s ∧ |(r : ℝ) - s| ≤ B / 100) ∧
    ∃ r s : ℚ, Val (E.bwd U j) r ∧ Val (E'.bwd U j) s ∧ |(r : ℝ) - s| ≤ B / 50 := by
  obtain ⟨R, hR, _⟩ := (C61_env (F := ℝ) true true).1
  have k := Vec.outV_near hcos hsin hB hB' (near_exact hU h) j
  have k' := runs_near hcos hsin hE' hR hB hB' (near_exact hU h) j
  rw [(runs_eq hR).1, (runs_eq hR).2, ← Vec.outFV_eq, ← Vec.outBV_eq] at k'
  rw [← (runsV_eq hE).1, ← (runsV_eq hE).2] at k
  obtain ⟨⟨r, v, a, _⟩, r2, v2, a2, _⟩ := k
  obtain ⟨⟨s, w, b, _⟩, s2, w2, b2, _⟩ := k'
  have tri : ∀ {x y z d1 d2 : ℝ}, |x - z| ≤ d1 → |y - z| ≤ d2 → |x - y| ≤ d1 + d2 := fun {x y z d1 d2} p q => by
    rw [abs_le] at p q ⊢
    constructor <;> linarith
  exact ⟨⟨r, s, v, w, (tri a b).trans (by linarith)⟩, r2, s2, v2, w2, (tri a2 b2).trans (by linarith)⟩

/-- A unit impulse meets the hypotheses with `B = 1`: bin 0 of both builds is within 1/100. -/
example (hcos : CosAcc m) (hsin : SinAcc m) (E E' : Env (IEEE m)) (hE : RunsV E) (hE' : Runs E') :
    ∃ r s : ℚ, Val (E.fwd (fun i => FP.fin false (if i = 0 then 1 else 0)) 0) r ∧
      Val (E'.fwd (fun i => FP.fin false (if i = 0 then 1 else 0)) 0) s ∧ |(r : ℝ) - s| ≤ 1 / 100 :=
  (C71_builds hcos hsin E E' hE hE' (fun i => FP.fin false (if i = 0 then 1 else 0))
    (fun i => if i = 0 then 1 else 0) (fun i => ⟨false, rfl⟩) 1 (by norm_num) (by norm_num) (fun i => by
      by_cases h : i = 0
      · rw [if_pos h]; norm_num
      · rw [if_neg h]; norm_num) 0).1

end Verif.Props
