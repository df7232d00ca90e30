import Verif.Lemmas.VecTop
import Verif.Spec.FftVec
import Verif.Props.Fft
import Verif.Props.Simd

/-!
# C70: the transform of 256 floats as compiled with vectors of four floats
-/

namespace Verif.Props
open Verif Verif.Spec Verif.Model Verif.Num Verif.Gen Arith

section
variable {F : Type} [Arith F]

/-- `pffft_new_setup(256, PFFFT_REAL)` on vectors finds the factors 4, 4, 4 of 64 and does not return null: no access is out
of bounds and no `assert` fails. All 192 floats of `e` are set. -/
theorem C70_setup : ∃ S : SetupV F, newSetupV = .ok (some S) ∧ S.N = 256 ∧ S.Ncvec * 8 = 256 ∧
    S.ifac.rd 0 = .ok 64 ∧ S.ifac.rd 1 = .ok 3 ∧ (∀ i : Int, 2 ≤ i → i ≤ 4 → S.ifac.rd i = .ok 4) ∧
    ∀ i : Fin 192, ∃ x, S.e i = some x := by
  refine ⟨Vec.setupV, Vec.newSetupV_eq, rfl, rfl, rfl, rfl, fun i h1 h2 => ?_, fun i => ⟨_, rfl⟩⟩
  rcases (show i = 2 ∨ i = 3 ∨ i = 4 by omega) with rfl | rfl | rfl <;> rfl

/-- In every arithmetic and for every input, both transforms on vectors end without undefined behaviour, whatever the output
and scratch blocks hold. The input stays as it is and the output is a function of the input alone. -/
theorem C70_run : ∃ (S : SetupV F) (f g : Arr 256 F → Arr 256 F), newSetupV = .ok (some S) ∧
    ∀ (a : Arr 256 F) (μ : Mem F), μ .input = filled a →
      (∃ ν, transformFwdV S μ = .ok ν ∧ ν .output = filled (f a) ∧ ν .input = filled a) ∧
      (∃ ν, transformBwdV S μ = .ok ν ∧ ν .output = filled (g a) ∧ ν .input = filled a) :=
  ⟨Vec.setupV, Vec.outFV, Vec.outBV, Vec.newSetupV_eq, Vec.runs_outV⟩

theorem runsV_eq {E : Env F} (h : RunsV E) : E.fwd = Vec.outFV ∧ E.bwd = Vec.outBV := by
  obtain ⟨S, hS, h⟩ := h
  rw [Vec.newSetupV_eq] at hS
  cases hS
  have k : ∀ a : Arr 256 F, E.fwd a = Vec.outFV a ∧ E.bwd a = Vec.outBV a := by
    intro a
    obtain ⟨⟨ν, a1, a2, _⟩, ν', b1, b2, _⟩ := h a (fun _ => filled a) rfl
    obtain ⟨⟨ξ, c1, c2, _⟩, ξ', d1, d2, _⟩ := Vec.runs_outV a (fun _ => filled a) rfl
    rw [a1] at c1
    rw [b1] at d1
    cases c1
    cases d1
    exact ⟨filled_inj (a2.symm.trans c2), filled_inj (b2.symm.trans d2)⟩
  exact ⟨funext fun a => (k a).1, funext fun a => (k a).2⟩

/-- So the two functions of the environment exist in the vector build too, and the code determines them. -/
theorem C70_env (alloc lax : Bool) :
    (∃ E : Env F, RunsV E ∧ E.alloc = alloc ∧ E.lax = lax) ∧
    ∀ E E' : Env F, RunsV E → RunsV E' → E.fwd = E'.fwd ∧ E.bwd = E'.bwd := by
  refine ⟨⟨⟨Vec.outFV, Vec.outBV, alloc, lax⟩, ⟨Vec.setupV, Vec.newSetupV_eq, Vec.runs_outV⟩, rfl, rfl⟩, fun E E' h h' => ?_⟩
  rw [(runsV_eq h).1, (runsV_eq h).2, (runsV_eq h').1, (runsV_eq h').2]
  exact ⟨rfl, rfl⟩

/-- The transposition that is written with `vzipq_f32` for NEON is that of SSE: element `j` of row `i` is element `i` of row
`j`. -/
theorem C70_neon (x : Fin 4 → Vec4 F) : transposeNeon (x 0) (x 1) (x 2) (x 3) = transpose4 (x 0) (x 1) (x 2) (x 3) ∧
    ∀ i j, transpose4 (x 0) (x 1) (x 2) (x 3) i j = x j i := by
  refine ⟨?_, fun i j => Vec.transpose4_lane x i j⟩
  funext i j
  rw [Vec.transpose4_lane x i j]
  match i, j with
  | 0, 0 | 0, 1 | 0, 2 | 0, 3 | 1, 0 | 1, 1 | 1, 2 | 1, 3 | 2, 0 | 2, 1 | 2, 2 | 2, 3 | 3, 0 | 3, 1 | 3, 2 | 3, 3 => rfl

/-- Blocks without any initialised element besides the input. -/
example : ∃ μ : Mem ℝ, μ .input = filled (Arr.const 256 1) ∧ μ .output = Loc.fresh 256 ℝ ∧ μ .scratch = Loc.fresh 256 ℝ :=
  ⟨fun b => if b = .input then filled (Arr.const 256 1) else Loc.fresh 256 ℝ, rfl, rfl, rfl⟩

/-- An uninitialised input is noticed. -/
example : transformFwdV (Vec.setupV : SetupV (IEEE libm0)) (fun _ => Loc.fresh 256 _) = .error .uninit := by rfl

end

/-! ## Exact arithmetic -/

/-- In exact arithmetic the forward transform of the vector build, too, is the discrete Fourier transform of its input in the
layout that `mbe_unvoiced_fft.c` assumes. -/
theorem C70_forward (E : Env ℝ) (h : RunsV E) (a : Arr 256 ℝ) : Ordered (E.fwd a) (dft 256 (seqOf a)) := by
  rw [(runsV_eq h).1]
  exact Vec.outFV_ordered a

/-- In exact arithmetic the scalar build and the vector build compute the same: an environment has the transforms of the one
exactly if it has those of the other. So C62, C63 and C64 hold for the vector build. -/
theorem C70_same (E : Env ℝ) : RunsV E ↔ Runs E := by
  constructor
  · intro h
    refine ⟨setup256, newSetup256_eq, ?_⟩
    rw [(runsV_eq h).1, (runsV_eq h).2, Vec.outFV_eq, Vec.outBV_eq]
    exact runs_out
  · intro h
    refine ⟨Vec.setupV, Vec.newSetupV_eq, ?_⟩
    rw [(runs_eq h).1, (runs_eq h).2, ← Vec.outFV_eq, ← Vec.outBV_eq]
    exact Vec.runs_outV

/-- Both round trips of the vector build multiply by 256. -/
theorem C70_roundtrip (E : Env ℝ) (h : RunsV E) (a : Arr 256 ℝ) :
    E.bwd (E.fwd a) = (fun i => 256 * a i) ∧ E.fwd (E.bwd a) = (fun i => 256 * a i) :=
  C63_roundtrip E ((C70_same E).1 h) a

/-- The backward transform of the vector build is the unnormalised inverse. -/
theorem C70_backward (E : Env ℝ) (h : RunsV E) (a : Arr 256 ℝ) (n : Fin 256) :
    ((E.bwd a n : ℝ) : ℂ) = ∑ k ∈ Finset.range 256, binAt a k * Complex.exp (2 * Real.pi * k * n.val / 256 * Complex.I) :=
  C63_backward E ((C70_same E).1 h) a n

/-- Altogether: in exact arithmetic every program of calls delivers the same in the build with vectors, transforms included, as
in the scalar build. -/
theorem C70_program (isa : Isa) (E E' : Env ℝ) (h : Runs E) (h' : RunsV E') (ha : E.alloc = E'.alloc) (hl : E.lax = E'.lax) (s : St ℝ)
    (hs : Fresh s) (as : List (Api ℝ)) : deliveries (Api.callSimd isa E') as s = deliveries (Api.call E) as s := by
  have e : E' = E := by
    obtain ⟨f1, f2⟩ := runs_eq h
    obtain ⟨g1, g2⟩ := runs_eq ((C70_same E').1 h')
    cases E
    cases E'
    dsimp only at f1 f2 g1 g2 ha hl
    rw [f1, f2, g1, g2, ha, hl]
  rw [e]
  exact C55_program isa E s hs as

private theorem sqrtHalf0 : IEEE.get (sqrtHalf : IEEE libm0) = FP.fin false (11863283 / 16777216) ∧
    IEEE.get (sqrtTwo : IEEE libm0) = FP.fin false (11863283 / 8388608) := by decide +kernel

/-- The constants of the vector build for √½ and √2, which exact arithmetic takes as these numbers, are the binary32 numbers
nearest to them. -/
theorem C70_constants {m : Libm} : ∃ p q : ℚ, Val (sqrtHalf : IEEE m) p ∧ Val (sqrtTwo : IEEE m) q ∧
    |(p : ℝ) - (sqrtHalf : ℝ)| < 1 / 2 ^ 25 ∧ |(q : ℝ) - (sqrtTwo : ℝ)| < 1 / 2 ^ 24 ∧
    (sqrtHalf : ℝ) = Real.sqrt (1 / 2) ∧ (sqrtTwo : ℝ) = Real.sqrt 2 := by
  have h2 : Real.sqrt 2 * Real.sqrt 2 = 2 := Real.mul_self_sqrt (by norm_num)
  have h0 := Real.sqrt_nonneg 2
  have hs : Real.sqrt 2 / 2 = Real.sqrt (1 / 2) := by
    rw [eq_comm, Real.sqrt_eq_iff_mul_self_eq (by norm_num) (by positivity)]
    linear_combination -1 / 4 * h2
  have lo : 23726565 / 16777216 < Real.sqrt 2 := by
    by_contra hc
    nlinarith [not_lt.1 hc]
  have hi : Real.sqrt 2 < 23726567 / 16777216 := by
    by_contra hc
    nlinarith [not_lt.1 hc]
  refine ⟨11863283 / 16777216, 11863283 / 8388608, ⟨_, sqrtHalf0.1⟩, ⟨_, sqrtHalf0.2⟩, ?_, ?_, ?_, Vec.sqrtTwo_r⟩
  · rw [Vec.sqrtHalf_r, abs_lt]
    push_cast
    constructor <;> linarith
  · rw [Vec.sqrtTwo_r, abs_lt]
    push_cast
    constructor <;> linarith
  · rw [Vec.sqrtHalf_r, hs]

/-- The spectrum of an impulse at 1: bin 64 is `-i`. -/
example (E : Env ℝ) (h : RunsV E) : E.fwd (fun i => if i.val = 1 then 1 else 0) ⟨129, by omega⟩ = -1 := by
  have e := (C62_real E ((C70_same E).1 h) (fun i => if i.val = 1 then 1 else 0) 64 (by decide) (by decide)).2
  rw [e, Finset.sum_eq_single 1]
  · have : 2 * Real.pi * ((64 : ℕ) * (1 : ℕ)) / 256 = Real.pi / 2 := by push_cast; ring
    rw [this, Real.sin_pi_div_two]
    simp [seqOf]
  · intro n hn hne
    rw [seqOf, dif_pos (Finset.mem_range.1 hn), if_neg hne, zero_mul]
  · intro hn
    exact absurd (Finset.mem_range.2 (by decide)) hn

end Verif.Props
