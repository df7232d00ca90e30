import Verif.Lemmas.Simd
import Verif.Lemmas.Pcm
import Verif.Lemmas.UnvoicedNum

/-!
# The vector code in binary32
-/

namespace Verif.Model
open Verif Verif.Gen Verif.Spec Verif.Num Arith
set_option linter.unusedSectionVars false

variable {m : Libm}

theorem mulR_comm (f : Fmt) (x y : FP) : FP.mulR f x y = FP.mulR f y x := by
  cases x with
  | nan => cases y <;> rfl
  | inf s =>
    cases y with
    | nan => rfl
    | inf t => exact congrArg FP.inf (Bool.xor_comm _ _)
    | fin t b =>
      show (if b = 0 then FP.nan else FP.inf _) = if b = 0 then FP.nan else FP.inf _
      rw [Bool.xor_comm]
  | fin s a =>
    cases y with
    | nan => rfl
    | inf t =>
      show (if a = 0 then FP.nan else FP.inf _) = if a = 0 then FP.nan else FP.inf _
      rw [Bool.xor_comm]
    | fin t b =>
      show FP.round f _ _ = FP.round f _ _
      rw [Bool.xor_comm, mul_comm]

theorem mul_comm_ieee (x y : IEEE m) : x *ᶠ y = y *ᶠ x := mulR_comm F32 x y

/-! ## NEON conversion -/

/-- `min(max(z, -max), max)` as the two NEON instructions compute it. -/
def neonClip (z : FP) : FP :=
  let a := if FP.ltB z (FP.fin true (-maxQ)) = true then FP.fin true (-maxQ) else z
  if FP.ltB (FP.fin false maxQ) a = true then FP.fin false maxQ else a

theorem neonClip_inf (s : Bool) : neonClip (FP.inf s) = FP.fin s (if s then -maxQ else maxQ) := by
  cases s <;> decide +kernel

theorem neonClip_fin (t : Bool) (r : ℚ) : ∃ u, neonClip (FP.fin t r) = FP.fin u (clampQ maxQ r) := by
  have hM := maxQ_pos
  have e1 : FP.ltB (FP.fin t r) (FP.fin true (-maxQ)) = decide (r < -maxQ) := rfl
  have e2 : FP.ltB (FP.fin false maxQ) (FP.fin t r) = decide (maxQ < r) := rfl
  have e3 : FP.ltB (FP.fin false maxQ) (FP.fin true (-maxQ)) = false := by decide +kernel
  unfold neonClip clampQ
  dsimp only
  rw [e1]
  by_cases h : r < -maxQ
  · rw [decide_eq_true h, if_pos rfl, e3, if_neg Bool.false_ne_true, min_eq_right (by linarith), max_eq_left h.le]
    exact ⟨true, rfl⟩
  · rw [decide_eq_false h, if_neg Bool.false_ne_true, e2]
    by_cases h' : maxQ < r
    · rw [decide_eq_true h', if_pos rfl, min_eq_left h'.le, max_eq_right (by linarith)]
      exact ⟨false, rfl⟩
    · rw [decide_eq_false h', if_neg Bool.false_ne_true, min_eq_right (not_lt.1 h'), max_eq_right (not_lt.1 h)]
      exact ⟨t, rfl⟩

theorem neonClip_round (s : Bool) (q : ℚ) : ∃ u, neonClip (FP.round F32 s q) = FP.fin u (clampQ maxQ (rnd F32 q)) := by
  have hM := maxQ_pos
  have hlt := maxQ_lt
  unfold FP.round
  by_cases h0 : q = 0
  · subst h0
    rw [if_pos rfl, rnd_zero]
    exact neonClip_fin s 0
  · rw [if_neg h0]
    dsimp only
    have sg : (q < 0 → rnd F32 q ≤ 0) ∧ (0 < q → 0 ≤ rnd F32 q) := by
      refine ⟨fun h => ?_, fun h => Num.rnd_nonneg h.le⟩
      have := Num.rnd_nonneg (f := F32) (q := -q) (by linarith)
      rw [rnd_neg] at this
      linarith
    by_cases hb : pow2 F32.emax ≤ |rnd F32 q|
    · rw [if_pos hb, neonClip_inf]
      refine ⟨_, congrArg _ ?_⟩
      unfold clampQ
      rcases lt_or_gt_of_ne h0 with hq | hq
      · rw [abs_of_nonpos (sg.1 hq)] at hb
        rw [decide_eq_true hq, if_pos rfl, min_eq_right (by linarith), max_eq_left (by linarith)]
      · rw [abs_of_nonneg (sg.2 hq)] at hb
        rw [if_neg (by rw [decide_eq_true_eq]; linarith), min_eq_left (by linarith), max_eq_right (by linarith)]
    · rw [if_neg hb]
      exact neonClip_fin _ _

theorem neon_of_scaled {s : Bool} {q : ℚ} (h : |q| ≤ maxQ) : packs (cvtNeon (F := IEEE m) (FP.fin s q)) = FP.truncQ q := by
  have := truncQ_abs h
  have e : ⌊maxQ⌋ = 31128 := by unfold maxQ; rw [Int.floor_eq_iff]; norm_num
  rw [e, abs_le] at this
  have e1 : cvtNeon (F := IEEE m) (FP.fin s q) = FP.truncQ q := by
    unfold cvtNeon
    show (if FP.truncQ q > 2147483647 then (2147483647 : Int) else if FP.truncQ q < -2147483648 then -2147483648 else FP.truncQ q) = _
    rw [if_neg (by omega), if_neg (by omega)]
  rw [e1]
  unfold packs
  rw [if_neg (by omega), if_neg (by omega)]

theorem shortSampleNeon_clip (x : IEEE m) : shortSampleNeon x = packs (cvtNeon (F := IEEE m) (neonClip (mul (lit 7 1) x : IEEE m))) := by
  unfold shortSampleNeon
  dsimp only
  rw [minSse2_ieee, maxAmplitude_ieee, mul7' (m := m) x]
  rfl

theorem shortSampleNeon_eq (x : FP) (hx : x ≠ .nan) : shortSampleNeon (F := IEEE m) x = FP.truncQ (scaled x) := by
  refine (shortSampleNeon_clip (m := m) x).trans ?_
  cases x with
  | nan => exact absurd rfl hx
  | inf s =>
    have e : (mul (lit 7 1) (FP.inf s) : IEEE m) = FP.inf s := by
      rw [seven_ieee]
      cases s
      · exact (show (FP.mulR F32 (FP.fin false 7) (FP.inf false)) = FP.inf false by decide +kernel)
      · exact (show (FP.mulR F32 (FP.fin false 7) (FP.inf true)) = FP.inf true by decide +kernel)
    refine (congrArg (fun z => packs (cvtNeon (F := IEEE m) (neonClip z))) e).trans ?_
    refine (congrArg (fun z => packs (cvtNeon (F := IEEE m) z)) (neonClip_inf s)).trans ?_
    exact neon_of_scaled (scaled_abs (FP.inf s))
  | fin s q =>
    refine (congrArg (fun z => packs (cvtNeon (F := IEEE m) (neonClip z))) (mul7 s q)).trans ?_
    obtain ⟨u, hu⟩ := neonClip_round (FP.sgn (FP.fin s q)) (7 * q)
    refine (congrArg (fun z => packs (cvtNeon (F := IEEE m) z)) hu).trans ?_
    exact neon_of_scaled (scaled_abs (FP.fin s q))

theorem shortSampleNeon_nan : shortSampleNeon (F := IEEE m) FP.nan = 0 := by
  have h : shortSampleNeon (F := IEEE libm0) FP.nan = 0 := by decide +kernel
  exact h

/-- A conversion lane by lane, written as a loop, in any arithmetic. -/
theorem lanes_loop {F : Type} (g : F → Int) (inp : Arr 160 F) (out : Arr 160 Int) :
    loop 160 (fun i (out : Arr 160 Int) => do out.wr i (g (← inp.rd i))) out = .ok (fun i => g (inp i)) := by
  have e : loop 160 (fun i (out : Arr 160 Int) => do out.wr i (g (← inp.rd i))) out =
      loop 160 (fun i (out : Arr 160 Int) => do out.wr i (← (do .ok (g (← inp.rd i)) : Exec Int))) out :=
    loop_congr fun i hi => funext fun s => by rw [Arr.rd_nat hi, ok_bind, ok_bind, ok_bind]
  rw [e, copy_loop (fun i => if c : i < 160 then g (inp ⟨i, c⟩) else 0) (fun i => do .ok (g (← inp.rd i)))
    (fun i hi => by rw [Arr.rd_nat hi, ok_bind, dif_pos hi]) out (le_refl _)]
  refine congrArg Except.ok (funext fun j => ?_)
  rw [if_pos j.isLt, dif_pos j.isLt]

end Verif.Model
