import Verif.Lemmas.Track
import Mathlib.Analysis.SpecialFunctions.Pow.Real

/-!
# The IMBE amplitudes belong to the log amplitudes
-/

namespace Verif.Model
open Verif Verif.Gen Verif.Spec Verif.Num Arith
variable {m : Libm}

/-- Each amplitude of a band is the power of two of its log amplitude, or both are those of the default model. -/
def AmpExp (p : Parms (IEEE m)) : Prop :=
  ∀ l : Fin 57, 1 ≤ l.val → (l.val : Int) ≤ p.L → p.Ml l = exp2 (p.log2Ml l) ∨ (Val (p.Ml l) 1 ∧ Val (p.log2Ml l) 0)

theorem predict2_amp {lax : Bool} {L : Int} {prev : Parms (IEEE m)} {K : Loc 57 Int} {D : Loc 57 (IEEE m)} {rho s : IEEE m}
    {T : Arr 57 (IEEE m)} (cur : Parms (IEEE m)) : Post (imbePredict2 lax L prev K D rho s T cur) fun c =>
      ∀ l : Fin 57, 1 ≤ l.val → l.val ≤ L.toNat → c.Ml l = exp2 (c.log2Ml l) := by
  unfold imbePredict2
  refine (loopFT_post (fun i (c : Parms (IEEE m)) =>
    ∀ l : Fin 57, 1 ≤ l.val → l.val < i → c.Ml l = exp2 (c.log2Ml l)) (by omega) ?_ ?_).mono ?_
  · intro l h1 h2; omega
  · intro i h1 h2 c hc
    refine Post.bind Post.true fun dl _ => Post.bind Post.true fun ik _ => Post.bind Post.true fun a _ => Post.bind Post.true fun b _ =>
      Post.bind Post.true fun t _ => ?_
    refine Post.bind Arr.wr_post fun A hA => Post.bind Arr.wr_post fun B hB => Post.pure ?_
    obtain ⟨_, _, rfl⟩ := hA
    obtain ⟨_, _, rfl⟩ := hB
    intro l k1 k2
    dsimp only
    by_cases e : l.val = i
    · rw [Arr.set_same (by simp; exact e), Arr.set_same (by simp; exact e)]
    · rw [Arr.set_ne (by simp; omega), Arr.set_ne (by simp; omega)]
      exact hc l k1 (by omega)
  · intro c hc l k1 k2
    exact hc l k1 (by omega)

theorem lit1_val : Val (lit 1 1 : IEEE m) 1 := val_of_rng (show rngB (lit 1 1 : IEEE libm0) 1 1 = true by decide +kernel)

theorem processImbe4400_amp {E : Env (IEEE m)} {C : Call (IEEE m)} {c0 : Option Int} {errs2 : Int} {d : Nat → Int} (hd : Bits 88 d)
    {s : St (IEEE m)} {o : Out (IEEE m)} (h : processImbe4400 E C c0 errs2 d s = .ok o) (hp : AmpExp s.prev) : AmpExp o.st.prev := by
  obtain ⟨r, h1, h2, h3⟩ := processImbe4400_step h
  have hb := decodeImbe4400_bad_iff hd h1
  cases hr : imbeRepeatRequired r.bad c0 errs2 (imbeRate s.prev.errorRate errs2) with
  | false =>
    rw [h3 hr]
    have hf : imbeFund d ≤ 207 := by
      by_contra c
      rw [hb, imbeRepeatRequired_spec] at hr
      unfold imbeIsRepeat at hr
      rw [decide_eq_true (by omega : 207 < imbeFund d)] at hr
      simp at hr
    rw [decodeImbe4400_good hd hf] at h1
    obtain ⟨_, V, e⟩ := imbeDecodeBody_post _ _ _ _ _ _ _ _ h1
    obtain ⟨_, _, _, _, _, _, e4, _⟩ := imbeDecodeBody_inv h1
    have k := predict2_amp _ _ e4
    have eL : r.cur.L = (imbeLTab (imbeFund d) : Nat) := by rw [e]
    intro l l1 l2
    dsimp only at l2 ⊢
    rw [eL] at l2
    exact .inl (k l l1 (by rw [Int.toNat_natCast]; omega))
  | true =>
    rw [hr] at h2
    by_cases c : s.prev.repeatCount ≤ 3
    · obtain ⟨a, b⟩ := h2.last rfl c
      intro l l1 l2
      have eL : o.st.prev.L = s.prev.L := by rw [a]
      rw [eL] at l2
      obtain ⟨b1, b2⟩ := b l l1 l2
      rw [b1, b2]
      exact hp l l1 l2
    · obtain ⟨q, L, _, a, _⟩ := h2.reset rfl (by omega)
      rw [a]
      intro l _ _
      exact .inr ⟨lit1_val (m := m), lit0_val (m := m)⟩

theorem amp_run {E : Env (IEEE m)} {ops : List (ImbeOp (IEEE m))} (hd : ∀ op ∈ ops, Bits 88 op.d)
    {s s' : St (IEEE m)} (hA : AmpExp s.prev) (h : runOps (ImbeOp.run E) ops s = .ok s') : AmpExp s'.prev := by
  induction ops generalizing s with
  | nil => cases h; exact hA
  | cons op ops ih =>
    obtain ⟨o, h1, h2⟩ := bind_ok h
    refine ih (fun y hy => hd y (.tail _ hy)) ?_ h2
    obtain ⟨s1, e1, _, _, e4⟩ := ImbeOp.run_eq E op s
    rw [e4] at h1
    exact processImbe4400_amp (hd op (.head _)) h1 (by rw [e1]; exact hA)

theorem amp_init : AmpExp (imbeInit 39 : Parms (IEEE m)) := fun _ _ _ => .inr ⟨lit1_val (m := m), fi0_val (m := m)⟩

theorem two_pow_small : (2 : ℝ) ^ ((51 : ℝ) / 1000) ≤ 1.0372 := by
  have h1 : (2 : ℝ) ^ ((51 : ℝ) / 1000) ≤ (2 : ℝ) ^ ((1 : ℝ) / 19) := Real.rpow_le_rpow_of_exponent_le (by norm_num) (by norm_num)
  have h2 : (2 : ℝ) ^ ((1 : ℝ) / 19) ≤ ((1.0372 : ℝ) ^ (19 : ℕ)) ^ ((1 : ℝ) / 19) :=
    Real.rpow_le_rpow (by norm_num) (by norm_num) (by norm_num)
  have h3 : ((1.0372 : ℝ) ^ (19 : ℕ)) ^ ((1 : ℝ) / 19) = 1.0372 := by
    have := Real.pow_rpow_inv_natCast (show (0 : ℝ) ≤ 1.0372 by norm_num) (show (19 : ℕ) ≠ 0 by decide)
    rw [← this]
    norm_num
  linarith

theorem two_pow_near {q x r : ℝ} (h : |q - x| ≤ 51 / 1000) (hr : |r - (2 : ℝ) ^ q| ≤ (2 : ℝ) ^ q / 65536) :
    |r - (2 : ℝ) ^ x| ≤ 4 / 100 * (2 : ℝ) ^ x := by
  have h0 : 0 < (2 : ℝ) ^ x := by positivity
  have hq : (2 : ℝ) ^ q = (2 : ℝ) ^ x * (2 : ℝ) ^ (q - x) := by rw [← Real.rpow_add (by norm_num)]; congr 1; ring
  rw [abs_le] at h
  have u1 : (2 : ℝ) ^ (q - x) ≤ 1.0372 := (Real.rpow_le_rpow_of_exponent_le (by norm_num) h.2).trans two_pow_small
  have u2 : (2 : ℝ) ^ (x - q) ≤ 1.0372 := (Real.rpow_le_rpow_of_exponent_le (by norm_num) (by linarith [h.1])).trans two_pow_small
  have u3 : (2 : ℝ) ^ (q - x) * (2 : ℝ) ^ (x - q) = 1 := by
    rw [← Real.rpow_add (by norm_num)]; simp
  have u4 : 0 < (2 : ℝ) ^ (q - x) := by positivity
  have u5 : 0.9641 ≤ (2 : ℝ) ^ (q - x) := by nlinarith
  rw [hq, abs_le] at hr
  generalize (2 : ℝ) ^ (q - x) = y at hr u1 u5
  rw [abs_le]
  constructor <;> nlinarith [hr.1, hr.2]

end Verif.Model
