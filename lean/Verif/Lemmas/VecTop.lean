import Verif.Lemmas.VecOrder
import Verif.Lemmas.VecReal
import Verif.Lemmas.FftEnv

/-!
# The transforms of the vector build
-/

set_option linter.unusedSectionVars false

namespace Verif.Model.Vec
open Verif Verif.Model Verif.Spec Arith

section
variable {F : Type} [Arith F]

/-- The table `e` as vectors. -/
def eV : Int → Vec4 F := packV eTab

theorem asVec_e : asVec (n := 48) (setupV : SetupV F).e = full 48 eV := asVec_full (n := 48) eTab

theorem finishV_eq (n : Int) (inp : Buf) (μ : Mem (Vec4 F) 64) : finishV n inp false μ = .ok μ := rfl

theorem transformFwdVec_eq (c : Int → Vec4 F) (μ : Mem (Vec4 F) 64) (h : μ .input = full 64 c) :
    Ok (transformFwdVec setupV μ) fun r => r .output = full 64 (zF (finV (passesF twV c) eV)) ∧ r .input = μ .input := by
  unfold transformFwdVec
  have e1 : (setupV : SetupV F).ifac = ifac64 := rfl
  have e2 : (setupV : SetupV F).Ncvec * 2 = 64 := rfl
  have e3 : (setupV : SetupV F).N = 256 := rfl
  have e4 : (setupV : SetupV F).Ncvec = 32 := rfl
  rw [e1, rd_ifac1, ok_bind, e2, e3, e4]
  dsimp only
  rw [if_pos (by decide : (3 : Int) % 2 = 1)]
  have b1 : buff (!false) = .scratch := rfl
  have b2 : buff (!!false) = .output := rfl
  have b3 : buff false = .output := rfl
  rw [b1, b2, b3]
  refine Ok.bind (rfftf1_eq c μ h) ?_
  rintro ⟨ν, b⟩ ⟨hb, h1, h2⟩
  dsimp only at hb h1 h2
  subst hb
  dsimp only
  have a1 : assertC (decide (Buf.output ≠ Buf.scratch)) = .ok () := rfl
  have a2 : assertC (decide (Buf.scratch ≠ Buf.output)) = .ok () := rfl
  rw [if_pos rfl, b1, b3, a1, ok_bind, h1, asVec_e, realFinalize_eq, ok_bind, a2, ok_bind, put_same, zreorderFwdV_eq, ok_bind, finishV_eq]
  refine Ok.ok ⟨put_same _ _ _, ?_⟩
  rw [put_ne _ _ (by decide), put_ne _ _ (by decide), h2]

theorem transformBwdVec_eq (c : Int → Vec4 F) (μ : Mem (Vec4 F) 64) (h : μ .input = full 64 c) :
    Ok (transformBwdVec setupV μ) fun r => r .output = full 64 (passesB twV (preV (zB c) eV)) ∧ r .input = μ .input := by
  unfold transformBwdVec
  have e1 : (setupV : SetupV F).ifac = ifac64 := rfl
  have e2 : (setupV : SetupV F).Ncvec * 2 = 64 := rfl
  have e3 : (setupV : SetupV F).N = 256 := rfl
  have e4 : (setupV : SetupV F).Ncvec = 32 := rfl
  rw [e1, rd_ifac1, ok_bind, e2, e3, e4]
  dsimp only
  rw [if_pos (by decide : (3 : Int) % 2 = 1)]
  have b1 : buff (!false) = .scratch := rfl
  have b2 : buff true = .scratch := rfl
  have b3 : buff false = .output := rfl
  have a1 : assertC (decide (Buf.output ≠ Buf.scratch)) = .ok () := rfl
  rw [b1, b2, b3, h, zreorderBwdV_eq, ok_bind, a1, ok_bind, put_same, asVec_e, realPreprocess_eq, ok_bind]
  refine Ok.bind (rfftb1_eq (preV (zB c) eV) _ (put_same _ _ _)) ?_
  rintro ⟨ν, b⟩ ⟨hb, h1, h2⟩
  dsimp only at hb h1 h2
  subst hb
  dsimp only
  rw [if_pos rfl, finishV_eq]
  refine Ok.ok ⟨h1, ?_⟩
  rw [h2, put_ne _ _ (by decide), put_ne _ _ (by decide)]
  exact h

/-- What the forward transform writes. -/
def outFV (a : Arr 256 F) : Arr 256 F := fun j => fl (zF (finV (passesF twV (packV (ext a))) eV)) (j.val : Int)

/-- What the backward transform writes. -/
def outBV (a : Arr 256 F) : Arr 256 F := fun j => fl (passesB twV (preV (zB (packV (ext a))) eV)) (j.val : Int)

theorem floats_filled (c : Int → Vec4 F) : asFloats (n := 64) (full 64 c) = filled (fun j : Fin 256 => fl c (j.val : Int)) :=
  asFloats_full (n := 64) c

theorem fl_pack (c : Int → F) (a : Int) : fl (packV c) a = c a := by
  have h : ∀ b : Int, ∀ r : Fin 4, packV c b r = c (4 * b + (r.val : Int)) := by
    intro b r
    match r with
    | 0 => show c (4 * b) = c (4 * b + 0); rw [Int.add_zero]
    | 1 => rfl
    | 2 => rfl
    | 3 => rfl
  rw [fl, h]
  congr 1
  dsimp only
  omega

theorem runs_outV (a : Arr 256 F) (μ : Mem F) (h : μ .input = filled a) :
    (∃ ν, transformFwdV setupV μ = .ok ν ∧ ν .output = filled (outFV a) ∧ ν .input = filled a) ∧
    (∃ ν, transformBwdV setupV μ = .ok ν ∧ ν .output = filled (outBV a) ∧ ν .input = filled a) := by
  have hi : asVec (n := 64) (μ .input) = full 64 (packV (ext a)) := by
    rw [h, filled_eq]
    exact asVec_full (n := 64) (ext a)
  have back : asFloats (n := 64) (full 64 (packV (ext a))) = filled a := by
    rw [floats_filled]
    funext j
    show some (fl (packV (ext a)) (j.val : Int)) = some (a j)
    rw [fl_pack, ext_nat]
  obtain ⟨ν, e1, e2, e3⟩ := transformFwdVec_eq (packV (ext a)) (fun b => asVec (n := 64) (μ b)) hi
  obtain ⟨ν', f1, f2, f3⟩ := transformBwdVec_eq (packV (ext a)) (fun b => asVec (n := 64) (μ b)) hi
  refine ⟨⟨fun b => asFloats (n := 64) (ν b), ?_, ?_, ?_⟩, ⟨fun b => asFloats (n := 64) (ν' b), ?_, ?_, ?_⟩⟩
  · unfold transformFwdV onVec
    rw [e1, ok_bind]
  · dsimp only
    rw [e2]
    exact floats_filled _
  · dsimp only
    rw [e3, hi]
    exact back
  · unfold transformBwdV onVec
    rw [f1, ok_bind]
  · dsimp only
    rw [f2]
    exact floats_filled _
  · dsimp only
    rw [f3, hi]
    exact back

end

/-! ## The tables over the reals -/

open Complex Finset

theorem argh_r : (argh64 : ℝ) = 2 * Real.pi / 64 := by
  rw [argh64, RealArith.toF_r, RealArith.ddiv_r, RealArith.dmul_r, RealArith.dofInt_r, RealArith.dofInt_r, RealArith.mpi_r]
  norm_num

theorem tw_val {ido l1 j : ℕ} {is : Int} (hi : l1 * ido = 16)
    (hsub : ∀ p ∈ rowW (F := ℝ) ido is (ofInt ((j : Int) * (l1 : Int)) *ᶠ argh64), p ∈ (twW : List (Int × ℝ))) : TwVal tw64 ido j is := by
  intro m h1 h2
  have hm := rowW_mem (F := ℝ) (ido := ido) (is := is) (a := ofInt ((j : Int) * (l1 : Int)) *ᶠ argh64) (u := m - 1) (by omega)
  have e1 := tw64_mem (hsub _ hm.1)
  have e2 := tw64_mem (hsub _ hm.2)
  have hc : ((m - 1 : ℕ) : Int) = (m : Int) - 1 := by omega
  have harg : (ofInt (((m - 1 : ℕ) : Int) + 1) *ᶠ (ofInt ((j : Int) * (l1 : Int)) *ᶠ argh64) : ℝ) =
      2 * Real.pi * ((j * m : ℕ) : ℝ) / ((4 * ido : ℕ) : ℝ) := by
    rw [RealArith.mul_r, RealArith.mul_r, RealArith.ofInt_r, RealArith.ofInt_r, argh_r, hc]
    have hne : (ido : ℝ) ≠ 0 := by
      have : ido ≠ 0 := by rintro rfl; omega
      exact_mod_cast this
    have hr : (l1 : ℝ) * (ido : ℝ) = 16 := by exact_mod_cast hi
    have hl : (l1 : ℝ) = 16 / (ido : ℝ) := by field_simp; exact hr
    push_cast
    rw [hl]
    field_simp
    ring
  rw [harg, RealArith.toF_r, RealArith.cos_r] at e1
  rw [harg, RealArith.toF_r, RealArith.sin_r] at e2
  exact ⟨by rw [← e1]; congr 1; omega, by rw [← e2]; congr 1; omega⟩

theorem tw_group {l1 ido : ℕ} {base : Int} (hi : l1 * ido = 16)
    (hsub : ∀ p ∈ groupW (F := ℝ) (l1 : Int) ido base, p ∈ (twW : List (Int × ℝ))) :
    TwVal tw64 ido 1 base ∧ TwVal tw64 ido 2 (base + ido) ∧ TwVal tw64 ido 3 (base + 2 * ido) := by
  refine ⟨tw_val hi ?_, tw_val hi ?_, tw_val hi ?_⟩
  · intro p hp
    rw [show ((1 : ℕ) : Int) * (l1 : Int) = (l1 : Int) by omega] at hp
    exact hsub p (List.mem_append_left _ (List.mem_append_left _ hp))
  · intro p hp
    exact hsub p (List.mem_append_left _ (List.mem_append_right _ hp))
  · intro p hp
    exact hsub p (List.mem_append_right _ hp)

theorem tw_g16 : TwVal tw64 16 1 0 ∧ TwVal tw64 16 2 16 ∧ TwVal tw64 16 3 32 := tw_group (l1 := 1) (ido := 16) (base := 0) (by rfl) fun p hp => by
  rw [twW]; exact List.mem_append_left _ hp
theorem tw_g4 : TwVal tw64 4 1 48 ∧ TwVal tw64 4 2 52 ∧ TwVal tw64 4 3 56 := tw_group (l1 := 4) (ido := 4) (base := 48) (by rfl) fun p hp => by
  rw [twW]; exact List.mem_append_right _ hp

theorem stage_zero (c : Int → ℝ) : Stage 1 64 c fun n => c (n : Int) := by
  intro b _
  refine ⟨?_, fun m h1 h2 => by omega, fun h => by omega⟩
  simp [dft, om]

theorem passesF_stage (c : Int → ℝ) : Stage 64 1 (passesF tw64 c) fun n => c (n : Int) := by
  have s0 : Stage 1 (4 * 16) c fun n => c (n : Int) := stage_zero c
  have s1 := stage_step (ido := 1) (l1 := 16) (by decide) s0 (w1 := 60) (w2 := 61) (w3 := 62) (tw_none tw64) (tw_none _) (tw_none _)
  have s2 := stage_step (ido := 4) (l1 := 4) (by decide) s1 tw_g4.1 tw_g4.2.1 tw_g4.2.2
  exact stage_step (ido := 16) (l1 := 1) (by decide) s2 tw_g16.1 tw_g16.2.1 tw_g16.2.2

theorem passesB_stage {c : Int → ℝ} {x : ℕ → ℝ} (h : Stage 64 1 c x) : ∀ n : ℕ, n < 64 → passesB tw64 c (n : Int) = 64 * x n := by
  have s2 := stage_back (ido := 16) (l1 := 1) (by decide) h tw_g16.1 tw_g16.2.1 tw_g16.2.2
  have s3 := stage_back (ido := 4) (l1 := 4) (by decide) s2 tw_g4.1 tw_g4.2.1 tw_g4.2.2
  have s4 := stage_back (ido := 1) (l1 := 16) (by decide) s3 (w1 := 60) (w2 := 61) (w3 := 62) (tw_none tw64) (tw_none _) (tw_none _)
  intro n hn
  obtain ⟨e, -, -⟩ := s4 n hn
  have e2 : passesB tw64 c (((n * 1 : ℕ) : Int)) = _ := e
  rw [Nat.mul_one] at e2
  rw [e2]
  simp [dft, om]
  ring

theorem pack_lane (c : Int → ℝ) (b : Int) (r : Fin 4) : packV c b r = c (4 * b + (r.val : Int)) := by
  match r with
  | 0 => show c (4 * b) = c (4 * b + 0); rw [Int.add_zero]
  | 1 => rfl
  | 2 => rfl
  | 3 => rfl

theorem eAng_r (k m : ℕ) : (eAng (k : Int) (m : Int) : ℝ) = -(2 * Real.pi * (((m + 1) * k : ℕ) : ℝ) / ((256 : ℕ) : ℝ)) := by
  rw [eAng, RealArith.toF_r, RealArith.ddiv_r, RealArith.dmul_r, RealArith.dmul_r, RealArith.dmul_r, RealArith.dofInt_r, RealArith.dofInt_r, RealArith.dofInt_r,
    RealArith.dofInt_r, RealArith.mpi_r]
  push_cast
  ring

theorem om_cos (N k : ℕ) : (om N k).re = Real.cos (-(2 * Real.pi * (k : ℝ) / (N : ℝ))) ∧ (om N k).im = Real.sin (-(2 * Real.pi * (k : ℝ) / (N : ℝ))) := by
  rw [om_re, om_im, Real.cos_neg, Real.sin_neg]
  exact ⟨rfl, rfl⟩

/-- The factors of a bin. -/
theorem eV_at {k : ℕ} {b : Fin 4} (hk : k < 8) {m : ℕ} (hm : m < 3) :
    (eV (6 * (k : Int) + 2 * (m : Int)) b : ℝ) = (om (4 * 64) ((m + 1) * (4 * k + b.val))).re ∧
    (eV (6 * (k : Int) + 2 * (m : Int) + 1) b : ℝ) = (om (4 * 64) ((m + 1) * (4 * k + b.val))).im := by
  have hb := b.isLt
  obtain ⟨h1, h2⟩ := eTab_mem (F := ℝ) (k := 4 * k + b.val) (m := m) (by omega) hm
  rw [RealArith.toF_r, RealArith.cos_r, eAng_r] at h1
  rw [RealArith.toF_r, RealArith.sin_r, eAng_r] at h2
  rw [(om_cos _ _).1, (om_cos _ _).2]
  rw [show (4 * k + b.val) / 4 = k by omega, show (4 * k + b.val) % 4 = b.val by omega] at h1 h2
  rw [eV, pack_lane, pack_lane]
  constructor
  · rw [← h1]; congr 1; push_cast; ring
  · rw [← h2]; congr 1; push_cast; ring

/-! ## Forward -/

theorem finR_at (C : Int → Vec4 ℝ) {k : ℕ} {b : Fin 4} (h : k = 0 → b ≠ 0) (t : Fin 4) :
    finR C (k : Int) t b = C (2 * ((4 * k + b.val : ℕ) : Int) - 1) t := by
  match b, h with
  | 0, h =>
    have hk : ¬ ((k : Int) = 0) := fun e => h (by omega) rfl
    show (if (k : Int) = 0 then _ else C (8 * (k : Int) - 1)) t = _
    rw [if_neg hk]; congr 1; push_cast; simp; ring_nf
  | 1, _ => show C _ t = C _ t; congr 1; push_cast; simp; ring_nf
  | 2, _ => show C _ t = C _ t; congr 1; push_cast; simp; ring_nf
  | 3, _ => show C _ t = C _ t; congr 1; push_cast; simp; ring_nf

theorem finI_at (C : Int → Vec4 ℝ) {k : ℕ} {b : Fin 4} (h : k = 0 → b ≠ 0) (t : Fin 4) :
    finI C (k : Int) t b = C (2 * ((4 * k + b.val : ℕ) : Int)) t := by
  match b, h with
  | 0, h =>
    have hk : ¬ ((k : Int) = 0) := fun e => h (by omega) rfl
    show (if (k : Int) = 0 then _ else C (8 * (k : Int))) t = _
    rw [if_neg hk]; congr 1; push_cast; simp; ring_nf
  | 1, _ => show C _ t = C _ t; congr 1; push_cast; simp; ring_nf
  | 2, _ => show C _ t = C _ t; congr 1; push_cast; simp; ring_nf
  | 3, _ => show C _ t = C _ t; congr 1; push_cast; simp; ring_nf

theorem finV_at (C e : Int → Vec4 ℝ) {k : ℕ} {b : Fin 4} (h : k = 0 → b ≠ 0) (n : Fin 8) :
    finV C e (8 * (k : Int) + (n.val : Int)) b =
      fin8 (fun t => C (2 * ((4 * k + b.val : ℕ) : Int) - 1) t) (fun t => C (2 * ((4 * k + b.val : ℕ) : Int)) t) (fun t => e (6 * (k : Int) + (t.val : Int)) b) n := by
  have e0 : finV C e (8 * (k : Int) + (n.val : Int)) b = finV0 C e (8 * (k : Int) + (n.val : Int)) b := by
    rw [finV]
    split
    · have hk : k = 0 := by omega
      match b, h hk with
      | 1, _ => rfl
      | 2, _ => rfl
      | 3, _ => rfl
    · rfl
  rw [e0, finV0_at, fin8_lane]
  simp only [finR_at C h, finI_at C h]

/-- The spectra of the four lanes. -/
noncomputable def lanes (x : ℕ → ℝ) (j : ℕ) : ℕ → ℂ := dft 64 fun n => x (4 * n + j)

/-- The vectors hold the spectra of the four lanes. -/
def Lanes (C : Int → Vec4 ℝ) (s : ℝ) (x : ℕ → ℝ) : Prop := ∀ j : Fin 4, Blk 64 (fun a => C a j) 0 (fun m => (s : ℂ) * lanes x j.val m)

theorem lanes_one {C : Int → Vec4 ℝ} {x : ℕ → ℝ} (h : Lanes C 1 x) (j : Fin 4) : Blk 64 (fun a => C a j) 0 (lanes x j.val) := by
  have := h j
  simp only [ofReal_one, one_mul] at this
  exact this

theorem mulCplx_om {X : ℂ} {N k : ℕ} {a b c d : ℝ} (ha : a = X.re) (hb : b = X.im) (hc : c = (om N k).re) (hd : d = (om N k).im) :
    mulCplx a b c d = ((om N k * X).re, (om N k * X).im) := by
  subst ha hb hc hd
  simp only [mulCplx, RealArith.mul_r, RealArith.add_r, RealArith.sub_r, mul_re, mul_im]
  refine Prod.ext ?_ ?_ <;> dsimp only <;> ring

theorem fin8_real {r i : Fin 4 → ℝ} {e : Fin 6 → ℝ} {X A1 A2 A3 : ℂ} (h0 : r 0 = X.re) (h0' : i 0 = X.im)
    (h1 : mulCplx (r 1) (i 1) (e 0) (e 1) = (A1.re, A1.im)) (h2 : mulCplx (r 2) (i 2) (e 2) (e 3) = (A2.re, A2.im))
    (h3 : mulCplx (r 3) (i 3) (e 4) (e 5) = (A3.re, A3.im)) :
    (fin8 r i e 0 = (X + A1 + A2 + A3).re ∧ fin8 r i e 1 = (X + A1 + A2 + A3).im) ∧
    (fin8 r i e 2 = ((starRingEnd ℂ) (X + I * A1 - A2 - I * A3)).re ∧ fin8 r i e 3 = ((starRingEnd ℂ) (X + I * A1 - A2 - I * A3)).im) ∧
    (fin8 r i e 4 = (X - I * A1 - A2 + I * A3).re ∧ fin8 r i e 5 = (X - I * A1 - A2 + I * A3).im) ∧
    (fin8 r i e 6 = ((starRingEnd ℂ) (X - A1 + A2 - A3)).re ∧ fin8 r i e 7 = ((starRingEnd ℂ) (X - A1 + A2 - A3)).im) := by
  simp only [fin8, h0, h0', h1, h2, h3, RealArith.add_r, RealArith.sub_r, conj_re, conj_im, add_re, add_im, sub_re, sub_im, mul_re, mul_im, I_re, I_im]
  refine ⟨⟨?_, ?_⟩, ⟨?_, ?_⟩, ⟨?_, ?_⟩, ?_, ?_⟩ <;> ring

/-- The eight values of a lane. -/
theorem fin8_bins {C : Int → Vec4 ℝ} {x : ℕ → ℝ} (h : Lanes C 1 x) {k : ℕ} {b : Fin 4} (hk : k < 8) (hb : k = 0 → b ≠ 0) :
    let m := 4 * k + b.val
    let Y := dft 256 x
    (finV C eV (8 * (k : Int) + 0) b = (Y m).re ∧ finV C eV (8 * (k : Int) + 1) b = (Y m).im) ∧
    (finV C eV (8 * (k : Int) + 2) b = (Y (64 - m)).re ∧ finV C eV (8 * (k : Int) + 3) b = (Y (64 - m)).im) ∧
    (finV C eV (8 * (k : Int) + 4) b = (Y (64 + m)).re ∧ finV C eV (8 * (k : Int) + 5) b = (Y (64 + m)).im) ∧
    (finV C eV (8 * (k : Int) + 6) b = (Y (128 - m)).re ∧ finV C eV (8 * (k : Int) + 7) b = (Y (128 - m)).im) := by
  intro m Y
  have hb4 := b.isLt
  have hm : 1 ≤ m := by
    by_contra hc
    have : k = 0 ∧ b.val = 0 := by omega
    exact hb this.1 (Fin.ext this.2)
  have hr : ∀ t : Fin 4, C (2 * (m : Int) - 1) t = (lanes x t.val m).re ∧ C (2 * (m : Int)) t = (lanes x t.val m).im := by
    intro t
    have := (lanes_one h t).2.1 m hm (by omega)
    rw [Int.zero_add] at this
    exact this
  have g := finV_at C eV (k := k) (b := b) hb
  have A : ∀ i : Fin 3, mulCplx (C (2 * (m : Int) - 1) ⟨i.val + 1, by omega⟩) (C (2 * (m : Int)) ⟨i.val + 1, by omega⟩) (eV (6 * (k : Int) + 2 * (i.val : Int)) b)
      (eV (6 * (k : Int) + 2 * (i.val : Int) + 1) b) = ((om (4 * 64) ((i.val + 1) * m) * lanes x (i.val + 1) m).re, (om (4 * 64) ((i.val + 1) * m) * lanes x (i.val + 1) m).im) :=
    fun i => mulCplx_om (hr _).1 (hr _).2 (eV_at hk i.isLt).1 (eV_at hk i.isLt).2
  have q := dft_quads (L := 64) (by decide) x m
  dsimp only at q
  obtain ⟨q1, q2, q3, q4⟩ := q
  have q3 := q3 (64 - m) (by omega)
  have q4 := q4 (128 - m) (by omega)
  have f := fin8_real (r := fun t => C (2 * (m : Int) - 1) t) (i := fun t => C (2 * (m : Int)) t) (e := fun t => eV (6 * (k : Int) + (t.val : Int)) b)
    (hr 0).1 (hr 0).2 (A 0) (A 1) (A 2)
  have y1 : Y m = _ := q1
  have y2 : Y (64 + m) = _ := q2
  have y3 : Y (64 - m) = _ := q3
  have y4 : Y (128 - m) = _ := q4
  rw [y1, y2, y3, y4]
  obtain ⟨⟨f0, f1⟩, ⟨f2, f3⟩, ⟨f4, f5⟩, f6, f7⟩ := f
  exact ⟨⟨(g 0).trans f0, (g 1).trans f1⟩, ⟨(g 2).trans f2, (g 3).trans f3⟩, ⟨(g 4).trans f4, (g 5).trans f5⟩, (g 6).trans f6, (g 7).trans f7⟩

theorem sqrtHalf_r : (sqrtHalf : ℝ) = Real.sqrt 2 / 2 := RealArith.sqrt1_2_r
theorem sqrtTwo_r : (sqrtTwo : ℝ) = Real.sqrt 2 := RealArith.msqrt2_r

theorem om_32 : om (4 * 64) (1 * 32) = ⟨Real.sqrt 2 / 2, -(Real.sqrt 2 / 2)⟩ ∧ om (4 * 64) (2 * 32) = -I ∧
    om (4 * 64) (3 * 32) = ⟨-(Real.sqrt 2 / 2), -(Real.sqrt 2 / 2)⟩ := by
  have o1 : om (4 * 64) (1 * 32) = ⟨Real.sqrt 2 / 2, -(Real.sqrt 2 / 2)⟩ := om_eighth (by omega)
  have o2 : om (4 * 64) (2 * 32) = -I := om_quarter (by omega)
  refine ⟨o1, o2, ?_⟩
  rw [show 3 * 32 = 1 * 32 + 2 * 32 from rfl, om_add, o1, o2]
  apply Complex.ext
  · simp
  · simp

/-- The bins 0, 128, 64, 32 and 96 in terms of the lanes. -/
theorem edge_bins (x : ℕ → ℝ) :
    (let X := fun j => (lanes x j 0).re
     (dft 256 x 0).re = X 0 + X 1 + X 2 + X 3 ∧ (dft 256 x 128).re = X 0 - X 1 + X 2 - X 3 ∧
     (dft 256 x 64).re = X 0 - X 2 ∧ (dft 256 x 64).im = X 3 - X 1) ∧
    (let X := fun j => (lanes x j 32).re
     (dft 256 x 32).re = X 0 + Real.sqrt 2 / 2 * (X 1 - X 3) ∧ (dft 256 x 32).im = -X 2 - Real.sqrt 2 / 2 * (X 1 + X 3) ∧
     (dft 256 x 96).re = X 0 - Real.sqrt 2 / 2 * (X 1 - X 3) ∧ (dft 256 x 96).im = X 2 - Real.sqrt 2 / 2 * (X 1 + X 3)) := by
  have z0 : ∀ j, (lanes x j 0).im = 0 := fun j => dft_zero_im _ _
  have z32 : ∀ j, (lanes x j 32).im = 0 := fun j => dft_half_im (L := 32) (by decide) _
  have q := dft_quads (L := 64) (by decide) x 0
  have p := dft_quads (L := 64) (by decide) x 32
  dsimp only at q p
  simp only [om_32.1, om_32.2.1, om_32.2.2] at p
  simp only [Nat.mul_zero, om_zero, one_mul] at q
  obtain ⟨q1, q2, -, q4⟩ := q
  have q4 := q4 128 rfl
  obtain ⟨p1, p2, -, -⟩ := p
  change dft 256 x 0 = lanes x 0 0 + lanes x 1 0 + lanes x 2 0 + lanes x 3 0 at q1
  change dft 256 x 64 = lanes x 0 0 - I * lanes x 1 0 - lanes x 2 0 + I * lanes x 3 0 at q2
  change dft 256 x 128 = (starRingEnd ℂ) (lanes x 0 0 - lanes x 1 0 + lanes x 2 0 - lanes x 3 0) at q4
  change dft 256 x 32 = lanes x 0 32 + ⟨Real.sqrt 2 / 2, -(Real.sqrt 2 / 2)⟩ * lanes x 1 32 + -I * lanes x 2 32 +
    ⟨-(Real.sqrt 2 / 2), -(Real.sqrt 2 / 2)⟩ * lanes x 3 32 at p1
  change dft 256 x 96 = lanes x 0 32 - I * (⟨Real.sqrt 2 / 2, -(Real.sqrt 2 / 2)⟩ * lanes x 1 32) - -I * lanes x 2 32 +
    I * (⟨-(Real.sqrt 2 / 2), -(Real.sqrt 2 / 2)⟩ * lanes x 3 32) at p2
  rw [q1, q2, q4, p1, p2]
  dsimp only
  simp only [conj_re, add_re, add_im, sub_re, sub_im, mul_re, mul_im, neg_re, neg_im, I_re, I_im, z0, z32]
  refine ⟨⟨?_, ?_, ?_, ?_⟩, ?_, ?_, ?_, ?_⟩ <;> first | ring | trivial

/-- The lowest lane of the first block. -/
theorem fin8_edge {C : Int → Vec4 ℝ} {x : ℕ → ℝ} (h : Lanes C 1 x) :
    let Y := dft 256 x
    (finV C eV 0 0 = (Y 0).re ∧ finV C eV 1 0 = (Y 128).re) ∧ (finV C eV 2 0 = (Y 32).re ∧ finV C eV 3 0 = (Y 32).im) ∧
    (finV C eV 4 0 = (Y 64).re ∧ finV C eV 5 0 = (Y 64).im) ∧ (finV C eV 6 0 = (Y 96).re ∧ finV C eV 7 0 = (Y 96).im) := by
  intro Y
  have r0 : ∀ t : Fin 4, C 0 t = (lanes x t.val 0).re := fun t => (lanes_one h t).1
  have r63 : ∀ t : Fin 4, C 63 t = (lanes x t.val 32).re := fun t => (lanes_one h t).2.2 rfl
  have g : ∀ n : Fin 8, finV C eV (n.val : Int) 0 = edge8 (C 0) (C 63) n := by
    intro n
    have h2 : low8 (n.val : Int) = n := Fin.ext (by show ((n.val : Int) % 8).toNat = n.val; omega)
    rw [finV, if_pos (by omega), h2]
    rfl
  obtain ⟨⟨y0, y128, y64, y64'⟩, y32, y32', y96, y96'⟩ := edge_bins x
  dsimp only at y0 y128 y64 y64' y32 y32' y96 y96'
  have g0 := g 0
  have g1 := g 1
  have g2 := g 2
  have g3 := g 3
  have g4 := g 4
  have g5 := g 5
  have g6 := g 6
  have g7 := g 7
  simp only [edge8, r0, r63, RealArith.add_r, RealArith.sub_r, RealArith.mul_r, RealArith.neg_r, sqrtHalf_r] at g0 g1 g2 g3 g4 g5 g6 g7
  refine ⟨⟨g0.trans ?_, g1.trans ?_⟩, ⟨g2.trans ?_, g3.trans ?_⟩, ⟨g4.trans ?_, g5.trans ?_⟩, g6.trans ?_, g7.trans ?_⟩
  · rw [y0]
    show (lanes x 0 0).re + (lanes x 2 0).re + ((lanes x 1 0).re + (lanes x 3 0).re) = _
    ring
  · rw [y128]
    show (lanes x 0 0).re + (lanes x 2 0).re - ((lanes x 1 0).re + (lanes x 3 0).re) = _
    ring
  · rw [y32]; rfl
  · rw [y32']; rfl
  · rw [y64]; rfl
  · rw [y64']; rfl
  · rw [y96]; rfl
  · rw [y96']; rfl

/-- The float at some place. -/
theorem fl_at {α : Type} (V : Int → Vec4 α) {v : Int} (b : Fin 4) : fl V (4 * v + (b.val : Int)) = V v b := congrFun (congrFun (vecs_fl V) v) b

/-- Where the parts of a bin lie. -/
theorem place_bin {M : ℕ} (h1 : 1 ≤ M) (h2 : M < 128) (s : Int) (h3 : s = 0 ∨ s = 1) :
    (M = 32 → place (2 * (M : Int) + s) = 4 * (2 + s)) ∧ (M = 96 → place (2 * (M : Int) + s) = 4 * (6 + s)) ∧
    (M = 64 → place (2 * (M : Int) + s) = 4 * (4 + s)) ∧
    (M ≠ 32 → M ≠ 96 → M ≠ 64 → ∃ (k : ℕ) (b : Fin 4) (i : Int), k < 8 ∧ (k = 0 → b ≠ 0) ∧ place (2 * (M : Int) + s) = 4 * (8 * (k : Int) + (i + s)) + (b.val : Int) ∧
      (i = 0 ∧ M = 4 * k + b.val ∨ i = 2 ∧ M = 64 - (4 * k + b.val) ∨ i = 4 ∧ M = 64 + (4 * k + b.val) ∨ i = 6 ∧ M = 128 - (4 * k + b.val))) := by
  have e1 : (2 * (M : Int) + s) / 2 = (M : Int) := by omega
  have e2 : (2 * (M : Int) + s) % 2 = s := by omega
  unfold place
  dsimp only
  rw [e1, e2]
  refine ⟨fun h => ?_, fun h => ?_, fun h => ?_, fun a1 a2 a3 => ?_⟩
  · rw [if_pos (by omega)]; omega
  · rw [if_neg (by omega), if_pos (by omega)]; omega
  · rw [if_neg (by omega), if_neg (by omega), if_neg (by omega), if_neg (by omega), if_pos (by omega)]; omega
  · have mk : ∀ (m : ℕ) (i : Int), 1 ≤ m → m < 32 → ∃ (k : ℕ) (b : Fin 4), k < 8 ∧ (k = 0 → b ≠ 0) ∧
        4 * (8 * ((m : Int) / 4) + i + s) + (m : Int) % 4 = 4 * (8 * (k : Int) + (i + s)) + (b.val : Int) ∧ m = 4 * k + b.val := by
      intro m i m1 m2
      refine ⟨m / 4, ⟨m % 4, by omega⟩, by omega, fun h e => ?_, ?_, ?_⟩
      · have := congrArg Fin.val e
        dsimp only at this
        change m % 4 = 0 at this
        omega
      · dsimp only; push_cast; ring
      · dsimp only; omega
    rw [if_neg (by omega), if_neg (by omega)]
    by_cases c1 : M < 32
    · obtain ⟨k, b, hk, hb, e, hm⟩ := mk M 0 (by omega) c1
      exact ⟨k, b, 0, hk, hb, by rw [if_pos (by omega)]; exact e, Or.inl ⟨rfl, hm⟩⟩
    by_cases c2 : M < 64
    · obtain ⟨k, b, hk, hb, e, hm⟩ := mk (64 - M) 2 (by omega) (by omega)
      rw [show ((64 - M : ℕ) : Int) = 64 - (M : Int) by omega] at e
      exact ⟨k, b, 2, hk, hb, by rw [if_neg (by omega), if_pos (by omega)]; exact e, Or.inr (Or.inl ⟨rfl, by omega⟩)⟩
    by_cases c3 : M < 96
    · obtain ⟨k, b, hk, hb, e, hm⟩ := mk (M - 64) 4 (by omega) (by omega)
      rw [show ((M - 64 : ℕ) : Int) = (M : Int) - 64 by omega] at e
      exact ⟨k, b, 4, hk, hb, by rw [if_neg (by omega), if_neg (by omega), if_pos (by omega)]; exact e, Or.inr (Or.inr (Or.inl ⟨rfl, by omega⟩))⟩
    · obtain ⟨k, b, hk, hb, e, hm⟩ := mk (128 - M) 6 (by omega) (by omega)
      rw [show ((128 - M : ℕ) : Int) = 128 - (M : Int) by omega] at e
      exact ⟨k, b, 6, hk, hb, by rw [if_neg (by omega), if_neg (by omega), if_neg (by omega)]; exact e, Or.inr (Or.inr (Or.inr ⟨rfl, by omega⟩))⟩

theorem zF_ordered {C : Int → Vec4 ℝ} {x : ℕ → ℝ} (h : Lanes C 1 x) : Ordered (fun j => fl (zF (finV C eV)) (j.val : Int)) (dft 256 x) := by
  have he := fin8_edge h
  dsimp only at he
  obtain ⟨⟨e0, e1⟩, ⟨e2, e3⟩, ⟨e4, e5⟩, e6, e7⟩ := he
  have at0 : ∀ v : Int, fl (finV C eV) (4 * v) = finV C eV v 0 := fun v => by
    have := fl_at (finV C eV) (v := v) 0
    rw [← this]; congr 1; exact (Int.add_zero _).symm
  refine ⟨?_, ?_, fun k hk => ?_⟩
  · show fl (zF (finV C eV)) 0 = _
    rw [fl_zF _ (by omega) (by omega)]
    exact e0
  · show fl (zF (finV C eV)) 1 = _
    rw [fl_zF _ (by omega) (by omega)]
    exact e1
  · have k0 : k.val ≠ 0 := fun h => hk (Fin.ext h)
    have k1 := k.isLt
    dsimp only
    have p0 := place_bin (M := k.val) (by omega) k1 0 (Or.inl rfl)
    have p1 := place_bin (M := k.val) (by omega) k1 1 (Or.inr rfl)
    have c0 : ((2 * k.val : ℕ) : Int) = 2 * (k.val : Int) + 0 := by push_cast; ring
    have c1 : ((2 * k.val + 1 : ℕ) : Int) = 2 * (k.val : Int) + 1 := by push_cast; ring
    rw [c0, c1, fl_zF _ (by omega) (by omega), fl_zF _ (by omega) (by omega)]
    by_cases h32 : k.val = 32
    · rw [p0.1 h32, p1.1 h32, at0, at0, h32]
      exact ⟨e2, e3⟩
    by_cases h96 : k.val = 96
    · rw [p0.2.1 h96, p1.2.1 h96, at0, at0, h96]
      exact ⟨e6, e7⟩
    by_cases h64 : k.val = 64
    · rw [p0.2.2.1 h64, p1.2.2.1 h64, at0, at0, h64]
      exact ⟨e4, e5⟩
    obtain ⟨n, b, i, hn, hb, q0, hi⟩ := p0.2.2.2 h32 h96 h64
    obtain ⟨n', b', i', hn', hb', q1, hi'⟩ := p1.2.2.2 h32 h96 h64
    have hbl := b.isLt
    have hbl' := b'.isLt
    have hbp : n = 0 → b.val ≠ 0 := fun h e => hb h (Fin.ext e)
    have hbp' : n' = 0 → b'.val ≠ 0 := fun h e => hb' h (Fin.ext e)
    obtain rfl : n' = n := by omega
    obtain rfl : b' = b := Fin.ext (by omega)
    obtain rfl : i' = i := by omega
    have g := fin8_bins h hn hb
    dsimp only at g
    obtain ⟨⟨g0, g1⟩, ⟨g2, g3⟩, ⟨g4, g5⟩, g6, g7⟩ := g
    rw [q0, q1, fl_at, fl_at]
    rcases hi with ⟨rfl, hM⟩ | ⟨rfl, hM⟩ | ⟨rfl, hM⟩ | ⟨rfl, hM⟩ <;> rw [hM]
    · exact ⟨g0, g1⟩
    · exact ⟨g2, g3⟩
    · exact ⟨g4, g5⟩
    · exact ⟨g6, g7⟩

theorem passesF_lanes (c : Int → ℝ) : Lanes (passesF twV (packV c)) 1 fun n => c (n : Int) := by
  intro j
  rw [passesF_lane]
  have h := passesF_stage (fun a => packV c a j) 0 (by decide)
  have e : (dft 64 fun n : ℕ => packV c (((0 + 1 * n : ℕ)) : Int) j) = fun m => ((1 : ℝ) : ℂ) * lanes (fun n => c (n : Int)) j.val m := by
    funext m
    rw [ofReal_one, one_mul, lanes]
    congr 1
    funext n
    rw [pack_lane]
    congr 1
    push_cast
    ring
  rw [e] at h
  exact h

theorem outFV_ordered (a : Arr 256 ℝ) : Ordered (outFV a) (dft 256 (seqOf a)) := by
  have h := zF_ordered (passesF_lanes (ext a))
  have e : dft 256 (fun n => ext a (n : Int)) = dft 256 (seqOf a) := funext fun k => dft_congr (ext_seq a) k
  rw [e] at h
  exact h

/-! ## Backward -/

theorem place_inv {k : ℕ} {b : Fin 4} (hk : k < 8) (hb : k = 0 → b ≠ 0) {s : Int} (hs : s = 0 ∨ s = 1) {i : Int} {M : ℕ}
    (h : i = 0 ∧ M = 4 * k + b.val ∨ i = 2 ∧ M = 64 - (4 * k + b.val) ∨ i = 4 ∧ M = 64 + (4 * k + b.val) ∨ i = 6 ∧ M = 128 - (4 * k + b.val)) :
    place (2 * (M : Int) + s) = 4 * (8 * (k : Int) + (i + s)) + (b.val : Int) := by
  have hb4 := b.isLt
  have hbp : k = 0 → b.val ≠ 0 := fun h e => hb h (Fin.ext e)
  obtain ⟨k', b', i', hk', hb', e, h'⟩ := (place_bin (M := M) (by omega) (by omega) s hs).2.2.2 (by omega) (by omega) (by omega)
  have hb4' := b'.isLt
  have hbp' : k' = 0 → b'.val ≠ 0 := fun h e => hb' h (Fin.ext e)
  obtain rfl : k' = k := by omega
  obtain rfl : b' = b := Fin.ext (by omega)
  obtain rfl : i' = i := by omega
  exact e

theorem mulConj_om {X : ℂ} {N k : ℕ} {a b c d : ℝ} (ha : a = 4 * (om N k * X).re) (hb : b = 4 * (om N k * X).im) (hc : c = (om N k).re) (hd : d = (om N k).im) :
    mulConj a b c d = (4 * X.re, 4 * X.im) := by
  have h1 : (om N k).re * (om N k).re + (om N k).im * (om N k).im = 1 := by
    rw [om_re, om_im]
    have := Real.sin_sq_add_cos_sq (2 * Real.pi * (k : ℝ) / (N : ℝ))
    linear_combination this
  subst ha hb hc hd
  simp only [mulConj, RealArith.mul_r, RealArith.add_r, RealArith.sub_r, mul_re, mul_im]
  refine Prod.ext ?_ ?_ <;> dsimp only
  · linear_combination (4 * X.re) * h1
  · linear_combination (4 * X.im) * h1

theorem pre4_real {v : Fin 8 → ℝ} {e : Fin 6 → ℝ} {X0 X1 X2 X3 : ℂ} {N k1 k2 k3 : ℕ}
    (h0 : v 0 = (X0 + om N k1 * X1 + om N k2 * X2 + om N k3 * X3).re ∧ v 1 = (X0 + om N k1 * X1 + om N k2 * X2 + om N k3 * X3).im)
    (h2 : v 2 = ((starRingEnd ℂ) (X0 + I * (om N k1 * X1) - om N k2 * X2 - I * (om N k3 * X3))).re ∧
      v 3 = ((starRingEnd ℂ) (X0 + I * (om N k1 * X1) - om N k2 * X2 - I * (om N k3 * X3))).im)
    (h4 : v 4 = (X0 - I * (om N k1 * X1) - om N k2 * X2 + I * (om N k3 * X3)).re ∧ v 5 = (X0 - I * (om N k1 * X1) - om N k2 * X2 + I * (om N k3 * X3)).im)
    (h6 : v 6 = ((starRingEnd ℂ) (X0 - om N k1 * X1 + om N k2 * X2 - om N k3 * X3)).re ∧ v 7 = ((starRingEnd ℂ) (X0 - om N k1 * X1 + om N k2 * X2 - om N k3 * X3)).im)
    (e1 : e 0 = (om N k1).re ∧ e 1 = (om N k1).im) (e2 : e 2 = (om N k2).re ∧ e 3 = (om N k2).im) (e3 : e 4 = (om N k3).re ∧ e 5 = (om N k3).im) :
    pre4 v e 0 = (4 * X0.re, 4 * X0.im) ∧ pre4 v e 1 = (4 * X1.re, 4 * X1.im) ∧ pre4 v e 2 = (4 * X2.re, 4 * X2.im) ∧ pre4 v e 3 = (4 * X3.re, 4 * X3.im) := by
  generalize hA1 : om N k1 * X1 = A1 at *
  generalize hA2 : om N k2 * X2 = A2 at *
  generalize hA3 : om N k3 * X3 = A3 at *
  simp only [conj_re, conj_im, add_re, add_im, sub_re, sub_im, mul_re, mul_im, I_re, I_im] at h0 h2 h4 h6
  refine ⟨?_, mulConj_om ?_ ?_ e1.1 e1.2, mulConj_om ?_ ?_ e2.1 e2.2, mulConj_om ?_ ?_ e3.1 e3.2⟩
  · simp only [pre4, h0, h2, h4, h6, RealArith.add_r, RealArith.sub_r]
    refine Prod.ext ?_ ?_ <;> dsimp only <;> ring
  all_goals
    simp only [hA1, hA2, hA3, h0, h2, h4, h6, RealArith.add_r, RealArith.sub_r]
    ring

theorem transpose4_lane {α : Type} (f : Fin 4 → Vec4 α) (b t : Fin 4) : transpose4 (f 0) (f 1) (f 2) (f 3) b t = f t b := by
  match t with
  | 0 => rfl
  | 1 => rfl
  | 2 => rfl
  | 3 => rfl

theorem pre_bins {V : Int → Vec4 ℝ} {x : ℕ → ℝ} {k : ℕ} {b : Fin 4} (hk : k < 8)
    (h : let m := 4 * k + b.val
      let Y := dft 256 x
      (V (8 * (k : Int) + 0) b = (Y m).re ∧ V (8 * (k : Int) + 1) b = (Y m).im) ∧
      (V (8 * (k : Int) + 2) b = (Y (64 - m)).re ∧ V (8 * (k : Int) + 3) b = (Y (64 - m)).im) ∧
      (V (8 * (k : Int) + 4) b = (Y (64 + m)).re ∧ V (8 * (k : Int) + 5) b = (Y (64 + m)).im) ∧
      (V (8 * (k : Int) + 6) b = (Y (128 - m)).re ∧ V (8 * (k : Int) + 7) b = (Y (128 - m)).im)) (t : Fin 4) :
    preR V eV (k : Int) b t = 4 * (lanes x t.val (4 * k + b.val)).re ∧ preI V eV (k : Int) b t = 4 * (lanes x t.val (4 * k + b.val)).im := by
  have hb4 := b.isLt
  dsimp only at h
  obtain ⟨m, hm⟩ : ∃ m, m = 4 * k + b.val := ⟨_, rfl⟩
  rw [← hm] at h ⊢
  have q := dft_quads (L := 64) (by decide) x m
  dsimp only at q
  obtain ⟨q1, q2, q3, q4⟩ := q
  have q3 := q3 (64 - m) (by omega)
  have q4 := q4 (128 - m) (by omega)
  rw [show dft 256 x m = _ from q1, show dft 256 x (64 + m) = _ from q2, show dft 256 x (64 - m) = _ from q3, show dft 256 x (128 - m) = _ from q4] at h
  obtain ⟨h0, h2, h4, h6⟩ := h
  have E : ∀ i : Fin 3, _ := fun i => eV_at (b := b) hk (m := i.val) i.isLt
  rw [← hm] at E
  have key := pre4_real (v := fun n => V (8 * (k : Int) + (n.val : Int)) b) (e := fun n => eV (6 * (k : Int) + (n.val : Int)) b)
    h0 h2 h4 h6 (E 0) (E 1) (E 2)
  have hl := pre4_lane (fun n => V (8 * (k : Int) + (n.val : Int))) (fun n => eV (6 * (k : Int) + (n.val : Int))) t b
  have r1 : preR V eV (k : Int) b t = (preP V eV (k : Int) t).1 b := transpose4_lane (fun t => (preP V eV (k : Int) t).1) b t
  have r2 : preI V eV (k : Int) b t = (preP V eV (k : Int) t).2 b := transpose4_lane (fun t => (preP V eV (k : Int) t).2) b t
  rw [r1, r2, preP, hl.1, hl.2]
  have : pre4 (fun n => V (8 * (k : Int) + (n.val : Int)) b) (fun n => eV (6 * (k : Int) + (n.val : Int)) b) t = (4 * (lanes x t.val m).re, 4 * (lanes x t.val m).im) := by
    match t with
    | 0 => exact key.1
    | 1 => exact key.2.1
    | 2 => exact key.2.2.1
    | 3 => exact key.2.2.2
  rw [this]
  exact ⟨rfl, rfl⟩

theorem preV_lanes {c : Int → ℝ} {x : ℕ → ℝ} (h : Ordered (fun j => c (j.val : Int)) (dft 256 x)) : Lanes (preV (zB (packV c)) eV) 4 x := by
  obtain ⟨h0, h1, hk⟩ := h
  have val : ∀ (M : ℕ) (s : Int), M < 128 → (s = 0 ∨ s = 1) → fl (zB (packV c)) (place (2 * (M : Int) + s)) = c (2 * (M : Int) + s) := by
    intro M s hM hs
    rw [fl_zB _ (by omega) (by omega), fl_pack]
  have bin : ∀ M : ℕ, 1 ≤ M → M < 128 → c (2 * (M : Int) + 0) = (dft 256 x M).re ∧ c (2 * (M : Int) + 1) = (dft 256 x M).im := by
    intro M m1 m2
    obtain ⟨r, i⟩ := hk ⟨M, m2⟩ (fun e => by have := congrArg Fin.val e; dsimp at this; omega)
    dsimp only at r i
    push_cast at r i
    rw [Int.add_zero]
    exact ⟨r, i⟩
  generalize hV : zB (packV c) = V at val
  have at0 : ∀ v : Int, V v 0 = fl V (4 * v) := fun v => by
    rw [← fl_at V (v := v) 0]; congr 1; exact Int.add_zero _
  have edge : ∀ (M : ℕ) (n : Int), (M = 32 ∧ n = 2 ∨ M = 64 ∧ n = 4 ∨ M = 96 ∧ n = 6) → V n 0 = (dft 256 x M).re ∧ V (n + 1) 0 = (dft 256 x M).im := by
    intro M n hn
    have b := bin M (by omega) (by omega)
    have p0 := place_bin (M := M) (by omega) (by omega) 0 (Or.inl rfl)
    have p1 := place_bin (M := M) (by omega) (by omega) 1 (Or.inr rfl)
    have v0 := val M 0 (by omega) (Or.inl rfl)
    have v1 := val M 1 (by omega) (Or.inr rfl)
    rw [at0, at0, ← b.1, ← b.2, ← v0, ← v1]
    rcases hn with ⟨e, rfl⟩ | ⟨e, rfl⟩ | ⟨e, rfl⟩
    · rw [p0.1 e, p1.1 e]; exact ⟨rfl, rfl⟩
    · rw [p0.2.2.1 e, p1.2.2.1 e]; exact ⟨rfl, rfl⟩
    · rw [p0.2.1 e, p1.2.1 e]; exact ⟨rfl, rfl⟩
  have v0 : V 0 0 = (dft 256 x 0).re := by
    have := val 0 0 (by omega) (Or.inl rfl)
    rw [at0]
    exact this.trans h0
  have v1 : V 1 0 = (dft 256 x 128).re := by
    have := val 0 1 (by omega) (Or.inr rfl)
    rw [at0]
    exact this.trans h1
  obtain ⟨v2, v3⟩ := edge 32 2 (by omega)
  obtain ⟨v4, v5⟩ := edge 64 4 (by omega)
  obtain ⟨v6, v7⟩ := edge 96 6 (by omega)
  rw [show (2 : Int) + 1 = 3 from rfl] at v3
  rw [show (4 : Int) + 1 = 5 from rfl] at v5
  rw [show (6 : Int) + 1 = 7 from rfl] at v7
  obtain ⟨⟨y0, y128, y64, y64'⟩, y32, y32', y96, y96'⟩ := edge_bins x
  dsimp only at y0 y128 y64 y64' y32 y32' y96 y96'
  rw [y0] at v0
  rw [y128] at v1
  rw [y64] at v4
  rw [y64'] at v5
  rw [y32] at v2
  rw [y32'] at v3
  rw [y96] at v6
  rw [y96'] at v7
  have hs : Real.sqrt 2 * Real.sqrt 2 = 2 := Real.mul_self_sqrt (by norm_num)
  intro j
  have r4 : ∀ m, (((4 : ℝ) : ℂ) * lanes x j.val m).re = 4 * (lanes x j.val m).re ∧ (((4 : ℝ) : ℂ) * lanes x j.val m).im = 4 * (lanes x j.val m).im :=
    fun m => ⟨by rw [re_ofReal_mul], by rw [im_ofReal_mul]⟩
  refine ⟨?_, fun m m1 m2 => ?_, fun _ => ?_⟩
  · rw [(r4 0).1]
    show preV V eV 0 j = _
    rw [preV, if_pos rfl, preFst, v0, v1, v4, v5]
    simp only [RealArith.add_r, RealArith.sub_r, RealArith.mul_r, RealArith.fi_r]
    match j with
    | 0 => show (_ : ℝ) = 4 * (lanes x 0 0).re; simp [Model.v4]; ring
    | 1 => show (_ : ℝ) = 4 * (lanes x 1 0).re; simp [Model.v4]; ring
    | 2 => show (_ : ℝ) = 4 * (lanes x 2 0).re; simp [Model.v4]; ring
    | 3 => show (_ : ℝ) = 4 * (lanes x 3 0).re; simp [Model.v4]; ring
  · rw [(r4 m).1, (r4 m).2, Int.zero_add]
    obtain ⟨k, b, hk8, rfl⟩ : ∃ (k : ℕ) (b : Fin 4), k < 8 ∧ m = 4 * k + b.val := ⟨m / 4, ⟨m % 4, by omega⟩, by omega, by dsimp only; omega⟩
    have hb4 := b.isLt
    have hb : k = 0 → b ≠ 0 := fun h e => by
      have : b.val = 0 := congrArg Fin.val e
      omega
    obtain ⟨p1, p2⟩ := preV_at V eV (k := (k : Int)) (by omega) (by omega) b (fun h => hb (by omega))
    rw [show 8 * (k : Int) - 1 + 2 * (b.val : Int) = 2 * ((4 * k + b.val : ℕ) : Int) - 1 by omega] at p1
    rw [show 8 * (k : Int) + 2 * (b.val : Int) = 2 * ((4 * k + b.val : ℕ) : Int) by omega] at p2
    have vals : ∀ (M : ℕ) (i : Int), (i = 0 ∧ M = 4 * k + b.val ∨ i = 2 ∧ M = 64 - (4 * k + b.val) ∨ i = 4 ∧ M = 64 + (4 * k + b.val) ∨
        i = 6 ∧ M = 128 - (4 * k + b.val)) →
        V (8 * (k : Int) + (i + 0)) b = (dft 256 x M).re ∧ V (8 * (k : Int) + (i + 1)) b = (dft 256 x M).im := by
      intro M i hi
      have h1 : 1 ≤ M := by omega
      have h2 : M < 128 := by omega
      have bb := bin M h1 h2
      have a0 := val M 0 h2 (Or.inl rfl)
      have a1 := val M 1 h2 (Or.inr rfl)
      rw [place_inv (k := k) (b := b) hk8 hb (Or.inl rfl) hi, fl_at] at a0
      rw [place_inv (k := k) (b := b) hk8 hb (Or.inr rfl) hi, fl_at] at a1
      exact ⟨a0.trans bb.1, a1.trans bb.2⟩
    have := pre_bins (V := V) (x := x) (k := k) (b := b) hk8
      ⟨vals _ 0 (by omega), vals _ 2 (by omega), vals _ 4 (by omega), vals _ 6 (by omega)⟩ j
    dsimp only
    rw [p1, p2]
    exact this
  · rw [(r4 _).1]
    show preV V eV 63 j = 4 * (lanes x j.val 32).re
    rw [preV, if_neg (by omega), if_pos rfl, preLst, v2, v3, v6, v7]
    simp only [RealArith.add_r, RealArith.sub_r, RealArith.mul_r, RealArith.fi_r, RealArith.neg_r, sqrtTwo_r]
    match j with
    | 0 => show (_ : ℝ) = 4 * (lanes x 0 32).re; simp [Model.v4]; ring
    | 1 => show (_ : ℝ) = 4 * (lanes x 1 32).re; simp [Model.v4]; linear_combination (2 * (lanes x 1 32).re) * hs
    | 2 => show (_ : ℝ) = 4 * (lanes x 2 32).re; simp [Model.v4]; ring
    | 3 => show (_ : ℝ) = 4 * (lanes x 3 32).re; simp [Model.v4]; linear_combination (2 * (lanes x 3 32).re) * hs

theorem outBV_ordered {a : Arr 256 ℝ} {x : ℕ → ℝ} (h : Ordered a (dft 256 x)) (j : Fin 256) : outBV a j = 256 * x j.val := by
  have e : (fun j : Fin 256 => ext a (j.val : Int)) = a := funext fun j => ext_nat a j
  have hl := preV_lanes (c := ext a) (x := x) (by rw [e]; exact h)
  have hj := j.isLt
  obtain ⟨n, t, hn, ht⟩ : ∃ (n : ℕ) (t : Fin 4), n < 64 ∧ j.val = 4 * n + t.val := ⟨j.val / 4, ⟨j.val % 4, by omega⟩, by omega, by dsimp only; omega⟩
  have hs : Stage 64 1 (fun a' => preV (zB (packV (ext a))) eV a' t) fun n => 4 * x (4 * n + t.val) := by
    intro b hb
    obtain rfl : b = 0 := by omega
    have e2 : (dft 64 fun n => 4 * x (4 * (0 + 1 * n) + t.val)) = fun m => ((4 : ℝ) : ℂ) * lanes x t.val m := by
      funext m
      rw [lanes, ← dft_smul]
      congr 1
      funext n
      rw [Nat.zero_add, Nat.one_mul]
    rw [e2]
    exact hl t
  have hp := passesB_stage hs n hn
  have hL := congrFun (passesB_lane (preV (zB (packV (ext a))) eV) t) (n : Int)
  rw [outBV, ht, show ((4 * n + t.val : ℕ) : Int) = 4 * (n : Int) + (t.val : Int) by push_cast; ring, fl_at, hL, hp]
  ring

/-! ## Both builds compute the same in exact arithmetic -/

theorem ordered_unique {a b : Arr 256 ℝ} {X : ℕ → ℂ} (ha : Ordered a X) (hb : Ordered b X) : a = b := by
  obtain ⟨a0, a1, ak⟩ := ha
  obtain ⟨b0, b1, bk⟩ := hb
  funext j
  have hj := j.isLt
  by_cases j0 : j.val = 0
  · obtain rfl : j = 0 := Fin.ext j0
    rw [a0, b0]
  by_cases j1 : j.val = 1
  · obtain rfl : j = 1 := Fin.ext j1
    rw [a1, b1]
  have hk : (⟨j.val / 2, by omega⟩ : Fin 128) ≠ 0 := fun h => by have := congrArg Fin.val h; dsimp at this; omega
  obtain ⟨c1, c2⟩ := ak _ hk
  obtain ⟨d1, d2⟩ := bk _ hk
  rcases Nat.mod_two_eq_zero_or_one j.val with h | h
  · have : j = ⟨2 * (j.val / 2), by omega⟩ := Fin.ext (by dsimp only; omega)
    rw [this, d1, c1]
  · have : j = ⟨2 * (j.val / 2) + 1, by omega⟩ := Fin.ext (by dsimp only; omega)
    rw [this, d2, c2]

theorem outFV_eq : (outFV : Arr 256 ℝ → Arr 256 ℝ) = outF := funext fun a => ordered_unique (outFV_ordered a) (outF_ordered a)

theorem outBV_eq : (outBV : Arr 256 ℝ → Arr 256 ℝ) = outB := by
  funext a j
  obtain ⟨x, _, h⟩ := ordered_exists a
  rw [outBV_ordered h, outB_ordered h]

end Verif.Model.Vec
