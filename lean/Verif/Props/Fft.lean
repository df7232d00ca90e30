import Verif.Lemmas.FftEnv
import Verif.Lemmas.SafeReal
import Verif.Props.Unvoiced

/-!
# C61–C64: the transform of 256 floats
-/

namespace Verif.Props
open Verif Verif.Spec Verif.Model Verif.Num Verif.Gen Arith

section
variable {F : Type} [Arith F]

/-! ## C61 -/

/-- `pffft_new_setup(256, PFFFT_REAL)` finds the factors 4, 4, 4, 4 and does not return null: no access is out of bounds, no
`assert` fails, and 252 twiddle factors that the passes read are set. -/
theorem C61_setup : ∃ S : Setup F, newSetup256 = .ok (some S) ∧ S.N = 256 ∧ S.Ncvec * 2 = 256 ∧
    S.ifac.rd 0 = .ok 256 ∧ S.ifac.rd 1 = .ok 4 ∧ ∀ i : Int, 2 ≤ i → i ≤ 5 → S.ifac.rd i = .ok 4 := by
  refine ⟨setup256, newSetup256_eq, rfl, rfl, rfl, rfl, fun i h1 h2 => ?_⟩
  rcases (show i = 2 ∨ i = 3 ∨ i = 4 ∨ i = 5 by omega) with rfl | rfl | rfl | rfl <;> rfl

/-- In every arithmetic and for every input, both transforms end without undefined behaviour: all accesses are in bounds, no
uninitialised float is read (the output and scratch blocks may hold anything, also nothing), no `assert` fails. The input
stays as it is and the output is a function of the input alone. -/
theorem C61_run : ∃ (S : Setup F) (f g : Arr 256 F → Arr 256 F), newSetup256 = .ok (some S) ∧
    ∀ (a : Arr 256 F) (μ : Mem F), μ .input = filled a →
      (∃ ν, transformFwd S μ = .ok ν ∧ ν .output = filled (f a) ∧ ν .input = filled a) ∧
      (∃ ν, transformBwd S μ = .ok ν ∧ ν .output = filled (g a) ∧ ν .input = filled a) :=
  ⟨setup256, outF, outB, newSetup256_eq, runs_out⟩

/-- So the two functions of the environment that all other theorems leave open exist, and the code determines them. -/
theorem C61_env (alloc lax : Bool) :
    (∃ E : Env F, Runs E ∧ E.alloc = alloc ∧ E.lax = lax) ∧
    ∀ E E' : Env F, Runs E → Runs E' → E.fwd = E'.fwd ∧ E.bwd = E'.bwd := by
  refine ⟨⟨⟨outF, outB, alloc, lax⟩, ⟨setup256, newSetup256_eq, runs_out⟩, rfl, rfl⟩, fun E E' h h' => ?_⟩
  rw [(runs_eq h).1, (runs_eq h).2, (runs_eq h').1, (runs_eq h').2]
  exact ⟨rfl, rfl⟩

/-- Blocks without any initialised element besides the input. -/
example : ∃ μ : Mem ℝ, μ .input = filled (Arr.const 256 1) ∧ μ .output = Loc.fresh 256 ℝ ∧ μ .scratch = Loc.fresh 256 ℝ :=
  ⟨fun b => if b = .input then filled (Arr.const 256 1) else Loc.fresh 256 ℝ, rfl, rfl, rfl⟩

/-- An uninitialised input is noticed. -/
example : transformFwd (setup256 : Setup (IEEE libm0)) (fun _ => Loc.fresh 256 _) = .error .uninit := by rfl

end

/-! ## C62 -/

/-- In exact arithmetic the forward transform is the discrete Fourier transform of its input, in the layout that
`mbe_unvoiced_fft.c` assumes. -/
theorem C62_forward (E : Env ℝ) (h : Runs E) (a : Arr 256 ℝ) : Ordered (E.fwd a) (dft 256 (seqOf a)) := by
  rw [(runs_eq h).1]
  exact outF_ordered a

/-- The same with all bins: bin `k` of the result is `∑ a(n)·exp(-2πi·kn/256)`. -/
theorem C62_bins (E : Env ℝ) (h : Runs E) (a : Arr 256 ℝ) (k : ℕ) (hk : k < 256) :
    binAt (E.fwd a) k = ∑ n ∈ Finset.range 256, (seqOf a n : ℂ) * Complex.exp (-(2 * Real.pi * k * n / 256) * Complex.I) := by
  rw [(ordered_iff _ _).1 (C62_forward E h a) k hk, dft]
  refine Finset.sum_congr rfl fun n _ => ?_
  rw [om]
  congr 2
  push_cast
  ring

/-- Parts of the result as sums of cosines and sines. -/
theorem C62_real (E : Env ℝ) (h : Runs E) (a : Arr 256 ℝ) (k : ℕ) (h0 : 1 ≤ k) (hk : k < 128) :
    E.fwd a ⟨2 * k, by omega⟩ = ∑ n ∈ Finset.range 256, seqOf a n * Real.cos (2 * Real.pi * (k * n) / 256) ∧
    E.fwd a ⟨2 * k + 1, by omega⟩ = -∑ n ∈ Finset.range 256, seqOf a n * Real.sin (2 * Real.pi * (k * n) / 256) := by
  obtain ⟨r, i⟩ := (C62_forward E h a).2.2 ⟨k, hk⟩ (fun e => by have := congrArg Fin.val e; dsimp at this; omega)
  dsimp only at r i
  rw [r, i, dft, Complex.re_sum, Complex.im_sum, ← Finset.sum_neg_distrib]
  constructor
  · refine Finset.sum_congr rfl fun n _ => ?_
    rw [Complex.re_ofReal_mul, om_re]
    push_cast
    rfl
  · refine Finset.sum_congr rfl fun n _ => ?_
    rw [Complex.im_ofReal_mul, om_im]
    push_cast
    ring

/-- Energy is kept: the powers of all 256 bins sum to 256 times the sum of the squared samples. -/
theorem C62_parseval (E : Env ℝ) (h : Runs E) (a : Arr 256 ℝ) :
    ∑ k ∈ Finset.range 256, Complex.normSq (binAt (E.fwd a) k) = 256 * ∑ n ∈ Finset.range 256, seqOf a n ^ 2 := by
  have e := dft_parseval (N := 256) (by decide) (seqOf a)
  push_cast at e
  rw [← e]
  exact Finset.sum_congr rfl fun k hk => by rw [(ordered_iff _ _).1 (C62_forward E h a) k (Finset.mem_range.1 hk)]

/-- The constants of the code for -√½ and -√2, which exact arithmetic takes as these numbers, are the binary32 numbers
nearest to them (spacing 2^-24 and 2^-23 at these magnitudes). -/
theorem C62_constants {m : Libm} : ∃ p q : ℚ, Val (minusHsqt2 : IEEE m) p ∧ Val (minusSqrt2 : IEEE m) q ∧
    |(p : ℝ) - (minusHsqt2 : ℝ)| < 1 / 2 ^ 25 ∧ |(q : ℝ) - (minusSqrt2 : ℝ)| < 1 / 2 ^ 24 ∧
    (minusHsqt2 : ℝ) = -Real.sqrt (1 / 2) ∧ (minusSqrt2 : ℝ) = -Real.sqrt 2 := by
  have h2 : Real.sqrt 2 * Real.sqrt 2 = 2 := Real.mul_self_sqrt (by norm_num)
  have h0 := Real.sqrt_nonneg 2
  have hs : Real.sqrt 2 / 2 = Real.sqrt (1 / 2) := by
    rw [eq_comm, Real.sqrt_eq_iff_mul_self_eq (by norm_num) (by positivity)]
    linear_combination -1 / 4 * h2
  have lo : 23726565 / 16777216 < Real.sqrt 2 := by
    by_contra hc
    nlinarith [not_lt.1 hc]
  have hi : Real.sqrt 2 < 23726567 / 16777216 := by
    by_contra hc
    nlinarith [not_lt.1 hc]
  refine ⟨-11863283 / 16777216, -11863283 / 8388608, ⟨_, consts0.1⟩, ⟨_, consts0.2⟩, ?_, ?_, ?_, minusSqrt2_r⟩
  · rw [minusHsqt2_r, abs_lt]
    push_cast
    constructor <;> linarith
  · rw [minusSqrt2_r, abs_lt]
    push_cast
    constructor <;> linarith
  · rw [minusHsqt2_r, hs]

/-- The spectrum of an impulse at 1: bin 64 is `-i`. -/
example (E : Env ℝ) (h : Runs E) : E.fwd (fun i => if i.val = 1 then 1 else 0) ⟨129, by omega⟩ = -1 := by
  have e := (C62_real E h (fun i => if i.val = 1 then 1 else 0) 64 (by decide) (by decide)).2
  rw [e, Finset.sum_eq_single 1]
  · have : 2 * Real.pi * ((64 : ℕ) * (1 : ℕ)) / 256 = Real.pi / 2 := by push_cast; ring
    rw [this, Real.sin_pi_div_two]
    simp [seqOf]
  · intro n hn hne
    rw [seqOf, dif_pos (Finset.mem_range.1 hn), if_neg hne, zero_mul]
  · intro hn
    exact absurd (Finset.mem_range.2 (by decide)) hn

/-! ## C63 -/

/-- In exact arithmetic the backward transform is the unnormalised inverse: element `n` is `∑ X(k)·exp(2πi·kn/256)` over all
256 bins, the upper half being the conjugates of the lower half. -/
theorem C63_backward (E : Env ℝ) (h : Runs E) (a : Arr 256 ℝ) (n : Fin 256) :
    ((E.bwd a n : ℝ) : ℂ) = ∑ k ∈ Finset.range 256, binAt a k * Complex.exp (2 * Real.pi * k * n.val / 256 * Complex.I) := by
  rw [(runs_eq h).2, outB_inv, invSum]
  refine Finset.sum_congr rfl fun k _ => ?_
  rw [om, ← Complex.exp_conj]
  congr 2
  rw [map_mul, Complex.conj_I, Complex.conj_ofReal]
  push_cast
  ring

/-- Both round trips multiply by 256 (src/external/pffft/pffft.h:117-120: "BACKWARD(FORWARD(x)) = N*x"). -/
theorem C63_roundtrip (E : Env ℝ) (h : Runs E) (a : Arr 256 ℝ) :
    E.bwd (E.fwd a) = (fun i => 256 * a i) ∧ E.fwd (E.bwd a) = (fun i => 256 * a i) := by
  rw [(runs_eq h).1, (runs_eq h).2]
  exact ⟨funext fun j => outB_outF a j, funext fun j => outF_outB a j⟩

/-- Neither transform loses information. -/
theorem C63_bijective (E : Env ℝ) (h : Runs E) : Function.Bijective E.fwd ∧ Function.Bijective E.bwd := by
  have r := C63_roundtrip E h
  have cancel : ∀ {a b : Arr 256 ℝ}, (fun i => 256 * a i) = (fun i => 256 * b i) → a = b := fun e =>
    funext fun i => mul_left_cancel₀ (by norm_num : (256 : ℝ) ≠ 0) (congrFun e i)
  have lin : ∀ a : Arr 256 ℝ, (fun i : Fin 256 => 256 * (fun i => 1 / 256 * a i : Arr 256 ℝ) i) = a := fun a => by
    funext i
    ring
  refine ⟨⟨fun a b e => cancel ?_, fun b => ?_⟩, ⟨fun a b e => cancel ?_, fun b => ?_⟩⟩
  · rw [← (r a).1, ← (r b).1, e]
  · exact ⟨_, ((r _).2).trans (lin b)⟩
  · rw [← (r a).2, ← (r b).2, e]
  · exact ⟨_, ((r _).1).trans (lin b)⟩

/-- A single real bin gives a constant. -/
example (E : Env ℝ) (h : Runs E) (n : Fin 256) : E.bwd (fun i => if i.val = 0 then 3 else 0) n = 3 := by
  have e := C63_backward E h (fun i => if i.val = 0 then 3 else 0) n
  rw [Finset.sum_eq_single 0] at e
  · have e2 : ((E.bwd (fun i => if i.val = 0 then 3 else 0) n : ℝ) : ℂ) = ((3 : ℝ) : ℂ) := by
      rw [e]; simp [binAt]
    exact Complex.ofReal_injective e2
  · intro k hk hne
    have hk := Finset.mem_range.1 hk
    have : binAt (fun i => if i.val = 0 then 3 else 0) k = 0 := by
      rw [binAt, if_neg hne]
      have z : ∀ j, j ≠ 0 → seqOf (fun i => if i.val = 0 then 3 else 0) j = 0 := fun j hj => by
        by_cases h : j < 256
        · rw [seqOf, dif_pos h, if_neg hj]
        · rw [seqOf, dif_neg h]
      rw [z _ (by omega), z _ (by omega), z _ (by omega), z _ (by omega), neg_zero]
      have h1 : ¬ ((1 : Fin 256).val = 0) := by decide
      rw [if_neg h1]
      split
      · simp
      · split <;> rfl
    rw [this, zero_mul]
  · intro hn
    exact absurd (Finset.mem_range.2 (by decide)) hn

/-! ## C64 -/

/-- In exact arithmetic, the block `u` that unvoiced synthesis hands to the overlap-add has this spectrum: bin `k` of the
noise, windowed, times a gain `S k`, which is zero for bin 128 and for every bin that lies in no unvoiced band. -/
theorem C64_spectrum (E : Env ℝ) (hE : Runs E) (P : Plan ℝ) (noise : Arr 256 ℝ) (cur prev : Parms ℝ) (out : Arr 160 ℝ)
    (hL : cur.L ≤ 56) (r : Arr 160 ℝ × Arr 256 ℝ) (h : unvoiced E P noise cur prev out = .ok r) :
    ∃ S : Fin 129 → ℝ,
      (∀ k : Fin 129, dft 256 (seqOf r.2) k.val = (S k : ℂ) * dft 256 (seqOf fun i => noise i * winAt ((i.val : Int) - 128)) k.val) ∧
      S ⟨128, by omega⟩ = 0 ∧
      ∀ k : Fin 129, (∀ (l : Fin 57) (lo hi : Int), 1 ≤ l.val → (l.val : Int) ≤ cur.L → Edges cur.w0 l.val lo hi →
        lo ≤ k.val → (k.val : Int) < hi → cur.Vl l ≠ 0) → S k = 0 := by
  obtain ⟨S, h1, h2, h3⟩ := C39_only_unvoiced E P noise cur prev out hL r h
  refine ⟨S, fun k => ?_, h2.trans Int.cast_zero, fun k hk => (h3 k hk).trans Int.cast_zero⟩
  rw [h1]
  exact dft_scaled E hE _ S k

/-- In exact arithmetic, whatever the noise, each unvoiced band of the block that goes to the overlap-add has power
`(146.17696·Ml)²` per bin if the noise has power above 1e-10 in the band, and none otherwise. -/
theorem C64_energy (E : Env ℝ) (hE : Runs E) (P : Plan ℝ) (noise : Arr 256 ℝ) (cur prev : Parms ℝ) (out : Arr 160 ℝ)
    (hL : cur.L ≤ 56) (hw : 0 ≤ cur.w0) (r : Arr 160 ℝ × Arr 256 ℝ) (h : unvoiced E P noise cur prev out = .ok r)
    (l : Fin 57) (lo hi : ℕ) (h1 : 1 ≤ l.val) (h2 : (l.val : Int) ≤ cur.L) (h3 : cur.Vl l = 0) (h4 : Edges cur.w0 l.val lo hi) :
    let p := ∑ k ∈ Finset.Ico lo hi, Complex.normSq (dft 256 (seqOf fun i => noise i * winAt ((i.val : Int) - 128)) k)
    let q := ∑ k ∈ Finset.Ico lo hi, Complex.normSq (dft 256 (seqOf r.2) k)
    (1 / 10000000000 < p → q = (146.17696 * cur.Ml l) ^ 2 * ((hi : ℝ) - lo)) ∧ (p ≤ 1 / 10000000000 → q = 0) := by
  obtain ⟨X, e1, e2⟩ := C39_energy E P noise cur prev out hL hw r h
  have hh : (hi : Int) ≤ 128 := by
    obtain ⟨a, b, _, _, _, e⟩ := h4
    omega
  have e3 := e2 l lo hi h1 h2 h3 h4
  dsimp only at e3 ⊢
  have w1 : bandPower (E.fwd fun i => noise i *ᶠ winAt ((i.val : Int) - 128)) lo hi =
      ∑ k ∈ Finset.Ico lo hi, Complex.normSq (dft 256 (seqOf fun i => noise i * winAt ((i.val : Int) - 128)) k) := by
    rw [bandPower_bins _ (by omega)]
    refine Finset.sum_congr rfl fun k hk => ?_
    have hk := (Finset.mem_Ico.1 hk).2
    rw [(ordered_iff _ _).1 (C62_forward E hE _) k (by omega)]
    rfl
  have w2 : bandPower X lo hi = ∑ k ∈ Finset.Ico lo hi, Complex.normSq (dft 256 (seqOf r.2) k) := by
    rw [bandPower_bins _ (by omega)]
    refine Finset.sum_congr rfl fun k hk => ?_
    have hk := (Finset.mem_Ico.1 hk).2
    rw [e1, dft_normalized E hE X (by omega)]
  rw [w1, w2] at e3
  have hc : (((hi : Int) - (lo : Int) : Int) : ℝ) = (hi : ℝ) - lo := by push_cast; rfl
  rw [hc] at e3
  exact e3

/-- With a fundamental of π/64 and ten bands, unvoiced synthesis succeeds and band 3 has the bins 5 and 6. -/
example (E : Env ℝ) (P : Plan ℝ) (noise : Arr 256 ℝ) (cur prev : Parms ℝ) (out : Arr 160 ℝ) (hw : cur.w0 = Real.pi / 64)
    (hL : cur.L = 10) : (∃ r, unvoiced E P noise cur prev out = .ok r) ∧ Edges cur.w0 3 5 7 := by
  have hp := Real.pi_pos
  have h4 := Real.pi_le_four
  have h0 : 0 ≤ cur.w0 := by rw [hw]; positivity
  have ha : |cur.w0| ≤ 32768 := by rw [abs_of_nonneg h0, hw]; linarith
  have hr : ∃ r, unvoiced E P noise cur prev out = .ok r := by
    have := unvoiced_fine (U := fun _ => False) E P noise cur prev out (by omega) (.inl (edgeConv_real ha (by omega)))
    unfold OkU at this
    rcases this with ⟨r, h, _⟩ | ⟨u, _, h⟩
    · exact ⟨r, h⟩
    · exact h.elim
  refine ⟨hr, ?_⟩
  obtain ⟨r, h⟩ := hr
  obtain ⟨lo, hi, S, h1, _⟩ := C39_spectrum E P noise cur prev out (by omega) r h
  have he := (h1 3 (by decide) (by omega)).1
  obtain ⟨e1, e2⟩ := edges_real h0 (by decide) he
  have hm : 256 / (2 * Real.pi) * cur.w0 = 2 := by rw [hw]; field_simp; norm_num
  rw [hm] at e1 e2
  have f1 : ((3 : ℕ) - 1 / 2 : ℝ) * 2 = ((5 : Int) : ℝ) := by norm_num
  have f2 : ((3 : ℕ) + 1 / 2 : ℝ) * 2 = ((7 : Int) : ℝ) := by norm_num
  rw [f1, Int.ceil_intCast] at e1
  rw [f2, Int.ceil_intCast] at e2
  rw [e1, e2] at he
  exact he

end Verif.Props
