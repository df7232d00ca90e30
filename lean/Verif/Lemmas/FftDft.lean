import Verif.Lemmas.FftBack

/-!
# The transforms over the reals are the discrete Fourier transform and its inverse
-/

namespace Verif.Model
open Verif Verif.Spec Arith Complex Finset

/-! ## The twiddle factors -/

theorem rowW_mem {F : Type} [Arith F] {ido : ℕ} {is : Int} {a : F} {u : ℕ} (hu : u < (ido - 1) / 2) :
    (is + 2 * (u : Int), toF (cos (ofInt ((u : Int) + 1) *ᶠ a))) ∈ rowW ido is a ∧
    (is + 2 * (u : Int) + 1, toF (sin (ofInt ((u : Int) + 1) *ᶠ a))) ∈ rowW ido is a := by
  constructor
  · exact List.mem_flatMap.2 ⟨u, List.mem_range.2 hu, List.mem_cons_self⟩
  · exact List.mem_flatMap.2 ⟨u, List.mem_range.2 hu, List.mem_cons_of_mem _ List.mem_cons_self⟩

theorem argh_r : (argh256 : ℝ) = 2 * Real.pi / 256 := by
  rw [argh256, RealArith.toF_r, RealArith.ddiv_r, RealArith.dmul_r, RealArith.dofInt_r, RealArith.dofInt_r, RealArith.mpi_r]
  norm_num

theorem tw_val {ido l1 j : ℕ} {is : Int} (hi : l1 * ido = 64)
    (hsub : ∀ p ∈ rowW (F := ℝ) ido is (ofInt ((j : Int) * (l1 : Int)) *ᶠ argh256), p ∈ (twW : List (Int × ℝ))) : TwVal tw256 ido j is := by
  intro m h1 h2
  have hm := rowW_mem (F := ℝ) (ido := ido) (is := is) (a := ofInt ((j : Int) * (l1 : Int)) *ᶠ argh256) (u := m - 1) (by omega)
  have e1 := tw256_mem (hsub _ hm.1)
  have e2 := tw256_mem (hsub _ hm.2)
  have hc : ((m - 1 : ℕ) : Int) = (m : Int) - 1 := by omega
  have harg : (ofInt (((m - 1 : ℕ) : Int) + 1) *ᶠ (ofInt ((j : Int) * (l1 : Int)) *ᶠ argh256) : ℝ) =
      2 * Real.pi * ((j * m : ℕ) : ℝ) / ((4 * ido : ℕ) : ℝ) := by
    rw [RealArith.mul_r, RealArith.mul_r, RealArith.ofInt_r, RealArith.ofInt_r, argh_r, hc]
    have hne : (ido : ℝ) ≠ 0 := by
      have : ido ≠ 0 := by rintro rfl; omega
      exact_mod_cast this
    have hr : (l1 : ℝ) * (ido : ℝ) = 64 := by exact_mod_cast hi
    have hl : (l1 : ℝ) = 64 / (ido : ℝ) := by field_simp; exact hr
    push_cast
    rw [hl]
    field_simp
    ring
  rw [harg, RealArith.toF_r, RealArith.cos_r] at e1
  rw [harg, RealArith.toF_r, RealArith.sin_r] at e2
  exact ⟨by rw [← e1]; congr 1; omega, by rw [← e2]; congr 1; omega⟩

theorem tw_none {j : ℕ} {is : Int} (w : Int → ℝ) : TwVal w 1 j is := fun m h1 h2 => by omega

theorem tw_group {l1 ido : ℕ} {base : Int} (hi : l1 * ido = 64)
    (hsub : ∀ p ∈ groupW (F := ℝ) (l1 : Int) ido base, p ∈ (twW : List (Int × ℝ))) :
    TwVal tw256 ido 1 base ∧ TwVal tw256 ido 2 (base + ido) ∧ TwVal tw256 ido 3 (base + 2 * ido) := by
  refine ⟨tw_val hi ?_, tw_val hi ?_, tw_val hi ?_⟩
  · intro p hp
    rw [show ((1 : ℕ) : Int) * (l1 : Int) = (l1 : Int) by omega] at hp
    exact hsub p (List.mem_append_left _ (List.mem_append_left _ hp))
  · intro p hp
    exact hsub p (List.mem_append_left _ (List.mem_append_right _ hp))
  · intro p hp
    exact hsub p (List.mem_append_right _ hp)

theorem tw_g64 : TwVal tw256 64 1 0 ∧ TwVal tw256 64 2 64 ∧ TwVal tw256 64 3 128 := tw_group (l1 := 1) (ido := 64) (base := 0) (by rfl) fun p hp => by
  rw [twW]; exact List.mem_append_left _ (List.mem_append_left _ hp)
theorem tw_g16 : TwVal tw256 16 1 192 ∧ TwVal tw256 16 2 208 ∧ TwVal tw256 16 3 224 := tw_group (l1 := 4) (ido := 16) (base := 192) (by rfl) fun p hp => by
  rw [twW]; exact List.mem_append_left _ (List.mem_append_right _ hp)
theorem tw_g4 : TwVal tw256 4 1 240 ∧ TwVal tw256 4 2 244 ∧ TwVal tw256 4 3 248 := tw_group (l1 := 16) (ido := 4) (base := 240) (by rfl) fun p hp => by
  rw [twW]; exact List.mem_append_right _ hp

/-! ## All passes -/

theorem stage_zero (c : Int → ℝ) : Stage 1 256 c fun n => c (n : Int) := by
  intro b _
  refine ⟨?_, fun m h1 h2 => by omega, fun h => by omega⟩
  simp [dft, om]

theorem passesF_stage (c : Int → ℝ) : Stage 256 1 (passesF c) fun n => c (n : Int) := by
  have s0 : Stage 1 (4 * 64) c fun n => c (n : Int) := stage_zero c
  have s1 := stage_step (ido := 1) (l1 := 64) (by decide) s0 (w1 := 252) (w2 := 253) (w3 := 254) (tw_none tw256) (tw_none _) (tw_none _)
  have s2 := stage_step (ido := 4) (l1 := 16) (by decide) s1 tw_g4.1 tw_g4.2.1 tw_g4.2.2
  have s3 := stage_step (ido := 16) (l1 := 4) (by decide) s2 tw_g16.1 tw_g16.2.1 tw_g16.2.2
  exact stage_step (ido := 64) (l1 := 1) (by decide) s3 tw_g64.1 tw_g64.2.1 tw_g64.2.2

theorem passesB_stage {c : Int → ℝ} {x : ℕ → ℝ} (h : Stage 256 1 c x) : ∀ n : ℕ, n < 256 → passesB c (n : Int) = 256 * x n := by
  have s1 := stage_back (ido := 64) (l1 := 1) (by decide) h tw_g64.1 tw_g64.2.1 tw_g64.2.2
  have s2 := stage_back (ido := 16) (l1 := 4) (by decide) s1 tw_g16.1 tw_g16.2.1 tw_g16.2.2
  have s3 := stage_back (ido := 4) (l1 := 16) (by decide) s2 tw_g4.1 tw_g4.2.1 tw_g4.2.2
  have s4 := stage_back (ido := 1) (l1 := 64) (by decide) s3 (w1 := 252) (w2 := 253) (w3 := 254) (tw_none tw256) (tw_none _) (tw_none _)
  intro n hn
  obtain ⟨e, -, -⟩ := s4 n hn
  have e2 : passesB c (((n * 1 : ℕ) : Int)) = _ := e
  rw [Nat.mul_one] at e2
  rw [e2]
  simp [dft, om]
  ring

/-! ## The layout -/

theorem ordered_reoF {c : Int → ℝ} {x : ℕ → ℝ} (h : Stage 256 1 c x) : Ordered (fun j => reoF c (j.val : Int)) (dft 256 x) := by
  obtain ⟨h0, hm, hh⟩ := h 0 (by decide)
  have ex : (fun n => x (0 + 1 * n)) = x := funext fun n => by congr 1; omega
  rw [ex] at h0 hm hh
  refine ⟨?_, ?_, ?_⟩
  · exact h0
  · exact hh rfl
  · intro k hk
    have hk0 : k.val ≠ 0 := fun h => hk (Fin.ext h)
    have := k.isLt
    obtain ⟨r, i⟩ := hm k.val (by omega) (by omega)
    dsimp only
    constructor
    · rw [reoF, if_neg (by omega), if_neg (by omega), ← r]
      congr 1
      push_cast
      omega
    · rw [reoF, if_neg (by omega), if_neg (by omega), ← i]
      congr 1
      push_cast
      omega

theorem stage_reoB {c : Int → ℝ} {x : ℕ → ℝ} (h : Ordered (fun j => c (j.val : Int)) (dft 256 x)) : Stage 256 1 (reoB c) x := by
  intro b hb
  obtain rfl : b = 0 := by omega
  have ex : (fun n => x (0 + 1 * n)) = x := funext fun n => by congr 1; omega
  rw [ex]
  obtain ⟨h0, h1, hk⟩ := h
  refine ⟨?_, ?_, ?_⟩
  · exact h0
  · intro m m1 m2
    obtain ⟨r, i⟩ := hk ⟨m, by omega⟩ (fun h => by have := congrArg Fin.val h; dsimp at this; omega)
    dsimp only at r i
    constructor
    · rw [reoB, if_neg (by omega), if_neg (by omega), ← r]
      congr 1
      push_cast
      omega
    · rw [reoB, if_neg (by omega), if_neg (by omega), ← i]
      congr 1
      push_cast
      omega
  · intro _
    exact h1

/-! ## The inverse of the discrete Fourier transform -/

theorem om_pow (N a n : ℕ) : om N (a * n) = om N a ^ n := by
  induction n with
  | zero => rw [Nat.mul_zero, om_zero, pow_zero]
  | succ n ih => rw [Nat.mul_succ, om_add, ih, pow_succ]

theorem om_eq_one {N a : ℕ} (hN : N ≠ 0) : om N a = 1 ↔ a % N = 0 := by
  have hN' : (N : ℝ) ≠ 0 := by exact_mod_cast hN
  constructor
  · intro h
    rw [om, Complex.exp_eq_one_iff] at h
    obtain ⟨n, hn⟩ := h
    have h2 : ((-(2 * Real.pi * (a : ℝ) / (N : ℝ)) : ℝ) : ℂ) = ((n * (2 * Real.pi) : ℝ) : ℂ) := by
      apply mul_right_cancel₀ I_ne_zero
      rw [hn]; push_cast; ring
    have h3 := Complex.ofReal_injective h2
    have h4 : -(a : ℝ) = n * N := by
      have hp : (2 * Real.pi) ≠ 0 := by positivity
      field_simp at h3
      linarith
    have h5 : -(a : Int) = n * (N : Int) := by exact_mod_cast h4
    have h6 : (N : Int) ∣ (a : Int) := ⟨-n, by rw [Int.mul_neg, Int.mul_comm, ← h5]; omega⟩
    exact Nat.mod_eq_zero_of_dvd (by exact_mod_cast h6)
  · intro h
    obtain ⟨t, rfl⟩ := Nat.dvd_of_mod_eq_zero h
    rw [om_pow, om_self hN, one_pow]

/-- Orthogonality. -/
theorem om_sum {N : ℕ} (hN : N ≠ 0) (a : ℕ) : ∑ n ∈ range N, om N (a * n) = if a % N = 0 then (N : ℂ) else 0 := by
  simp only [om_pow]
  by_cases h : a % N = 0
  · rw [if_pos h, (om_eq_one hN).2 h]
    simp
  · rw [if_neg h]
    have h1 : om N a - 1 ≠ 0 := fun e => h ((om_eq_one hN).1 (sub_eq_zero.1 e))
    have h2 := mul_geom_sum (om N a) N
    rw [← om_pow, Nat.mul_comm, om_pow, om_self hN, one_pow, sub_self] at h2
    exact (mul_eq_zero.1 h2).resolve_left h1

theorem om_conj_sub {N l n : ℕ} (h : l ≤ N) (hN : N ≠ 0) : (starRingEnd ℂ) (om N (l * n)) = om N ((N - l) * n) := by
  have e : om N (l * n) * om N ((N - l) * n) = 1 := by
    rw [← om_add, ← Nat.add_mul, om_pow, show l + (N - l) = N by omega, om_self hN, one_pow]
  have e2 : om N (l * n) * (starRingEnd ℂ) (om N (l * n)) = 1 := by rw [mul_comm]; exact om_conj_mul _ _
  have hne : om N (l * n) ≠ 0 := fun h => by rw [h, zero_mul] at e; exact zero_ne_one e
  exact mul_left_cancel₀ hne (e2.trans e.symm)

/-- The inverse sum. -/
noncomputable def invSum (N : ℕ) (Z : ℕ → ℂ) (n : ℕ) : ℂ := ∑ k ∈ range N, Z k * (starRingEnd ℂ) (om N (k * n))

theorem invSum_re {N : ℕ} {Z : ℕ → ℂ} (hN : N ≠ 0) (h0 : (starRingEnd ℂ) (Z 0) = Z 0) (hZ : ∀ k, 0 < k → k < N → Z (N - k) = (starRingEnd ℂ) (Z k)) (n : ℕ) :
    (starRingEnd ℂ) (invSum N Z n) = invSum N Z n := by
  obtain ⟨M, rfl⟩ : ∃ M, N = M + 1 := ⟨N - 1, by omega⟩
  rw [invSum, map_sum, sum_range_succ', sum_range_succ' (fun k => Z k * _)]
  congr 1
  · rw [← sum_range_reflect]
    refine sum_congr rfl fun k hk => ?_
    have hk := mem_range.1 hk
    have e : M - 1 - k + 1 = M + 1 - (k + 1) := by omega
    rw [e, map_mul, Complex.conj_conj, hZ _ (by omega) (by omega), Complex.conj_conj, om_conj_sub (by omega) hN]
  · rw [map_mul, h0, Nat.zero_mul, om_zero, map_one]
    simp

theorem dft_inv {N : ℕ} {Z : ℕ → ℂ} (hN : N ≠ 0) {x : ℕ → ℝ} (hx : ∀ n, (x n : ℂ) = invSum N Z n) {k : ℕ} (hk : k < N) :
    dft N x k = N * Z k := by
  rw [dft]
  simp only [hx, invSum]
  have e : ∀ n, (∑ l ∈ range N, Z l * (starRingEnd ℂ) (om N (l * n))) * om N (k * n) =
      ∑ l ∈ range N, Z l * om N ((N - l + k) * n) := by
    intro n
    rw [sum_mul]
    refine sum_congr rfl fun l hl => ?_
    rw [om_conj_sub (mem_range.1 hl).le hN, mul_assoc, ← om_add, ← Nat.add_mul]
  simp only [e]
  rw [sum_comm]
  simp only [← mul_sum, om_sum hN]
  rw [sum_eq_single k]
  · rw [if_pos (by rw [show N - k + k = N by omega, Nat.mod_self]), mul_comm]
  · intro l hl hne
    have hl := mem_range.1 hl
    rw [if_neg, mul_zero]
    intro h
    rcases Nat.lt_or_ge l k with h1 | h1
    · rw [show N - l + k = (k - l) + N by omega, Nat.add_mod_right, Nat.mod_eq_of_lt (by omega)] at h
      omega
    · rw [Nat.mod_eq_of_lt (by omega)] at h
      omega
  · intro h
    exact absurd (mem_range.2 hk) h

end Verif.Model
