import Verif.Lemmas.FftReal

/-!
# The backward passes over the reals
-/

namespace Verif.Model
open Verif Verif.Spec Arith Complex

theorem dft_smul (N : ℕ) (t : ℝ) (x : ℕ → ℝ) (k : ℕ) : dft N (fun n => t * x n) k = (t : ℂ) * dft N x k := by
  rw [dft, dft, Finset.mul_sum]
  refine Finset.sum_congr rfl fun n _ => ?_
  rw [ofReal_mul, mul_assoc]

theorem mem_endsB {F : Type} [Arith F] {ido l1 t : Nat} (ht : t < l1) (c w : Int → F) (w1 w2 w3 : Int) {p : Int × F}
    (h : p ∈ endsB ido 64 c (4 * ((t * ido : Nat) : Int)) ((t * ido : Nat) : Int)) : p ∈ passB ido l1 c w w1 w2 w3 :=
  List.mem_append_left _ (List.mem_flatMap.2 ⟨t, List.mem_range.2 ht, h⟩)

theorem mem_midB {F : Type} [Arith F] {ido l1 t u : Nat} (ht : t < l1) (hu : u < (ido - 1) / 2) (c w : Int → F) (w1 w2 w3 : Int) {p : Int × F}
    (h : p ∈ midB ido 64 c w w1 w2 w3 ((2 * u + 2 : Nat) : Int) (-1 + 4 * ((t * ido : Nat) : Int)) (((t * ido : Nat) : Int) + ((2 * u + 2 : Nat) : Int) - 1)) :
    p ∈ passB ido l1 c w w1 w2 w3 := by
  rw [passB, if_neg (by omega)]
  exact List.mem_append_right _ (List.mem_append_left _ (List.mem_flatMap.2 ⟨t, List.mem_range.2 ht,
    List.mem_flatMap.2 ⟨u, List.mem_range.2 hu, h⟩⟩))

theorem mem_halfB {F : Type} [Arith F] {ido l1 t : Nat} (ht : t < l1) (hi : ido ≠ 1) (c w : Int → F) (w1 w2 w3 : Int) {p : Int × F}
    (h : p ∈ halfB ido 64 c ((t * ido : Nat) : Int)) : p ∈ passB ido l1 c w w1 w2 w3 := by
  rw [passB, if_neg hi]
  exact List.mem_append_right _ (List.mem_append_right _ (List.mem_flatMap.2 ⟨t, List.mem_range.2 ht, h⟩))

/-- Multiplication by the conjugate of a twiddle factor takes it away. -/
theorem mulCplx_r {w : Int → ℝ} {L j m : ℕ} {wj : Int} {X : ℂ} (hw : TwVal w L j wj) (h1 : 1 ≤ m) (h2 : 2 * m < L)
    {a b : ℝ} (ha : a = 4 * (om (4 * L) (j * m) * X).re) (hb : b = 4 * (om (4 * L) (j * m) * X).im) :
    mulCplx a b (w (wj + (2 * (m : Int) - 2))) (w (wj + (2 * (m : Int) - 1))) = (4 * X.re, 4 * X.im) := by
  obtain ⟨e1, e2⟩ := hw m h1 h2
  rw [e1, e2, ha, hb, mul_re, mul_im, om_re, om_im]
  have hs := Real.sin_sq_add_cos_sq (2 * Real.pi * ((j * m : ℕ) : ℝ) / ((4 * L : ℕ) : ℝ))
  generalize Real.sin (2 * Real.pi * ((j * m : ℕ) : ℝ) / ((4 * L : ℕ) : ℝ)) = s at hs ⊢
  generalize Real.cos (2 * Real.pi * ((j * m : ℕ) : ℝ) / ((4 * L : ℕ) : ℝ)) = t at hs ⊢
  simp only [mulCplx, RealArith.mul_r, RealArith.add_r, RealArith.sub_r]
  refine Prod.ext ?_ ?_ <;> dsimp only
  · linear_combination (4 * X.re) * hs
  · linear_combination (4 * X.im) * hs

theorem stage_back {ido l1 : ℕ} (hp : (ido, l1) ∈ passes) {c w : Int → ℝ} {w1 w2 w3 : Int} {x : ℕ → ℝ}
    (hs : Stage (4 * ido) l1 c x) (t1 : TwVal w ido 1 w1) (t2 : TwVal w ido 2 w2) (t3 : TwVal w ido 3 w3) :
    Stage ido (4 * l1) (stepB ido l1 w w1 w2 w3 c) fun n => 4 * x n := by
  intro b hb4
  have hq : l1 * ido = 64 := by
    rcases mem_passes hp with ⟨rfl, rfl⟩ | ⟨rfl, rfl⟩ | ⟨rfl, rfl⟩ | ⟨rfl, rfl⟩ <;> rfl
  have hL : ido ≠ 0 := by rintro rfl; omega
  have hl : 0 < l1 := by omega
  obtain ⟨k, j, hk, hj, rfl⟩ : ∃ k j, k < l1 ∧ j < 4 ∧ b = k + l1 * j :=
    ⟨b % l1, b / l1, Nat.mod_lt _ hl, Nat.div_lt_of_lt_mul (by rw [Nat.mul_comm]; exact hb4), (Nat.mod_add_div _ _).symm⟩
  have hpar : ido = 1 ∨ ido % 2 = 0 := by
    rcases mem_passes hp with ⟨rfl, rfl⟩ | ⟨rfl, rfl⟩ | ⟨rfl, rfl⟩ | ⟨rfl, rfl⟩ <;> omega
  obtain ⟨y, hy⟩ : ∃ y : ℕ → ℝ, y = fun n => x (k + l1 * n) := ⟨_, rfl⟩
  obtain ⟨X, hX⟩ : ∃ X : ℕ → ℕ → ℂ, X = fun j => dft ido (fun n => y (4 * n + j)) := ⟨_, rfl⟩
  have e1 : ((((k + l1 * j) * ido : ℕ)) : Int) = ((k * ido : ℕ) : Int) + 64 * (j : Int) := by
    have : (k + l1 * j) * ido = k * ido + 64 * j := by rw [← hq]; ring
    rw [this]; push_cast; ring
  have e2 : (dft ido fun n => 4 * x (k + l1 * j + 4 * l1 * n)) = fun m => 4 * X j m := by
    funext m
    rw [dft_smul, hX, hy, show (fun n => x (k + l1 * j + 4 * l1 * n)) = fun n => x (k + l1 * (4 * n + j)) from funext fun n => by congr 1; ring]
    norm_cast
  have hbk := hs k hk
  have hbase : ((k * (4 * ido) : ℕ) : Int) = 4 * ((k * ido : ℕ) : Int) := by push_cast; ring
  rw [hbase, ← hy] at hbk
  rw [e1, e2]
  clear e1 e2 hs
  generalize hK : ((k * ido : ℕ) : Int) = K at hbk ⊢
  obtain ⟨y0, ym, yh⟩ := hbk
  have yh := yh (by omega)
  have z0 : ∀ j, (X j 0).im = 0 := fun j => by rw [hX]; exact dft_zero_im _ _
  have hX' : ∀ j m, dft ido (fun n => y (4 * n + j)) m = X j m := fun j m => by rw [hX]
  have r4 : ∀ z : ℂ, (4 * z).re = 4 * z.re := fun z => by simp
  have i4 : ∀ z : ℂ, (4 * z).im = 4 * z.im := fun z => by simp
  refine ⟨?_, ?_, ?_⟩
  · have ei : ∀ p ∈ endsB (ido : Int) 64 c (4 * K) K, stepB ido l1 w w1 w2 w3 c p.1 = p.2 := fun p hp' =>
      stepB_mem hp (mem_endsB hk c w w1 w2 w3 (by rw [hK]; exact hp'))
    have q0 := dft_quads hL y 0
    dsimp only at q0
    simp only [hX'] at q0
    simp only [Nat.mul_zero, om_zero, one_mul, Nat.add_zero] at q0
    obtain ⟨q00, q01, -, q03⟩ := q0
    have q03 := q03 (2 * ido) rfl
    have v2 := ym ido (by omega) (by omega)
    rw [q01] at v2
    rw [q00] at y0
    rw [show 4 * ido / 2 = 2 * ido by omega, q03] at yh
    have a1 : c (4 * K + (4 * (ido : Int) - 1)) = (X 0 0 - X 1 0 + X 2 0 - X 3 0).re := by
      rw [← conj_re, ← yh]; congr 1; push_cast; ring
    have a2 : c (4 * K + (2 * (ido : Int) - 1)) = (X 0 0 - I * X 1 0 - X 2 0 + I * X 3 0).re := by
      rw [← v2.1]; congr 1; ring
    have a3 : c (4 * K + 2 * (ido : Int)) = (X 0 0 - I * X 1 0 - X 2 0 + I * X 3 0).im := by
      rw [← v2.2]
    simp only [endsB, List.mem_cons, List.not_mem_nil, or_false, forall_eq_or_imp, forall_eq, y0, a1, a2, a3, RealArith.add_r, RealArith.sub_r,
      RealArith.mul_r, RealArith.fi_r] at ei
    obtain ⟨s0, s2, s1, s3⟩ := ei
    rw [r4]
    rcases (show j = 0 ∨ j = 1 ∨ j = 2 ∨ j = 3 by omega) with rfl | rfl | rfl | rfl
    · rw [show K + 64 * ((0 : ℕ) : Int) = K + 0 * 64 by rfl, s0]
      simp only [add_re, sub_re, add_im, sub_im, mul_re, mul_im, I_re, I_im, z0]; push_cast; ring
    · rw [show K + 64 * ((1 : ℕ) : Int) = K + 1 * 64 by rfl, s1]
      simp only [add_re, sub_re, add_im, sub_im, mul_re, mul_im, I_re, I_im, z0]; push_cast; ring
    · rw [show K + 64 * ((2 : ℕ) : Int) = K + 2 * 64 by rfl, s2]
      simp only [add_re, sub_re, add_im, sub_im, mul_re, mul_im, I_re, I_im, z0]; push_cast; ring
    · rw [show K + 64 * ((3 : ℕ) : Int) = K + 3 * 64 by rfl, s3]
      simp only [add_re, sub_re, add_im, sub_im, mul_re, mul_im, I_re, I_im, z0]; push_cast; ring
  · intro m h1 h2
    have ei : ∀ p ∈ midB (ido : Int) 64 c w w1 w2 w3 (2 * (m : Int)) (-1 + 4 * K) (K + 2 * (m : Int) - 1), stepB ido l1 w w1 w2 w3 c p.1 = p.2 := by
      intro p hp'
      refine stepB_mem hp (mem_midB (u := m - 1) hk (by omega) c w w1 w2 w3 ?_)
      have e : ((2 * (m - 1) + 2 : ℕ) : Int) = 2 * (m : Int) := by omega
      rw [e, hK]; exact hp'
    obtain ⟨qa, qb, qc, qd⟩ := dft_quads hL y m
    have qc := qc (ido - m) (by omega)
    have qd := qd (2 * ido - m) (by omega)
    simp only [hX'] at qa qb qc qd
    have va := ym m (by omega) (by omega)
    have vb := ym (ido + m) (by omega) (by omega)
    have vc := ym (ido - m) (by omega) (by omega)
    have vd := ym (2 * ido - m) (by omega) (by omega)
    rw [qa] at va
    rw [qb] at vb
    rw [qc] at vc
    rw [qd] at vd
    generalize hA1 : om (4 * ido) (1 * m) * X 1 m = A1 at va vb vc vd
    generalize hA2 : om (4 * ido) (2 * m) * X 2 m = A2 at va vb vc vd
    generalize hA3 : om (4 * ido) (3 * m) * X 3 m = A3 at va vb vc vd
    have c1 : c (-1 + 4 * K + 2 * (m : Int)) = (X 0 m + A1 + A2 + A3).re := by
      rw [← va.1]; congr 1; ring
    have c2 : c (-1 + 4 * K + (2 * (m : Int) + 1)) = (X 0 m + A1 + A2 + A3).im := by
      rw [← va.2]; congr 1; ring
    have c3 : c (-1 + 4 * K + (4 * (ido : Int) - 2 * (m : Int))) = (X 0 m - A1 + A2 - A3).re := by
      rw [← conj_re, ← vd.1]; congr 1; omega
    have c4 : c (-1 + 4 * K + (4 * (ido : Int) - 2 * (m : Int) + 1)) = -(X 0 m - A1 + A2 - A3).im := by
      rw [← conj_im, ← vd.2]; congr 1; omega
    have c5 : c (-1 + 4 * K + (2 * (ido : Int) + 2 * (m : Int))) = (X 0 m - I * A1 - A2 + I * A3).re := by
      rw [← vb.1]; congr 1; omega
    have c6 : c (-1 + 4 * K + (2 * (ido : Int) + 2 * (m : Int) + 1)) = (X 0 m - I * A1 - A2 + I * A3).im := by
      rw [← vb.2]; congr 1; omega
    have c7 : c (-1 + 4 * K + (2 * (ido : Int) - 2 * (m : Int))) = (X 0 m + I * A1 - A2 - I * A3).re := by
      rw [← conj_re, ← vc.1]; congr 1; omega
    have c8 : c (-1 + 4 * K + (2 * (ido : Int) - 2 * (m : Int) + 1)) = -(X 0 m + I * A1 - A2 - I * A3).im := by
      rw [← conj_im, ← vc.2]; congr 1; omega
    simp only [midB, List.mem_cons, List.not_mem_nil, or_false, forall_eq_or_imp, forall_eq, c1, c2, c3, c4, c5, c6, c7, c8] at ei
    rw [mulCplx_r (X := X 1 m) t1 h1 h2 (by
        rw [hA1]; simp only [RealArith.add_r, RealArith.sub_r, add_re, sub_re, add_im, sub_im, mul_re, mul_im, I_re, I_im]; ring) (by
        rw [hA1]; simp only [RealArith.add_r, RealArith.sub_r, add_re, sub_re, add_im, sub_im, mul_re, mul_im, I_re, I_im]; ring),
      mulCplx_r (X := X 2 m) t2 h1 h2 (by
        rw [hA2]; simp only [RealArith.add_r, RealArith.sub_r, add_re, sub_re, add_im, sub_im, mul_re, mul_im, I_re, I_im]; ring) (by
        rw [hA2]; simp only [RealArith.add_r, RealArith.sub_r, add_re, sub_re, add_im, sub_im, mul_re, mul_im, I_re, I_im]; ring),
      mulCplx_r (X := X 3 m) t3 h1 h2 (by
        rw [hA3]; simp only [RealArith.add_r, RealArith.sub_r, add_re, sub_re, add_im, sub_im, mul_re, mul_im, I_re, I_im]; ring) (by
        rw [hA3]; simp only [RealArith.add_r, RealArith.sub_r, add_re, sub_re, add_im, sub_im, mul_re, mul_im, I_re, I_im]; ring)] at ei
    obtain ⟨g0, g0', g1, g1', g2, g2', g3, g3'⟩ := ei
    dsimp only at g1 g1' g2 g2' g3 g3'
    rw [r4, i4]
    rcases (show j = 0 ∨ j = 1 ∨ j = 2 ∨ j = 3 by omega) with rfl | rfl | rfl | rfl
    · constructor
      · rw [show K + 64 * ((0 : ℕ) : Int) + 2 * (m : Int) - 1 = K + 2 * (m : Int) - 1 by omega, g0]
        simp only [RealArith.add_r, RealArith.sub_r, add_re, sub_re, add_im, sub_im, mul_re, mul_im, I_re, I_im]; ring
      · rw [show K + 64 * ((0 : ℕ) : Int) + 2 * (m : Int) = K + 2 * (m : Int) - 1 + 1 by omega, g0']
        simp only [RealArith.add_r, RealArith.sub_r, add_re, sub_re, add_im, sub_im, mul_re, mul_im, I_re, I_im]; ring
    · exact ⟨by rw [← g1]; congr 1; omega, by rw [← g1']; congr 1; omega⟩
    · exact ⟨by rw [← g2]; congr 1; omega, by rw [← g2']; congr 1; omega⟩
    · exact ⟨by rw [← g3]; congr 1; omega, by rw [← g3']; congr 1; omega⟩
  · intro hev
    obtain ⟨h, rfl⟩ : ∃ h, ido = 2 * h := ⟨ido / 2, by omega⟩
    have ei : ∀ p ∈ halfB ((2 * h : ℕ) : Int) 64 c K, stepB (2 * h) l1 w w1 w2 w3 c p.1 = p.2 := fun p hp' =>
      stepB_mem hp (mem_halfB hk (by omega) c w w1 w2 w3 (by rw [hK]; exact hp'))
    obtain ⟨qa, qb, -, -⟩ := dft_quads hL y h
    have o1 : om (4 * (2 * h)) (1 * h) = ⟨Real.sqrt 2 / 2, -(Real.sqrt 2 / 2)⟩ := by
      rw [Nat.one_mul]; exact om_eighth (by omega)
    have o2 : om (4 * (2 * h)) (2 * h) = -I := om_quarter hL
    have o3 : om (4 * (2 * h)) (3 * h) = ⟨-(Real.sqrt 2 / 2), -(Real.sqrt 2 / 2)⟩ := by
      rw [show 3 * h = 1 * h + 2 * h by ring, om_add, o1, o2]
      apply Complex.ext
      · simp
      · simp
    have zi : ∀ j, (X j h).im = 0 := fun j => by rw [hX]; exact dft_half_im (by omega) _
    simp only [hX', o1, o2, o3] at qa qb
    have va := ym h (by omega) (by omega)
    have vb := ym (2 * h + h) (by omega) (by omega)
    rw [qa] at va
    rw [qb] at vb
    simp only [add_re, sub_re, add_im, sub_im, mul_re, mul_im, neg_re, neg_im, I_re, I_im, zi] at va vb
    have k1 : 4 * K + 2 * (h : Int) = 4 * K + ((2 * h : ℕ) : Int) := by omega
    have k2 : 4 * K + 2 * ((2 * h + h : ℕ) : Int) = 4 * K + ((2 * h : ℕ) : Int) + 2 * ((2 * h : ℕ) : Int) := by omega
    rw [k1] at va
    rw [k2] at vb
    obtain ⟨c1, c2⟩ := va
    obtain ⟨c3, c4⟩ := vb
    simp only [halfB, List.mem_cons, List.not_mem_nil, or_false, forall_eq_or_imp, forall_eq, c1, c2, c3, c4, RealArith.add_r, RealArith.sub_r,
      RealArith.mul_r, minusSqrt2_r] at ei
    obtain ⟨g0, g1, g2, g3⟩ := ei
    have s2 : Real.sqrt 2 * Real.sqrt 2 = 2 := Real.mul_self_sqrt (by norm_num)
    rw [r4, show 2 * h / 2 = h by omega]
    rcases (show j = 0 ∨ j = 1 ∨ j = 2 ∨ j = 3 by omega) with rfl | rfl | rfl | rfl
    · rw [show K + 64 * ((0 : ℕ) : Int) + ((2 * h : ℕ) : Int) - 1 = ((2 * h : ℕ) : Int) - 1 + K + 0 * 64 by omega, g0]
      ring
    · rw [show K + 64 * ((1 : ℕ) : Int) + ((2 * h : ℕ) : Int) - 1 = ((2 * h : ℕ) : Int) - 1 + K + 1 * 64 by omega, g1]
      linear_combination (2 * (X 1 h).re) * s2
    · rw [show K + 64 * ((2 : ℕ) : Int) + ((2 * h : ℕ) : Int) - 1 = ((2 * h : ℕ) : Int) - 1 + K + 2 * 64 by omega, g2]
      ring
    · rw [show K + 64 * ((3 : ℕ) : Int) + ((2 * h : ℕ) : Int) - 1 = ((2 * h : ℕ) : Int) - 1 + K + 3 * 64 by omega, g3]
      linear_combination (2 * (X 3 h).re) * s2

end Verif.Model
