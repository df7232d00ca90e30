import Verif.Lemmas.FftDft
import Verif.Lemmas.VecSetup

/-!
# The passes of the vector build over the reals, one lane at a time
-/

namespace Verif.Model.Vec
open Verif Verif.Model Verif.Spec Arith Complex

theorem mem_ends {F : Type} [Arith F] {ido l1 t : Nat} (ht : t < l1) (c w : Int → F) (w1 w2 w3 : Int) {p : Int × F}
    (h : p ∈ endsF ido 16 c ((t * ido : Nat) : Int) (4 * ((t * ido : Nat) : Int))) : p ∈ passF ido l1 c w w1 w2 w3 :=
  List.mem_append_left _ (List.mem_flatMap.2 ⟨t, List.mem_range.2 ht, h⟩)

theorem mem_mid {F : Type} [Arith F] {ido l1 t u : Nat} (ht : t < l1) (hu : u < (ido - 1) / 2) (c w : Int → F) (w1 w2 w3 : Int) {p : Int × F}
    (h : p ∈ midF ido 16 c w w1 w2 w3 ((t * ido : Nat) : Int) ((2 * u + 2 : Nat) : Int) (((t * ido : Nat) : Int) + ((2 * u + 2 : Nat) : Int) - 1)) :
    p ∈ passF ido l1 c w w1 w2 w3 := by
  rw [passF, if_neg (by omega)]
  exact List.mem_append_right _ (List.mem_append_left _ (List.mem_flatMap.2 ⟨t, List.mem_range.2 ht,
    List.mem_flatMap.2 ⟨u, List.mem_range.2 hu, h⟩⟩))

theorem mem_half {F : Type} [Arith F] {ido l1 t : Nat} (ht : t < l1) (hi : ido ≠ 1) (c w : Int → F) (w1 w2 w3 : Int) {p : Int × F}
    (h : p ∈ halfF ido 16 c ((t * ido : Nat) : Int)) : p ∈ passF ido l1 c w w1 w2 w3 := by
  rw [passF, if_neg hi]
  exact List.mem_append_right _ (List.mem_append_right _ (List.mem_flatMap.2 ⟨t, List.mem_range.2 ht, h⟩))

theorem twF_r {c w : Int → ℝ} {L j m : ℕ} {wj p : Int} {X : ℂ} (hw : TwVal w L j wj) (h1 : 1 ≤ m) (h2 : 2 * m < L)
    (hr : c (p + (j : Int) * 16) = X.re) (hi : c (p + (j : Int) * 16 + 1) = X.im) :
    twF 16 c w wj (2 * (m : Int)) p (j : Int) = ((om (4 * L) (j * m) * X).re, (om (4 * L) (j * m) * X).im) := by
  obtain ⟨e1, e2⟩ := hw m h1 h2
  rw [twF, e1, e2, hr, hi, mul_re, mul_im, om_re, om_im]
  simp only [mulConj, RealArith.mul_r, RealArith.add_r, RealArith.sub_r]
  refine Prod.ext ?_ ?_ <;> dsimp only <;> ring

theorem stage_step {ido l1 : ℕ} (hp : (ido, l1) ∈ passes) {c w : Int → ℝ} {w1 w2 w3 : Int} {x : ℕ → ℝ}
    (hs : Stage ido (4 * l1) c x) (t1 : TwVal w ido 1 w1) (t2 : TwVal w ido 2 w2) (t3 : TwVal w ido 3 w3) :
    Stage (4 * ido) l1 (stepF ido l1 w w1 w2 w3 c) x := by
  intro k hk
  have hq : l1 * ido = 16 := by
    rcases mem_passes hp with ⟨rfl, rfl⟩ | ⟨rfl, rfl⟩ | ⟨rfl, rfl⟩ <;> rfl
  have hL : ido ≠ 0 := by rintro rfl; omega
  have hpar : ido = 1 ∨ ido % 2 = 0 := by
    rcases mem_passes hp with ⟨rfl, rfl⟩ | ⟨rfl, rfl⟩ | ⟨rfl, rfl⟩ <;> omega
  obtain ⟨y, hy⟩ : ∃ y : ℕ → ℝ, y = fun n => x (k + l1 * n) := ⟨_, rfl⟩
  obtain ⟨X, hX⟩ : ∃ X : ℕ → ℕ → ℂ, X = fun j => dft ido (fun n => y (4 * n + j)) := ⟨_, rfl⟩
  have hb : ∀ j : ℕ, j < 4 → Blk ido c (((k * ido : ℕ) : Int) + 16 * (j : Int)) (X j) := by
    intro j hj
    have h := hs (k + l1 * j) (by nlinarith)
    have e1 : ((((k + l1 * j) * ido : ℕ)) : Int) = ((k * ido : ℕ) : Int) + 16 * (j : Int) := by
      have : (k + l1 * j) * ido = k * ido + 16 * j := by rw [← hq]; ring
      rw [this]; push_cast; ring
    have e2 : (fun n => x (k + l1 * j + 4 * l1 * n)) = fun n => y (4 * n + j) := by
      funext n; rw [hy]; dsimp only; congr 1; ring
    rw [e1, e2] at h
    rw [hX]
    exact h
  have hbase : ((k * (4 * ido) : ℕ) : Int) = 4 * ((k * ido : ℕ) : Int) := by push_cast; ring
  rw [hbase, ← hy]
  generalize hK : ((k * ido : ℕ) : Int) = K at hb
  obtain ⟨b0, m0, f0⟩ := hb 0 (by omega)
  obtain ⟨b1, m1, f1⟩ := hb 1 (by omega)
  obtain ⟨b2, m2, f2⟩ := hb 2 (by omega)
  obtain ⟨b3, m3, f3⟩ := hb 3 (by omega)
  have z0 : ∀ j, (X j 0).im = 0 := fun j => by rw [hX]; exact dft_zero_im _ _
  have ends : ∀ {a : Int} {v : ℝ}, (a, v) ∈ endsF (ido : Int) 16 c K (4 * K) → stepF ido l1 w w1 w2 w3 c a = v := by
    intro a v h
    rw [← hK] at h
    exact stepF_mem hp (mem_ends hk c w w1 w2 w3 h)
  have mids : ∀ {m : ℕ} {a : Int} {v : ℝ}, 1 ≤ m → 2 * m < ido →
      (a, v) ∈ midF (ido : Int) 16 c w w1 w2 w3 K (2 * (m : Int)) (K + 2 * (m : Int) - 1) → stepF ido l1 w w1 w2 w3 c a = v := by
    intro m a v h1 h2 h
    rw [← hK] at h
    refine stepF_mem hp (mem_mid (u := m - 1) hk (by omega) c w w1 w2 w3 ?_)
    have e : ((2 * (m - 1) + 2 : ℕ) : Int) = 2 * (m : Int) := by omega
    rw [e]; exact h
  have halfs : ∀ {a : Int} {v : ℝ}, ido ≠ 1 → (a, v) ∈ halfF (ido : Int) 16 c K → stepF ido l1 w w1 w2 w3 c a = v := by
    intro a v h1 h
    rw [← hK] at h
    exact stepF_mem hp (mem_half hk h1 c w w1 w2 w3 h)
  -- values at the ends
  have c0 : c K = (X 0 0).re := by rw [← b0]; congr 1; omega
  have c1 : c (K + 16) = (X 1 0).re := by rw [← b1]; congr 1
  have c2 : c (K + 2 * 16) = (X 2 0).re := by rw [← b2]; congr 1
  have c3 : c (K + 3 * 16) = (X 3 0).re := by rw [← b3]; congr 1
  have q0 := dft_quads hL y 0
  dsimp only at q0
  have hX' : ∀ j m, dft ido (fun n => y (4 * n + j)) m = X j m := fun j m => by rw [hX]
  simp only [hX'] at q0
  simp only [Nat.mul_zero, om_zero, one_mul, Nat.add_zero] at q0
  obtain ⟨q00, q01, -, q03⟩ := q0
  have q03 := q03 (2 * ido) rfl
  -- products with the twiddle factors
  have prods : ∀ m : ℕ, 1 ≤ m → 2 * m < ido →
      c (K + 2 * (m : Int) - 1) = (X 0 m).re ∧ c (K + 2 * (m : Int) - 1 + 1) = (X 0 m).im ∧
      twF 16 c w w1 (2 * (m : Int)) (K + 2 * (m : Int) - 1) 1 = ((om (4 * ido) (1 * m) * X 1 m).re, (om (4 * ido) (1 * m) * X 1 m).im) ∧
      twF 16 c w w2 (2 * (m : Int)) (K + 2 * (m : Int) - 1) 2 = ((om (4 * ido) (2 * m) * X 2 m).re, (om (4 * ido) (2 * m) * X 2 m).im) ∧
      twF 16 c w w3 (2 * (m : Int)) (K + 2 * (m : Int) - 1) 3 = ((om (4 * ido) (3 * m) * X 3 m).re, (om (4 * ido) (3 * m) * X 3 m).im) := by
    intro m h1 h2
    have r0 := m0 m h1 h2
    have r1 := m1 m h1 h2
    have r2 := m2 m h1 h2
    have r3 := m3 m h1 h2
    refine ⟨?_, ?_, twF_r (j := 1) t1 h1 h2 ?_ ?_, twF_r (j := 2) t2 h1 h2 ?_ ?_, twF_r (j := 3) t3 h1 h2 ?_ ?_⟩
    · rw [← r0.1]; congr 1; omega
    · rw [← r0.2]; congr 1; omega
    · rw [← r1.1]; congr 1; omega
    · rw [← r1.2]; congr 1; omega
    · rw [← r2.1]; congr 1; omega
    · rw [← r2.2]; congr 1; omega
    · rw [← r3.1]; congr 1; omega
    · rw [← r3.2]; congr 1; omega
  have inst : ∀ m : ℕ, 1 ≤ m → 2 * m < ido →
      ∀ p ∈ midF (ido : Int) 16 c w w1 w2 w3 K (2 * (m : Int)) (K + 2 * (m : Int) - 1), stepF ido l1 w w1 w2 w3 c p.1 = p.2 := by
    intro m h1 h2 p hp
    exact mids h1 h2 hp
  have ei : ∀ p ∈ endsF (ido : Int) 16 c K (4 * K), stepF ido l1 w w1 w2 w3 c p.1 = p.2 := fun p hp => ends hp
  simp only [endsF, List.mem_cons, List.not_mem_nil, or_false, forall_eq_or_imp, forall_eq, c0, c1, c2, c3, RealArith.add_r, RealArith.sub_r] at ei
  obtain ⟨s1, s2, s3, s4⟩ := ei
  have hi : ∀ h : ℕ, 2 * h = ido →
      (∀ p ∈ halfF (ido : Int) 16 c K, stepF ido l1 w w1 w2 w3 c p.1 = p.2) ∧ c ((ido : Int) - 1 + K) = (X 0 h).re ∧
      c ((ido : Int) - 1 + K + 16) = (X 1 h).re ∧ c ((ido : Int) - 1 + K + 2 * 16) = (X 2 h).re ∧
      c ((ido : Int) - 1 + K + 3 * 16) = (X 3 h).re ∧ (∀ j, (X j h).im = 0) ∧
      om (4 * ido) (1 * h) = ⟨Real.sqrt 2 / 2, -(Real.sqrt 2 / 2)⟩ ∧ om (4 * ido) (2 * h) = -I ∧
      om (4 * ido) (3 * h) = ⟨-(Real.sqrt 2 / 2), -(Real.sqrt 2 / 2)⟩ := by
    intro h hh
    have hv : ido % 2 = 0 := by omega
    have hd : ido / 2 = h := by omega
    have o1 : om (4 * ido) (1 * h) = ⟨Real.sqrt 2 / 2, -(Real.sqrt 2 / 2)⟩ := by
      rw [← hh, Nat.one_mul]; exact om_eighth (by omega)
    have o2 : om (4 * ido) (2 * h) = -I := by rw [hh]; exact om_quarter hL
    have r0 := f0 hv
    have r1 := f1 hv
    have r2 := f2 hv
    have r3 := f3 hv
    rw [hd] at r0 r1 r2 r3
    refine ⟨fun p hp => halfs (by omega) hp, ?_, ?_, ?_, ?_, ?_, o1, o2, ?_⟩
    · rw [← r0]; congr 1; omega
    · rw [← r1]; congr 1; omega
    · rw [← r2]; congr 1; omega
    · rw [← r3]; congr 1; omega
    · intro j
      rw [hX, ← hh]
      exact dft_half_im (by omega) _
    · rw [show 3 * h = 1 * h + 2 * h by ring, om_add, o1, o2]
      apply Complex.ext
      · simp
      · simp
  refine ⟨?_, ?_, ?_⟩
  · rw [s3, q00]
    simp only [add_re]
    ring
  · intro M hM1 hM2
    rcases lt_trichotomy M ido with hlt | heq | hgt
    · rcases lt_trichotomy (2 * M) ido with h2 | h2 | h2
      · have g := inst M hM1 h2
        obtain ⟨p1, p2, p3, p4, p5⟩ := prods M hM1 h2
        obtain ⟨qa, -, -, -⟩ := dft_quads hL y M
        simp only [hX'] at qa
        simp only [midF, List.mem_cons, List.not_mem_nil, or_false, forall_eq_or_imp, forall_eq, p1, p2, p3, p4, p5, RealArith.add_r, RealArith.sub_r] at g
        obtain ⟨g1, -, -, -, g5, -, -, -⟩ := g
        constructor
        · rw [show 4 * K + 2 * (M : Int) - 1 = 2 * (M : Int) - 1 + 4 * K by omega, g1, qa]
          simp only [add_re]; ring
        · rw [show 4 * K + 2 * (M : Int) = 2 * (M : Int) + 4 * K by omega, g5, qa]
          simp only [add_im]; ring
      · obtain ⟨g, r0, r1, r2, r3, zi, o1, o2, o3⟩ := hi (M) (by omega)
        obtain ⟨qa, qb, -, -⟩ := dft_quads hL y (M)
        clear qb
        simp only [hX', o1, o2, o3] at qa
        simp only [halfF, List.mem_cons, List.not_mem_nil, or_false, forall_eq_or_imp, forall_eq, r0, r1, r2, r3, RealArith.add_r, RealArith.sub_r, RealArith.mul_r, minusHsqt2_r] at g
        obtain ⟨g1, g2, g3, g4⟩ := g
        constructor
        · rw [show 4 * K + 2 * (M : Int) - 1 = (ido : Int) - 1 + 4 * K by omega, g1, qa]
          simp only [add_re, sub_re, mul_re, neg_re, neg_im, I_re, I_im, mul_im, zi]; ring
        · rw [show 4 * K + 2 * (M : Int) = 4 * K + 1 * (ido : Int) by omega, g3, qa]
          simp only [add_im, sub_im, mul_re, neg_re, neg_im, I_re, I_im, mul_im, zi]; ring
      · have g := inst (ido - M) (by omega) (by omega)
        obtain ⟨p1, p2, p3, p4, p5⟩ := prods (ido - M) (by omega) (by omega)
        obtain ⟨-, -, qa, -⟩ := dft_quads hL y (ido - M)
        have qa := qa M (by omega)
        simp only [hX'] at qa
        simp only [midF, List.mem_cons, List.not_mem_nil, or_false, forall_eq_or_imp, forall_eq, p1, p2, p3, p4, p5, RealArith.add_r, RealArith.sub_r] at g
        obtain ⟨-, -, -, g4, -, -, -, g8⟩ := g
        have e : ((ido - M : ℕ) : Int) = (ido : Int) - (M : Int) := by omega
        rw [e] at g4 g8
        constructor
        · rw [show 4 * K + 2 * (M : Int) - 1 = (ido : Int) - 2 * ((ido : Int) - (M : Int)) - 1 + 4 * K + 1 * (ido : Int) by omega, g4, qa]
          simp only [conj_re, add_re, sub_re, mul_re, I_re, I_im, mul_im]; ring
        · rw [show 4 * K + 2 * (M : Int) = (ido : Int) - 2 * ((ido : Int) - (M : Int)) + 4 * K + 1 * (ido : Int) by omega, g8, qa]
          simp only [conj_im, add_im, sub_im, mul_im, I_re, I_im, mul_re]; ring
    · subst heq
      constructor
      · rw [show 4 * K + 2 * (M : Int) - 1 = 4 * K + (2 * (M : Int) - 1) by omega, s1, q01]
        simp only [add_re, sub_re, mul_re, I_re, I_im, z0]; ring
      · rw [s2, q01]
        simp only [add_im, sub_im, mul_im, I_re, I_im, z0]; ring
    · rcases lt_trichotomy (2 * (M - ido)) ido with h2 | h2 | h2
      · have g := inst (M - ido) (by omega) (by omega)
        obtain ⟨p1, p2, p3, p4, p5⟩ := prods (M - ido) (by omega) (by omega)
        obtain ⟨-, qa, -, -⟩ := dft_quads hL y (M - ido)
        rw [show ido + (M - ido) = M by omega] at qa
        simp only [hX'] at qa
        simp only [midF, List.mem_cons, List.not_mem_nil, or_false, forall_eq_or_imp, forall_eq, p1, p2, p3, p4, p5, RealArith.add_r, RealArith.sub_r] at g
        obtain ⟨-, -, g3, -, -, -, g7, -⟩ := g
        have e : ((M - ido : ℕ) : Int) = (M : Int) - (ido : Int) := by omega
        rw [e] at g3 g7
        constructor
        · rw [show 4 * K + 2 * (M : Int) - 1 = 2 * ((M : Int) - (ido : Int)) - 1 + 4 * K + 2 * (ido : Int) by omega, g3, qa]
          simp only [add_re, sub_re, mul_re, I_re, I_im, mul_im]; ring
        · rw [show 4 * K + 2 * (M : Int) = 2 * ((M : Int) - (ido : Int)) + 4 * K + 2 * (ido : Int) by omega, g7, qa]
          simp only [add_im, sub_im, mul_im, I_re, I_im, mul_re]; ring
      · obtain ⟨g, r0, r1, r2, r3, zi, o1, o2, o3⟩ := hi (M - ido) (by omega)
        obtain ⟨qa, qb, -, -⟩ := dft_quads hL y (M - ido)
        rw [show ido + (M - ido) = M by omega] at qb
        simp only [hX', o1, o2, o3] at qb
        simp only [halfF, List.mem_cons, List.not_mem_nil, or_false, forall_eq_or_imp, forall_eq, r0, r1, r2, r3, RealArith.add_r, RealArith.sub_r, RealArith.mul_r, minusHsqt2_r] at g
        obtain ⟨g1, g2, g3, g4⟩ := g
        constructor
        · rw [show 4 * K + 2 * (M : Int) - 1 = (ido : Int) - 1 + 4 * K + 2 * (ido : Int) by omega, g2, qb]
          simp only [add_re, sub_re, mul_re, neg_re, neg_im, I_re, I_im, mul_im, zi]; ring
        · rw [show 4 * K + 2 * (M : Int) = 4 * K + 3 * (ido : Int) by omega, g4, qb]
          simp only [add_im, sub_im, mul_re, neg_re, neg_im, I_re, I_im, mul_im, zi]; ring
      · have g := inst (2 * ido - M) (by omega) (by omega)
        obtain ⟨p1, p2, p3, p4, p5⟩ := prods (2 * ido - M) (by omega) (by omega)
        obtain ⟨-, -, -, qa⟩ := dft_quads hL y (2 * ido - M)
        have qa := qa M (by omega)
        simp only [hX'] at qa
        simp only [midF, List.mem_cons, List.not_mem_nil, or_false, forall_eq_or_imp, forall_eq, p1, p2, p3, p4, p5, RealArith.add_r, RealArith.sub_r] at g
        obtain ⟨-, g2, -, -, -, g6, -, -⟩ := g
        have e : ((2 * ido - M : ℕ) : Int) = 2 * (ido : Int) - (M : Int) := by omega
        rw [e] at g2 g6
        constructor
        · rw [show 4 * K + 2 * (M : Int) - 1 = (ido : Int) - 2 * (2 * (ido : Int) - (M : Int)) - 1 + 4 * K + 3 * (ido : Int) by omega, g2, qa]
          simp only [conj_re, add_re, sub_re]; ring
        · rw [show 4 * K + 2 * (M : Int) = (ido : Int) - 2 * (2 * (ido : Int) - (M : Int)) + 4 * K + 3 * (ido : Int) by omega, g6, qa]
          simp only [conj_im, add_im, sub_im]; ring
  · intro _
    rw [show 4 * K + ((4 * ido : ℕ) : Int) - 1 = 4 * K + (4 * (ido : Int) - 1) by omega, s4, show 4 * ido / 2 = 2 * ido by omega, q03]
    simp only [conj_re, add_re, sub_re]; ring

theorem mem_endsB {F : Type} [Arith F] {ido l1 t : Nat} (ht : t < l1) (c w : Int → F) (w1 w2 w3 : Int) {p : Int × F}
    (h : p ∈ endsB ido 16 c (4 * ((t * ido : Nat) : Int)) ((t * ido : Nat) : Int)) : p ∈ passB ido l1 c w w1 w2 w3 :=
  List.mem_append_left _ (List.mem_flatMap.2 ⟨t, List.mem_range.2 ht, h⟩)

theorem mem_midB {F : Type} [Arith F] {ido l1 t u : Nat} (ht : t < l1) (hu : u < (ido - 1) / 2) (c w : Int → F) (w1 w2 w3 : Int) {p : Int × F}
    (h : p ∈ midB ido 16 c w w1 w2 w3 ((2 * u + 2 : Nat) : Int) (-1 + 4 * ((t * ido : Nat) : Int)) (((t * ido : Nat) : Int) + ((2 * u + 2 : Nat) : Int) - 1)) :
    p ∈ passB ido l1 c w w1 w2 w3 := by
  rw [passB, if_neg (by omega)]
  exact List.mem_append_right _ (List.mem_append_left _ (List.mem_flatMap.2 ⟨t, List.mem_range.2 ht,
    List.mem_flatMap.2 ⟨u, List.mem_range.2 hu, h⟩⟩))

theorem mem_halfB {F : Type} [Arith F] {ido l1 t : Nat} (ht : t < l1) (hi : ido ≠ 1) (c w : Int → F) (w1 w2 w3 : Int) {p : Int × F}
    (h : p ∈ halfB ido 16 c ((t * ido : Nat) : Int)) : p ∈ passB ido l1 c w w1 w2 w3 := by
  rw [passB, if_neg hi]
  exact List.mem_append_right _ (List.mem_append_right _ (List.mem_flatMap.2 ⟨t, List.mem_range.2 ht, h⟩))

theorem stage_back {ido l1 : ℕ} (hp : (ido, l1) ∈ passes) {c w : Int → ℝ} {w1 w2 w3 : Int} {x : ℕ → ℝ}
    (hs : Stage (4 * ido) l1 c x) (t1 : TwVal w ido 1 w1) (t2 : TwVal w ido 2 w2) (t3 : TwVal w ido 3 w3) :
    Stage ido (4 * l1) (stepB ido l1 w w1 w2 w3 c) fun n => 4 * x n := by
  intro b hb4
  have hq : l1 * ido = 16 := by
    rcases mem_passes hp with ⟨rfl, rfl⟩ | ⟨rfl, rfl⟩ | ⟨rfl, rfl⟩ <;> rfl
  have hL : ido ≠ 0 := by rintro rfl; omega
  have hl : 0 < l1 := by omega
  obtain ⟨k, j, hk, hj, rfl⟩ : ∃ k j, k < l1 ∧ j < 4 ∧ b = k + l1 * j :=
    ⟨b % l1, b / l1, Nat.mod_lt _ hl, Nat.div_lt_of_lt_mul (by rw [Nat.mul_comm]; exact hb4), (Nat.mod_add_div _ _).symm⟩
  have hpar : ido = 1 ∨ ido % 2 = 0 := by
    rcases mem_passes hp with ⟨rfl, rfl⟩ | ⟨rfl, rfl⟩ | ⟨rfl, rfl⟩ <;> omega
  obtain ⟨y, hy⟩ : ∃ y : ℕ → ℝ, y = fun n => x (k + l1 * n) := ⟨_, rfl⟩
  obtain ⟨X, hX⟩ : ∃ X : ℕ → ℕ → ℂ, X = fun j => dft ido (fun n => y (4 * n + j)) := ⟨_, rfl⟩
  have e1 : ((((k + l1 * j) * ido : ℕ)) : Int) = ((k * ido : ℕ) : Int) + 16 * (j : Int) := by
    have : (k + l1 * j) * ido = k * ido + 16 * j := by rw [← hq]; ring
    rw [this]; push_cast; ring
  have e2 : (dft ido fun n => 4 * x (k + l1 * j + 4 * l1 * n)) = fun m => 4 * X j m := by
    funext m
    rw [dft_smul, hX, hy, show (fun n => x (k + l1 * j + 4 * l1 * n)) = fun n => x (k + l1 * (4 * n + j)) from funext fun n => by congr 1; ring]
    norm_cast
  have hbk := hs k hk
  have hbase : ((k * (4 * ido) : ℕ) : Int) = 4 * ((k * ido : ℕ) : Int) := by push_cast; ring
  rw [hbase, ← hy] at hbk
  rw [e1, e2]
  clear e1 e2 hs
  generalize hK : ((k * ido : ℕ) : Int) = K at hbk ⊢
  obtain ⟨y0, ym, yh⟩ := hbk
  have yh := yh (by omega)
  have z0 : ∀ j, (X j 0).im = 0 := fun j => by rw [hX]; exact dft_zero_im _ _
  have hX' : ∀ j m, dft ido (fun n => y (4 * n + j)) m = X j m := fun j m => by rw [hX]
  have r4 : ∀ z : ℂ, (4 * z).re = 4 * z.re := fun z => by simp
  have i4 : ∀ z : ℂ, (4 * z).im = 4 * z.im := fun z => by simp
  refine ⟨?_, ?_, ?_⟩
  · have ei : ∀ p ∈ endsB (ido : Int) 16 c (4 * K) K, stepB ido l1 w w1 w2 w3 c p.1 = p.2 := fun p hp' =>
      stepB_mem hp (mem_endsB hk c w w1 w2 w3 (by rw [hK]; exact hp'))
    have q0 := dft_quads hL y 0
    dsimp only at q0
    simp only [hX'] at q0
    simp only [Nat.mul_zero, om_zero, one_mul, Nat.add_zero] at q0
    obtain ⟨q00, q01, -, q03⟩ := q0
    have q03 := q03 (2 * ido) rfl
    have v2 := ym ido (by omega) (by omega)
    rw [q01] at v2
    rw [q00] at y0
    rw [show 4 * ido / 2 = 2 * ido by omega, q03] at yh
    have a1 : c (4 * K + (4 * (ido : Int) - 1)) = (X 0 0 - X 1 0 + X 2 0 - X 3 0).re := by
      rw [← conj_re, ← yh]; congr 1; push_cast; ring
    have a2 : c (4 * K + (2 * (ido : Int) - 1)) = (X 0 0 - I * X 1 0 - X 2 0 + I * X 3 0).re := by
      rw [← v2.1]; congr 1; ring
    have a3 : c (4 * K + 2 * (ido : Int)) = (X 0 0 - I * X 1 0 - X 2 0 + I * X 3 0).im := by
      rw [← v2.2]
    simp only [endsB, List.mem_cons, List.not_mem_nil, or_false, forall_eq_or_imp, forall_eq, y0, a1, a2, a3, RealArith.add_r, RealArith.sub_r,
      RealArith.mul_r, RealArith.fi_r] at ei
    obtain ⟨s0, s2, s1, s3⟩ := ei
    rw [r4]
    rcases (show j = 0 ∨ j = 1 ∨ j = 2 ∨ j = 3 by omega) with rfl | rfl | rfl | rfl
    · rw [show K + 16 * ((0 : ℕ) : Int) = K + 0 * 16 by rfl, s0]
      simp only [add_re, sub_re, add_im, sub_im, mul_re, mul_im, I_re, I_im, z0]; push_cast; ring
    · rw [show K + 16 * ((1 : ℕ) : Int) = K + 1 * 16 by rfl, s1]
      simp only [add_re, sub_re, add_im, sub_im, mul_re, mul_im, I_re, I_im, z0]; push_cast; ring
    · rw [show K + 16 * ((2 : ℕ) : Int) = K + 2 * 16 by rfl, s2]
      simp only [add_re, sub_re, add_im, sub_im, mul_re, mul_im, I_re, I_im, z0]; push_cast; ring
    · rw [show K + 16 * ((3 : ℕ) : Int) = K + 3 * 16 by rfl, s3]
      simp only [add_re, sub_re, add_im, sub_im, mul_re, mul_im, I_re, I_im, z0]; push_cast; ring
  · intro m h1 h2
    have ei : ∀ p ∈ midB (ido : Int) 16 c w w1 w2 w3 (2 * (m : Int)) (-1 + 4 * K) (K + 2 * (m : Int) - 1), stepB ido l1 w w1 w2 w3 c p.1 = p.2 := by
      intro p hp'
      refine stepB_mem hp (mem_midB (u := m - 1) hk (by omega) c w w1 w2 w3 ?_)
      have e : ((2 * (m - 1) + 2 : ℕ) : Int) = 2 * (m : Int) := by omega
      rw [e, hK]; exact hp'
    obtain ⟨qa, qb, qc, qd⟩ := dft_quads hL y m
    have qc := qc (ido - m) (by omega)
    have qd := qd (2 * ido - m) (by omega)
    simp only [hX'] at qa qb qc qd
    have va := ym m (by omega) (by omega)
    have vb := ym (ido + m) (by omega) (by omega)
    have vc := ym (ido - m) (by omega) (by omega)
    have vd := ym (2 * ido - m) (by omega) (by omega)
    rw [qa] at va
    rw [qb] at vb
    rw [qc] at vc
    rw [qd] at vd
    generalize hA1 : om (4 * ido) (1 * m) * X 1 m = A1 at va vb vc vd
    generalize hA2 : om (4 * ido) (2 * m) * X 2 m = A2 at va vb vc vd
    generalize hA3 : om (4 * ido) (3 * m) * X 3 m = A3 at va vb vc vd
    have c1 : c (-1 + 4 * K + 2 * (m : Int)) = (X 0 m + A1 + A2 + A3).re := by
      rw [← va.1]; congr 1; ring
    have c2 : c (-1 + 4 * K + (2 * (m : Int) + 1)) = (X 0 m + A1 + A2 + A3).im := by
      rw [← va.2]; congr 1; ring
    have c3 : c (-1 + 4 * K + (4 * (ido : Int) - 2 * (m : Int))) = (X 0 m - A1 + A2 - A3).re := by
      rw [← conj_re, ← vd.1]; congr 1; omega
    have c4 : c (-1 + 4 * K + (4 * (ido : Int) - 2 * (m : Int) + 1)) = -(X 0 m - A1 + A2 - A3).im := by
      rw [← conj_im, ← vd.2]; congr 1; omega
    have c5 : c (-1 + 4 * K + (2 * (ido : Int) + 2 * (m : Int))) = (X 0 m - I * A1 - A2 + I * A3).re := by
      rw [← vb.1]; congr 1; omega
    have c6 : c (-1 + 4 * K + (2 * (ido : Int) + 2 * (m : Int) + 1)) = (X 0 m - I * A1 - A2 + I * A3).im := by
      rw [← vb.2]; congr 1; omega
    have c7 : c (-1 + 4 * K + (2 * (ido : Int) - 2 * (m : Int))) = (X 0 m + I * A1 - A2 - I * A3).re := by
      rw [← conj_re, ← vc.1]; congr 1; omega
    have c8 : c (-1 + 4 * K + (2 * (ido : Int) - 2 * (m : Int) + 1)) = -(X 0 m + I * A1 - A2 - I * A3).im := by
      rw [← conj_im, ← vc.2]; congr 1; omega
    simp only [midB, List.mem_cons, List.not_mem_nil, or_false, forall_eq_or_imp, forall_eq, c1, c2, c3, c4, c5, c6, c7, c8] at ei
    rw [mulCplx_r (X := X 1 m) t1 h1 h2 (by
        rw [hA1]; simp only [RealArith.add_r, RealArith.sub_r, add_re, sub_re, add_im, sub_im, mul_re, mul_im, I_re, I_im]; ring) (by
        rw [hA1]; simp only [RealArith.add_r, RealArith.sub_r, add_re, sub_re, add_im, sub_im, mul_re, mul_im, I_re, I_im]; ring),
      mulCplx_r (X := X 2 m) t2 h1 h2 (by
        rw [hA2]; simp only [RealArith.add_r, RealArith.sub_r, add_re, sub_re, add_im, sub_im, mul_re, mul_im, I_re, I_im]; ring) (by
        rw [hA2]; simp only [RealArith.add_r, RealArith.sub_r, add_re, sub_re, add_im, sub_im, mul_re, mul_im, I_re, I_im]; ring),
      mulCplx_r (X := X 3 m) t3 h1 h2 (by
        rw [hA3]; simp only [RealArith.add_r, RealArith.sub_r, add_re, sub_re, add_im, sub_im, mul_re, mul_im, I_re, I_im]; ring) (by
        rw [hA3]; simp only [RealArith.add_r, RealArith.sub_r, add_re, sub_re, add_im, sub_im, mul_re, mul_im, I_re, I_im]; ring)] at ei
    obtain ⟨g0, g0', g1, g1', g2, g2', g3, g3'⟩ := ei
    dsimp only at g1 g1' g2 g2' g3 g3'
    rw [r4, i4]
    rcases (show j = 0 ∨ j = 1 ∨ j = 2 ∨ j = 3 by omega) with rfl | rfl | rfl | rfl
    · constructor
      · rw [show K + 16 * ((0 : ℕ) : Int) + 2 * (m : Int) - 1 = K + 2 * (m : Int) - 1 by omega, g0]
        simp only [RealArith.add_r, RealArith.sub_r, add_re, sub_re, add_im, sub_im, mul_re, mul_im, I_re, I_im]; ring
      · rw [show K + 16 * ((0 : ℕ) : Int) + 2 * (m : Int) = K + 2 * (m : Int) - 1 + 1 by omega, g0']
        simp only [RealArith.add_r, RealArith.sub_r, add_re, sub_re, add_im, sub_im, mul_re, mul_im, I_re, I_im]; ring
    · exact ⟨by rw [← g1]; congr 1; omega, by rw [← g1']; congr 1; omega⟩
    · exact ⟨by rw [← g2]; congr 1; omega, by rw [← g2']; congr 1; omega⟩
    · exact ⟨by rw [← g3]; congr 1; omega, by rw [← g3']; congr 1; omega⟩
  · intro hev
    obtain ⟨h, rfl⟩ : ∃ h, ido = 2 * h := ⟨ido / 2, by omega⟩
    have ei : ∀ p ∈ halfB ((2 * h : ℕ) : Int) 16 c K, stepB (2 * h) l1 w w1 w2 w3 c p.1 = p.2 := fun p hp' =>
      stepB_mem hp (mem_halfB hk (by omega) c w w1 w2 w3 (by rw [hK]; exact hp'))
    obtain ⟨qa, qb, -, -⟩ := dft_quads hL y h
    have o1 : om (4 * (2 * h)) (1 * h) = ⟨Real.sqrt 2 / 2, -(Real.sqrt 2 / 2)⟩ := by
      rw [Nat.one_mul]; exact om_eighth (by omega)
    have o2 : om (4 * (2 * h)) (2 * h) = -I := om_quarter hL
    have o3 : om (4 * (2 * h)) (3 * h) = ⟨-(Real.sqrt 2 / 2), -(Real.sqrt 2 / 2)⟩ := by
      rw [show 3 * h = 1 * h + 2 * h by ring, om_add, o1, o2]
      apply Complex.ext
      · simp
      · simp
    have zi : ∀ j, (X j h).im = 0 := fun j => by rw [hX]; exact dft_half_im (by omega) _
    simp only [hX', o1, o2, o3] at qa qb
    have va := ym h (by omega) (by omega)
    have vb := ym (2 * h + h) (by omega) (by omega)
    rw [qa] at va
    rw [qb] at vb
    simp only [add_re, sub_re, add_im, sub_im, mul_re, mul_im, neg_re, neg_im, I_re, I_im, zi] at va vb
    have k1 : 4 * K + 2 * (h : Int) = 4 * K + ((2 * h : ℕ) : Int) := by omega
    have k2 : 4 * K + 2 * ((2 * h + h : ℕ) : Int) = 4 * K + ((2 * h : ℕ) : Int) + 2 * ((2 * h : ℕ) : Int) := by omega
    rw [k1] at va
    rw [k2] at vb
    obtain ⟨c1, c2⟩ := va
    obtain ⟨c3, c4⟩ := vb
    simp only [halfB, List.mem_cons, List.not_mem_nil, or_false, forall_eq_or_imp, forall_eq, c1, c2, c3, c4, RealArith.add_r, RealArith.sub_r,
      RealArith.mul_r, minusSqrt2_r] at ei
    obtain ⟨g0, g1, g2, g3⟩ := ei
    have s2 : Real.sqrt 2 * Real.sqrt 2 = 2 := Real.mul_self_sqrt (by norm_num)
    rw [r4, show 2 * h / 2 = h by omega]
    rcases (show j = 0 ∨ j = 1 ∨ j = 2 ∨ j = 3 by omega) with rfl | rfl | rfl | rfl
    · rw [show K + 16 * ((0 : ℕ) : Int) + ((2 * h : ℕ) : Int) - 1 = ((2 * h : ℕ) : Int) - 1 + K + 0 * 16 by omega, g0]
      ring
    · rw [show K + 16 * ((1 : ℕ) : Int) + ((2 * h : ℕ) : Int) - 1 = ((2 * h : ℕ) : Int) - 1 + K + 1 * 16 by omega, g1]
      linear_combination (2 * (X 1 h).re) * s2
    · rw [show K + 16 * ((2 : ℕ) : Int) + ((2 * h : ℕ) : Int) - 1 = ((2 * h : ℕ) : Int) - 1 + K + 2 * 16 by omega, g2]
      ring
    · rw [show K + 16 * ((3 : ℕ) : Int) + ((2 * h : ℕ) : Int) - 1 = ((2 * h : ℕ) : Int) - 1 + K + 3 * 16 by omega, g3]
      linear_combination (2 * (X 3 h).re) * s2

end Verif.Model.Vec
