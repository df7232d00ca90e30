import Verif.Lemmas.FftWhole
import Verif.Lemmas.Dft
import Verif.Num.Real

/-!
# The forward passes over the reals
-/

namespace Verif.Model
open Verif Verif.Spec Arith Complex

/-- A half-complex block: `L` numbers from `base` on hold the spectrum `X` of a real sequence of length `L`. -/
def Blk (L : ℕ) (c : Int → ℝ) (base : Int) (X : ℕ → ℂ) : Prop :=
  c base = (X 0).re ∧ (∀ m : ℕ, 1 ≤ m → 2 * m < L → c (base + 2 * m - 1) = (X m).re ∧ c (base + 2 * m) = (X m).im) ∧
    (L % 2 = 0 → c (base + L - 1) = (X (L / 2)).re)

/-- Every block of length `L` holds the transform of one residue class of the input. -/
def Stage (L nb : ℕ) (c : Int → ℝ) (x : ℕ → ℝ) : Prop :=
  ∀ b : ℕ, b < nb → Blk L c ((b * L : ℕ) : Int) (dft L fun n => x (b + nb * n))

/-- The twiddle factors of one row. -/
def TwVal (w : Int → ℝ) (L j : ℕ) (w1 : Int) : Prop :=
  ∀ m : ℕ, 1 ≤ m → 2 * m < L → w (w1 + (2 * (m : Int) - 2)) = Real.cos (2 * Real.pi * ((j * m : ℕ) : ℝ) / ((4 * L : ℕ) : ℝ)) ∧
    w (w1 + (2 * (m : Int) - 1)) = Real.sin (2 * Real.pi * ((j * m : ℕ) : ℝ) / ((4 * L : ℕ) : ℝ))

theorem mem_ends {F : Type} [Arith F] {ido l1 t : Nat} (ht : t < l1) (c w : Int → F) (w1 w2 w3 : Int) {p : Int × F}
    (h : p ∈ endsF ido 64 c ((t * ido : Nat) : Int) (4 * ((t * ido : Nat) : Int))) : p ∈ passF ido l1 c w w1 w2 w3 :=
  List.mem_append_left _ (List.mem_flatMap.2 ⟨t, List.mem_range.2 ht, h⟩)

theorem mem_mid {F : Type} [Arith F] {ido l1 t u : Nat} (ht : t < l1) (hu : u < (ido - 1) / 2) (c w : Int → F) (w1 w2 w3 : Int) {p : Int × F}
    (h : p ∈ midF ido 64 c w w1 w2 w3 ((t * ido : Nat) : Int) ((2 * u + 2 : Nat) : Int) (((t * ido : Nat) : Int) + ((2 * u + 2 : Nat) : Int) - 1)) :
    p ∈ passF ido l1 c w w1 w2 w3 := by
  rw [passF, if_neg (by omega)]
  exact List.mem_append_right _ (List.mem_append_left _ (List.mem_flatMap.2 ⟨t, List.mem_range.2 ht,
    List.mem_flatMap.2 ⟨u, List.mem_range.2 hu, h⟩⟩))

theorem mem_half {F : Type} [Arith F] {ido l1 t : Nat} (ht : t < l1) (hi : ido ≠ 1) (c w : Int → F) (w1 w2 w3 : Int) {p : Int × F}
    (h : p ∈ halfF ido 64 c ((t * ido : Nat) : Int)) : p ∈ passF ido l1 c w w1 w2 w3 := by
  rw [passF, if_neg hi]
  exact List.mem_append_right _ (List.mem_append_right _ (List.mem_flatMap.2 ⟨t, List.mem_range.2 ht, h⟩))

theorem minusHsqt2_r : (minusHsqt2 : ℝ) = -(Real.sqrt 2 / 2) := RealArith.hsqt2_r
theorem minusSqrt2_r : (minusSqrt2 : ℝ) = -Real.sqrt 2 := RealArith.sqrt2_r

/-- The four outputs for `m`, `L + m`, `L - m`, `2L - m` in terms of the four inputs. -/
theorem dft_quads {L : ℕ} (hL : L ≠ 0) (y : ℕ → ℝ) (m : ℕ) :
    let X := fun j => dft L (fun n => y (4 * n + j))
    let A := fun j => om (4 * L) (j * m) * X j m
    dft (4 * L) y m = X 0 m + A 1 + A 2 + A 3 ∧
    dft (4 * L) y (L + m) = X 0 m - I * A 1 - A 2 + I * A 3 ∧
    (∀ a, a + m = L → dft (4 * L) y a = (starRingEnd ℂ) (X 0 m + I * A 1 - A 2 - I * A 3)) ∧
    (∀ a, a + m = 2 * L → dft (4 * L) y a = (starRingEnd ℂ) (X 0 m - A 1 + A 2 - A 3)) := by
  intro X A
  have q1 : om (4 * L) L = -I := om_quarter hL
  have q2 : om (4 * L) (2 * L) = -1 := by
    rw [show 2 * L = L + L by ring, om_add, q1]
    ring_nf; rw [I_sq]
  have q3 : om (4 * L) (3 * L) = I := by
    rw [show 3 * L = 2 * L + L by ring, om_add, q1, q2]; ring
  have q4 : om (4 * L) (4 * L) = 1 := om_self (by omega)
  have q6 : om (4 * L) (6 * L) = -1 := by
    rw [show 6 * L = 4 * L + 2 * L by ring, om_add, q4, q2]; ring
  have hx0 : (fun n => y (4 * n)) = fun n => y (4 * n + 0) := rfl
  refine ⟨?_, ?_, ?_, ?_⟩
  · rw [dft_four, hx0]
    simp only [A, X, Nat.one_mul]
  · rw [dft_four, hx0, dft_add hL, dft_add hL, dft_add hL, dft_add hL, Nat.mul_add, Nat.mul_add, om_add, om_add, om_add, q1, q2, q3]
    simp only [A, X, Nat.one_mul]
    ring
  · intro a ha
    rw [dft_four, hx0, dft_conj hL _ ha, dft_conj hL _ ha, dft_conj hL _ ha, dft_conj hL _ ha, om_sub (N := 4 * L) ha,
      om_sub (N := 4 * L) (a := 2 * a) (b := 2 * m) (c := 2 * L) (by omega), om_sub (N := 4 * L) (a := 3 * a) (b := 3 * m) (c := 3 * L) (by omega), q1, q2, q3]
    simp only [A, X, Nat.one_mul, map_sub, map_add, map_mul, conj_I]
    ring
  · intro a ha
    have hc : ∀ z : ℕ → ℝ, dft L z a = (starRingEnd ℂ) (dft L z m) := by
      intro z
      by_cases h : m ≤ L
      · obtain ⟨b, hb⟩ : ∃ b, b + m = L := ⟨L - m, by omega⟩
        rw [← dft_conj hL z hb, ← dft_add hL z b]
        congr 1; omega
      · obtain ⟨b, hb⟩ : ∃ b, m = L + b := ⟨m - L, by omega⟩
        rw [hb, dft_add hL, ← dft_conj hL z (a := a) (by omega)]
    rw [dft_four, hx0, hc, hc, hc, hc, om_sub (N := 4 * L) ha,
      om_sub (N := 4 * L) (a := 2 * a) (b := 2 * m) (c := 4 * L) (by omega), om_sub (N := 4 * L) (a := 3 * a) (b := 3 * m) (c := 6 * L) (by omega), q2, q4, q6]
    simp only [A, X, Nat.one_mul, map_sub, map_add, map_mul]
    ring

theorem twF_r {c w : Int → ℝ} {L j m : ℕ} {wj p : Int} {X : ℂ} (hw : TwVal w L j wj) (h1 : 1 ≤ m) (h2 : 2 * m < L)
    (hr : c (p + (j : Int) * 64) = X.re) (hi : c (p + (j : Int) * 64 + 1) = X.im) :
    twF 64 c w wj (2 * (m : Int)) p (j : Int) = ((om (4 * L) (j * m) * X).re, (om (4 * L) (j * m) * X).im) := by
  obtain ⟨e1, e2⟩ := hw m h1 h2
  rw [twF, e1, e2, hr, hi, mul_re, mul_im, om_re, om_im]
  simp only [mulConj, RealArith.mul_r, RealArith.add_r, RealArith.sub_r]
  refine Prod.ext ?_ ?_ <;> dsimp only <;> ring

theorem stage_step {ido l1 : ℕ} (hp : (ido, l1) ∈ passes) {c w : Int → ℝ} {w1 w2 w3 : Int} {x : ℕ → ℝ}
    (hs : Stage ido (4 * l1) c x) (t1 : TwVal w ido 1 w1) (t2 : TwVal w ido 2 w2) (t3 : TwVal w ido 3 w3) :
    Stage (4 * ido) l1 (stepF ido l1 w w1 w2 w3 c) x := by
  intro k hk
  have hq : l1 * ido = 64 := by
    rcases mem_passes hp with ⟨rfl, rfl⟩ | ⟨rfl, rfl⟩ | ⟨rfl, rfl⟩ | ⟨rfl, rfl⟩ <;> rfl
  have hL : ido ≠ 0 := by rintro rfl; omega
  have hpar : ido = 1 ∨ ido % 2 = 0 := by
    rcases mem_passes hp with ⟨rfl, rfl⟩ | ⟨rfl, rfl⟩ | ⟨rfl, rfl⟩ | ⟨rfl, rfl⟩ <;> omega
  obtain ⟨y, hy⟩ : ∃ y : ℕ → ℝ, y = fun n => x (k + l1 * n) := ⟨_, rfl⟩
  obtain ⟨X, hX⟩ : ∃ X : ℕ → ℕ → ℂ, X = fun j => dft ido (fun n => y (4 * n + j)) := ⟨_, rfl⟩
  have hb : ∀ j : ℕ, j < 4 → Blk ido c (((k * ido : ℕ) : Int) + 64 * (j : Int)) (X j) := by
    intro j hj
    have h := hs (k + l1 * j) (by nlinarith)
    have e1 : ((((k + l1 * j) * ido : ℕ)) : Int) = ((k * ido : ℕ) : Int) + 64 * (j : Int) := by
      have : (k + l1 * j) * ido = k * ido + 64 * j := by rw [← hq]; ring
      rw [this]; push_cast; ring
    have e2 : (fun n => x (k + l1 * j + 4 * l1 * n)) = fun n => y (4 * n + j) := by
      funext n; rw [hy]; dsimp only; congr 1; ring
    rw [e1, e2] at h
    rw [hX]
    exact h
  have hbase : ((k * (4 * ido) : ℕ) : Int) = 4 * ((k * ido : ℕ) : Int) := by push_cast; ring
  rw [hbase, ← hy]
  generalize hK : ((k * ido : ℕ) : Int) = K at hb
  obtain ⟨b0, m0, f0⟩ := hb 0 (by omega)
  obtain ⟨b1, m1, f1⟩ := hb 1 (by omega)
  obtain ⟨b2, m2, f2⟩ := hb 2 (by omega)
  obtain ⟨b3, m3, f3⟩ := hb 3 (by omega)
  have z0 : ∀ j, (X j 0).im = 0 := fun j => by rw [hX]; exact dft_zero_im _ _
  have ends : ∀ {a : Int} {v : ℝ}, (a, v) ∈ endsF (ido : Int) 64 c K (4 * K) → stepF ido l1 w w1 w2 w3 c a = v := by
    intro a v h
    rw [← hK] at h
    exact stepF_mem hp (mem_ends hk c w w1 w2 w3 h)
  have mids : ∀ {m : ℕ} {a : Int} {v : ℝ}, 1 ≤ m → 2 * m < ido →
      (a, v) ∈ midF (ido : Int) 64 c w w1 w2 w3 K (2 * (m : Int)) (K + 2 * (m : Int) - 1) → stepF ido l1 w w1 w2 w3 c a = v := by
    intro m a v h1 h2 h
    rw [← hK] at h
    refine stepF_mem hp (mem_mid (u := m - 1) hk (by omega) c w w1 w2 w3 ?_)
    have e : ((2 * (m - 1) + 2 : ℕ) : Int) = 2 * (m : Int) := by omega
    rw [e]; exact h
  have halfs : ∀ {a : Int} {v : ℝ}, ido ≠ 1 → (a, v) ∈ halfF (ido : Int) 64 c K → stepF ido l1 w w1 w2 w3 c a = v := by
    intro a v h1 h
    rw [← hK] at h
    exact stepF_mem hp (mem_half hk h1 c w w1 w2 w3 h)
  -- values at the ends
  have c0 : c K = (X 0 0).re := by rw [← b0]; congr 1; omega
  have c1 : c (K + 64) = (X 1 0).re := by rw [← b1]; congr 1
  have c2 : c (K + 2 * 64) = (X 2 0).re := by rw [← b2]; congr 1
  have c3 : c (K + 3 * 64) = (X 3 0).re := by rw [← b3]; congr 1
  have q0 := dft_quads hL y 0
  dsimp only at q0
  have hX' : ∀ j m, dft ido (fun n => y (4 * n + j)) m = X j m := fun j m => by rw [hX]
  simp only [hX'] at q0
  simp only [Nat.mul_zero, om_zero, one_mul, Nat.add_zero] at q0
  obtain ⟨q00, q01, -, q03⟩ := q0
  have q03 := q03 (2 * ido) rfl
  -- products with the twiddle factors
  have prods : ∀ m : ℕ, 1 ≤ m → 2 * m < ido →
      c (K + 2 * (m : Int) - 1) = (X 0 m).re ∧ c (K + 2 * (m : Int) - 1 + 1) = (X 0 m).im ∧
      twF 64 c w w1 (2 * (m : Int)) (K + 2 * (m : Int) - 1) 1 = ((om (4 * ido) (1 * m) * X 1 m).re, (om (4 * ido) (1 * m) * X 1 m).im) ∧
      twF 64 c w w2 (2 * (m : Int)) (K + 2 * (m : Int) - 1) 2 = ((om (4 * ido) (2 * m) * X 2 m).re, (om (4 * ido) (2 * m) * X 2 m).im) ∧
      twF 64 c w w3 (2 * (m : Int)) (K + 2 * (m : Int) - 1) 3 = ((om (4 * ido) (3 * m) * X 3 m).re, (om (4 * ido) (3 * m) * X 3 m).im) := by
    intro m h1 h2
    have r0 := m0 m h1 h2
    have r1 := m1 m h1 h2
    have r2 := m2 m h1 h2
    have r3 := m3 m h1 h2
    refine ⟨?_, ?_, twF_r (j := 1) t1 h1 h2 ?_ ?_, twF_r (j := 2) t2 h1 h2 ?_ ?_, twF_r (j := 3) t3 h1 h2 ?_ ?_⟩
    · rw [← r0.1]; congr 1; omega
    · rw [← r0.2]; congr 1; omega
    · rw [← r1.1]; congr 1; omega
    · rw [← r1.2]; congr 1; omega
    · rw [← r2.1]; congr 1; omega
    · rw [← r2.2]; congr 1; omega
    · rw [← r3.1]; congr 1; omega
    · rw [← r3.2]; congr 1; omega
  have inst : ∀ m : ℕ, 1 ≤ m → 2 * m < ido →
      ∀ p ∈ midF (ido : Int) 64 c w w1 w2 w3 K (2 * (m : Int)) (K + 2 * (m : Int) - 1), stepF ido l1 w w1 w2 w3 c p.1 = p.2 := by
    intro m h1 h2 p hp
    exact mids h1 h2 hp
  have ei : ∀ p ∈ endsF (ido : Int) 64 c K (4 * K), stepF ido l1 w w1 w2 w3 c p.1 = p.2 := fun p hp => ends hp
  simp only [endsF, List.mem_cons, List.not_mem_nil, or_false, forall_eq_or_imp, forall_eq, c0, c1, c2, c3, RealArith.add_r, RealArith.sub_r] at ei
  obtain ⟨s1, s2, s3, s4⟩ := ei
  have hi : ∀ h : ℕ, 2 * h = ido →
      (∀ p ∈ halfF (ido : Int) 64 c K, stepF ido l1 w w1 w2 w3 c p.1 = p.2) ∧ c ((ido : Int) - 1 + K) = (X 0 h).re ∧
      c ((ido : Int) - 1 + K + 64) = (X 1 h).re ∧ c ((ido : Int) - 1 + K + 2 * 64) = (X 2 h).re ∧
      c ((ido : Int) - 1 + K + 3 * 64) = (X 3 h).re ∧ (∀ j, (X j h).im = 0) ∧
      om (4 * ido) (1 * h) = ⟨Real.sqrt 2 / 2, -(Real.sqrt 2 / 2)⟩ ∧ om (4 * ido) (2 * h) = -I ∧
      om (4 * ido) (3 * h) = ⟨-(Real.sqrt 2 / 2), -(Real.sqrt 2 / 2)⟩ := by
    intro h hh
    have hv : ido % 2 = 0 := by omega
    have hd : ido / 2 = h := by omega
    have o1 : om (4 * ido) (1 * h) = ⟨Real.sqrt 2 / 2, -(Real.sqrt 2 / 2)⟩ := by
      rw [← hh, Nat.one_mul]; exact om_eighth (by omega)
    have o2 : om (4 * ido) (2 * h) = -I := by rw [hh]; exact om_quarter hL
    have r0 := f0 hv
    have r1 := f1 hv
    have r2 := f2 hv
    have r3 := f3 hv
    rw [hd] at r0 r1 r2 r3
    refine ⟨fun p hp => halfs (by omega) hp, ?_, ?_, ?_, ?_, ?_, o1, o2, ?_⟩
    · rw [← r0]; congr 1; omega
    · rw [← r1]; congr 1; omega
    · rw [← r2]; congr 1; omega
    · rw [← r3]; congr 1; omega
    · intro j
      rw [hX, ← hh]
      exact dft_half_im (by omega) _
    · rw [show 3 * h = 1 * h + 2 * h by ring, om_add, o1, o2]
      apply Complex.ext
      · simp
      · simp
  refine ⟨?_, ?_, ?_⟩
  · rw [s3, q00]
    simp only [add_re]
    ring
  · intro M hM1 hM2
    rcases lt_trichotomy M ido with hlt | heq | hgt
    · rcases lt_trichotomy (2 * M) ido with h2 | h2 | h2
      · have g := inst M hM1 h2
        obtain ⟨p1, p2, p3, p4, p5⟩ := prods M hM1 h2
        obtain ⟨qa, -, -, -⟩ := dft_quads hL y M
        simp only [hX'] at qa
        simp only [midF, List.mem_cons, List.not_mem_nil, or_false, forall_eq_or_imp, forall_eq, p1, p2, p3, p4, p5, RealArith.add_r, RealArith.sub_r] at g
        obtain ⟨g1, -, -, -, g5, -, -, -⟩ := g
        constructor
        · rw [show 4 * K + 2 * (M : Int) - 1 = 2 * (M : Int) - 1 + 4 * K by omega, g1, qa]
          simp only [add_re]; ring
        · rw [show 4 * K + 2 * (M : Int) = 2 * (M : Int) + 4 * K by omega, g5, qa]
          simp only [add_im]; ring
      · obtain ⟨g, r0, r1, r2, r3, zi, o1, o2, o3⟩ := hi (M) (by omega)
        obtain ⟨qa, qb, -, -⟩ := dft_quads hL y (M)
        clear qb
        simp only [hX', o1, o2, o3] at qa
        simp only [halfF, List.mem_cons, List.not_mem_nil, or_false, forall_eq_or_imp, forall_eq, r0, r1, r2, r3, RealArith.add_r, RealArith.sub_r, RealArith.mul_r, minusHsqt2_r] at g
        obtain ⟨g1, g2, g3, g4⟩ := g
        constructor
        · rw [show 4 * K + 2 * (M : Int) - 1 = (ido : Int) - 1 + 4 * K by omega, g1, qa]
          simp only [add_re, sub_re, mul_re, neg_re, neg_im, I_re, I_im, mul_im, zi]; ring
        · rw [show 4 * K + 2 * (M : Int) = 4 * K + 1 * (ido : Int) by omega, g3, qa]
          simp only [add_im, sub_im, mul_re, neg_re, neg_im, I_re, I_im, mul_im, zi]; ring
      · have g := inst (ido - M) (by omega) (by omega)
        obtain ⟨p1, p2, p3, p4, p5⟩ := prods (ido - M) (by omega) (by omega)
        obtain ⟨-, -, qa, -⟩ := dft_quads hL y (ido - M)
        have qa := qa M (by omega)
        simp only [hX'] at qa
        simp only [midF, List.mem_cons, List.not_mem_nil, or_false, forall_eq_or_imp, forall_eq, p1, p2, p3, p4, p5, RealArith.add_r, RealArith.sub_r] at g
        obtain ⟨-, -, -, g4, -, -, -, g8⟩ := g
        have e : ((ido - M : ℕ) : Int) = (ido : Int) - (M : Int) := by omega
        rw [e] at g4 g8
        constructor
        · rw [show 4 * K + 2 * (M : Int) - 1 = (ido : Int) - 2 * ((ido : Int) - (M : Int)) - 1 + 4 * K + 1 * (ido : Int) by omega, g4, qa]
          simp only [conj_re, add_re, sub_re, mul_re, I_re, I_im, mul_im]; ring
        · rw [show 4 * K + 2 * (M : Int) = (ido : Int) - 2 * ((ido : Int) - (M : Int)) + 4 * K + 1 * (ido : Int) by omega, g8, qa]
          simp only [conj_im, add_im, sub_im, mul_im, I_re, I_im, mul_re]; ring
    · subst heq
      constructor
      · rw [show 4 * K + 2 * (M : Int) - 1 = 4 * K + (2 * (M : Int) - 1) by omega, s1, q01]
        simp only [add_re, sub_re, mul_re, I_re, I_im, z0]; ring
      · rw [s2, q01]
        simp only [add_im, sub_im, mul_im, I_re, I_im, z0]; ring
    · rcases lt_trichotomy (2 * (M - ido)) ido with h2 | h2 | h2
      · have g := inst (M - ido) (by omega) (by omega)
        obtain ⟨p1, p2, p3, p4, p5⟩ := prods (M - ido) (by omega) (by omega)
        obtain ⟨-, qa, -, -⟩ := dft_quads hL y (M - ido)
        rw [show ido + (M - ido) = M by omega] at qa
        simp only [hX'] at qa
        simp only [midF, List.mem_cons, List.not_mem_nil, or_false, forall_eq_or_imp, forall_eq, p1, p2, p3, p4, p5, RealArith.add_r, RealArith.sub_r] at g
        obtain ⟨-, -, g3, -, -, -, g7, -⟩ := g
        have e : ((M - ido : ℕ) : Int) = (M : Int) - (ido : Int) := by omega
        rw [e] at g3 g7
        constructor
        · rw [show 4 * K + 2 * (M : Int) - 1 = 2 * ((M : Int) - (ido : Int)) - 1 + 4 * K + 2 * (ido : Int) by omega, g3, qa]
          simp only [add_re, sub_re, mul_re, I_re, I_im, mul_im]; ring
        · rw [show 4 * K + 2 * (M : Int) = 2 * ((M : Int) - (ido : Int)) + 4 * K + 2 * (ido : Int) by omega, g7, qa]
          simp only [add_im, sub_im, mul_im, I_re, I_im, mul_re]; ring
      · obtain ⟨g, r0, r1, r2, r3, zi, o1, o2, o3⟩ := hi (M - ido) (by omega)
        obtain ⟨qa, qb, -, -⟩ := dft_quads hL y (M - ido)
        rw [show ido + (M - ido) = M by omega] at qb
        simp only [hX', o1, o2, o3] at qb
        simp only [halfF, List.mem_cons, List.not_mem_nil, or_false, forall_eq_or_imp, forall_eq, r0, r1, r2, r3, RealArith.add_r, RealArith.sub_r, RealArith.mul_r, minusHsqt2_r] at g
        obtain ⟨g1, g2, g3, g4⟩ := g
        constructor
        · rw [show 4 * K + 2 * (M : Int) - 1 = (ido : Int) - 1 + 4 * K + 2 * (ido : Int) by omega, g2, qb]
          simp only [add_re, sub_re, mul_re, neg_re, neg_im, I_re, I_im, mul_im, zi]; ring
        · rw [show 4 * K + 2 * (M : Int) = 4 * K + 3 * (ido : Int) by omega, g4, qb]
          simp only [add_im, sub_im, mul_re, neg_re, neg_im, I_re, I_im, mul_im, zi]; ring
      · have g := inst (2 * ido - M) (by omega) (by omega)
        obtain ⟨p1, p2, p3, p4, p5⟩ := prods (2 * ido - M) (by omega) (by omega)
        obtain ⟨-, -, -, qa⟩ := dft_quads hL y (2 * ido - M)
        have qa := qa M (by omega)
        simp only [hX'] at qa
        simp only [midF, List.mem_cons, List.not_mem_nil, or_false, forall_eq_or_imp, forall_eq, p1, p2, p3, p4, p5, RealArith.add_r, RealArith.sub_r] at g
        obtain ⟨-, g2, -, -, -, g6, -, -⟩ := g
        have e : ((2 * ido - M : ℕ) : Int) = 2 * (ido : Int) - (M : Int) := by omega
        rw [e] at g2 g6
        constructor
        · rw [show 4 * K + 2 * (M : Int) - 1 = (ido : Int) - 2 * (2 * (ido : Int) - (M : Int)) - 1 + 4 * K + 3 * (ido : Int) by omega, g2, qa]
          simp only [conj_re, add_re, sub_re]; ring
        · rw [show 4 * K + 2 * (M : Int) = (ido : Int) - 2 * (2 * (ido : Int) - (M : Int)) + 4 * K + 3 * (ido : Int) by omega, g6, qa]
          simp only [conj_im, add_im, sub_im]; ring
  · intro _
    rw [show 4 * K + ((4 * ido : ℕ) : Int) - 1 = 4 * K + (4 * (ido : Int) - 1) by omega, s4, show 4 * ido / 2 = 2 * ido by omega, q03]
    simp only [conj_re, add_re, sub_re]; ring

end Verif.Model
