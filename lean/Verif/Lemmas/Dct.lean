import Verif.Spec.Spectrum
import Verif.Lemmas.PredictBound

/-!
# The cosine transform undoes the inverse cosine transform
-/

set_option linter.unusedSectionVars false

namespace Verif.Model
open Verif Verif.Gen Verif.Spec Arith

/-- Sum of the cosines of one frequency over the sample positions of a transform of size `N`. -/
noncomputable def cosSum (N p : Nat) : ℝ := ∑ j ∈ Finset.Icc 1 N, Real.cos (Real.pi * p * ((j : ℝ) - 1 / 2) / N)

theorem cosSum_zero (N : Nat) : cosSum N 0 = N := by simp [cosSum]

theorem cos_telescope (θ : ℝ) (N : Nat) :
    2 * Real.sin (θ / 2) * ∑ j ∈ Finset.Icc 1 N, Real.cos (θ * ((j : ℝ) - 1 / 2)) = Real.sin (θ * N) := by
  induction N with
  | zero => simp
  | succ N ih =>
    rw [Finset.sum_Icc_succ_top (by omega), mul_add, ih]
    have h := Real.sin_sub_sin (θ * ((N + 1 : Nat) : ℝ)) (θ * N)
    rw [show (θ * ((N + 1 : Nat) : ℝ) - θ * N) / 2 = θ / 2 by push_cast; ring,
      show (θ * ((N + 1 : Nat) : ℝ) + θ * N) / 2 = θ * (((N + 1 : Nat) : ℝ) - 1 / 2) by push_cast; ring] at h
    linarith

theorem cosSum_pos {N p : Nat} (h1 : 0 < p) (h2 : p < 2 * N) : cosSum N p = 0 := by
  have hN : (0 : ℝ) < N := by
    have : 0 < N := by omega
    exact_mod_cast this
  have h := cos_telescope (Real.pi * p / N) N
  have e : ∀ j : Nat, Real.pi * p / N * ((j : ℝ) - 1 / 2) = Real.pi * p * ((j : ℝ) - 1 / 2) / N := fun j => by ring
  simp only [e] at h
  rw [show Real.pi * p / N * N = p * Real.pi by field_simp, Real.sin_nat_mul_pi] at h
  have hs : 0 < Real.sin (Real.pi * p / N / 2) := by
    refine Real.sin_pos_of_pos_of_lt_pi (by have := Real.pi_pos; have : (0 : ℝ) < p := by exact_mod_cast h1
                                            positivity) ?_
    rw [div_div, div_lt_iff₀ (by positivity)]
    have : (p : ℝ) < 2 * N := by exact_mod_cast h2
    nlinarith [Real.pi_pos]
  have : cosSum N p * (2 * Real.sin (Real.pi * p / N / 2)) = 0 := by rw [mul_comm]; exact h
  rcases mul_eq_zero.mp this with h | h
  · exact h
  · linarith

/-- Orthogonality of the basis functions. -/
theorem cos_orth {N k q : Nat} (hk1 : 1 ≤ k) (hk : k ≤ N) (hq1 : 1 ≤ q) (hq : q ≤ N) :
    wgt q * ∑ j ∈ Finset.Icc 1 N, Real.cos (Real.pi * ((q : ℝ) - 1) * ((j : ℝ) - 1 / 2) / N) *
      Real.cos (Real.pi * ((k : ℝ) - 1) * ((j : ℝ) - 1 / 2) / N) = if q = k then (N : ℝ) else 0 := by
  have key : ∀ a b : Nat, 1 ≤ b → b ≤ a → a ≤ N →
      ∑ j ∈ Finset.Icc 1 N, Real.cos (Real.pi * ((a : ℝ) - 1) * ((j : ℝ) - 1 / 2) / N) *
        Real.cos (Real.pi * ((b : ℝ) - 1) * ((j : ℝ) - 1 / 2) / N) = (cosSum N (a - b) + cosSum N (a + b - 2)) / 2 := by
    intro a b h1 h2 _
    unfold cosSum
    rw [← Finset.sum_add_distrib, Finset.sum_div]
    refine Finset.sum_congr rfl fun j _ => ?_
    have h := Real.two_mul_cos_mul_cos (Real.pi * ((a : ℝ) - 1) * ((j : ℝ) - 1 / 2) / N) (Real.pi * ((b : ℝ) - 1) * ((j : ℝ) - 1 / 2) / N)
    rw [Nat.cast_sub h2, Nat.cast_sub (by omega : 2 ≤ a + b)]
    push_cast
    rw [show Real.pi * ((a : ℝ) - b) * ((j : ℝ) - 1 / 2) / N = Real.pi * ((a : ℝ) - 1) * ((j : ℝ) - 1 / 2) / N - Real.pi * ((b : ℝ) - 1) * ((j : ℝ) - 1 / 2) / N by ring,
      show Real.pi * ((a : ℝ) + b - 2) * ((j : ℝ) - 1 / 2) / N = Real.pi * ((a : ℝ) - 1) * ((j : ℝ) - 1 / 2) / N + Real.pi * ((b : ℝ) - 1) * ((j : ℝ) - 1 / 2) / N by ring]
    linarith
  rcases lt_trichotomy q k with h | h | h
  · rw [if_neg (by omega)]
    simp only [mul_comm (Real.cos (Real.pi * ((q : ℝ) - 1) * _ / N))]
    rw [key k q hq1 h.le hk, cosSum_pos (by omega) (by omega), cosSum_pos (by omega) (by omega)]
    simp
  · subst h
    rw [if_pos rfl, key q q hq1 le_rfl hq, Nat.sub_self, cosSum_zero]
    by_cases e : q = 1
    · subst e
      rw [show 1 + 1 - 2 = 0 by rfl, cosSum_zero]
      simp [wgt]
    · rw [cosSum_pos (by omega) (by omega)]
      unfold wgt
      rw [if_neg e]
      ring
  · rw [if_neg (by omega), key q k hk1 h.le hq, cosSum_pos (by omega) (by omega), cosSum_pos (by omega) (by omega)]
    simp

/-- The inverse transform. -/
noncomputable def idct (N : Nat) (c : Nat → ℝ) (j : Nat) : ℝ :=
  ∑ k ∈ Finset.Icc 1 N, wgt k * c k * Real.cos (Real.pi * ((k : ℝ) - 1) * ((j : ℝ) - 1 / 2) / N)

theorem dct_idct {N k : Nat} (c : Nat → ℝ) (h1 : 1 ≤ k) (h2 : k ≤ N) : dct N (idct N c) k = c k := by
  have hN : (N : ℝ) ≠ 0 := by
    have : N ≠ 0 := by omega
    exact_mod_cast this
  unfold dct idct
  rw [div_eq_iff hN]
  simp only [Finset.sum_mul]
  rw [Finset.sum_comm]
  have : ∀ q ∈ Finset.Icc 1 N, ∑ j ∈ Finset.Icc 1 N, wgt q * c q * Real.cos (Real.pi * ((q : ℝ) - 1) * ((j : ℝ) - 1 / 2) / N) *
      Real.cos (Real.pi * ((k : ℝ) - 1) * ((j : ℝ) - 1 / 2) / N) = if q = k then c q * N else 0 := by
    intro q hq
    rw [Finset.mem_Icc] at hq
    have h := cos_orth h1 h2 hq.1 hq.2
    rw [← mul_ite_zero, ← h, Finset.mul_sum, Finset.mul_sum]
    refine Finset.sum_congr rfl fun j _ => ?_
    ring
  rw [Finset.sum_congr rfl this, Finset.sum_ite_eq' , if_pos (Finset.mem_Icc.mpr ⟨h1, h2⟩)]

theorem dct_congr {N k : Nat} {x y : Nat → ℝ} (h : ∀ j, 1 ≤ j → j ≤ N → x j = y j) : dct N x k = dct N y k := by
  unfold dct
  congr 1
  refine Finset.sum_congr rfl fun j hj => ?_
  rw [Finset.mem_Icc] at hj
  rw [h j hj.1 hj.2]

/-! ## The transforms in the decoders -/

theorem dctCos_r (m i : Nat) (den : ℝ) :
    (dctCos m i den : ℝ) = Real.cos (Real.pi * ((m : ℝ) - 1) * ((i : ℝ) - 1 / 2) / den) := by
  unfold dctCos
  rw [RealArith.toF_r, RealArith.mpi_r, show (lit 5 10 : ℝ) = 1 / 2 by rw [RealArith.lit_r _ _ (by decide)]; norm_num]
  show Real.cos (Real.pi * (((m : Int) - 1 : Int) : ℝ) * (((i : Int) : ℝ) - 1 / 2) / den) = _
  push_cast
  rfl

theorem rdRi_r {r n m i : Nat} (h1 : 1 ≤ m) (h2 : 1 ≤ i) : Post ((fillCache r n : DctCache ℝ r n).rdRi m i) fun v =>
    v = Real.cos (Real.pi * ((m : ℝ) - 1) * ((i : ℝ) - 1 / 2) / ((r : ℝ) - 1)) := by
  unfold DctCache.rdRi
  refine Post.bind Arr.rd_post fun a ha => ?_
  obtain ⟨_, rfl⟩ := ha
  refine Arr.rd_post.mono fun v hv => ?_
  obtain ⟨_, rfl⟩ := hv
  show (if _ then _ else _) = _
  rw [if_pos ⟨by simpa using h1, by simpa using h2⟩]
  simp only [Int.toNat_natCast]
  rw [dctCos_r, RealArith.fi_r]
  push_cast
  rfl

theorem rdIdct_r {r n J j k : Nat} (h1 : 1 ≤ j) (h2 : j ≤ J) (h3 : 1 ≤ k) (h4 : k ≤ J) :
    Post ((fillCache r n : DctCache ℝ r n).rdIdct J j k) fun v =>
    v = Real.cos (Real.pi * ((k : ℝ) - 1) * ((j : ℝ) - 1 / 2) / (J : ℝ)) := by
  unfold DctCache.rdIdct
  refine Post.bind Arr.rd_post fun a ha => ?_
  obtain ⟨_, rfl⟩ := ha
  refine Post.bind Arr.rd_post fun a ha => ?_
  obtain ⟨_, rfl⟩ := ha
  refine Arr.rd_post.mono fun v hv => ?_
  obtain ⟨_, rfl⟩ := hv
  show (if _ then _ else _) = _
  rw [if_pos (by simp only [Int.toNat_natCast]; exact ⟨h1, h2, h3, h4⟩)]
  simp only [Int.toNat_natCast]
  rw [dctCos_r, RealArith.fi_r]
  push_cast
  rfl

/-- Elements `1 .. N` of a local array hold the values `g`. -/
def Holds {r : Nat} (N : Nat) (a : Loc r ℝ) (g : Nat → ℝ) : Prop := ∀ i : Fin r, 1 ≤ i.val → i.val ≤ N → a i = some (g i)

theorem idctRi_r {r n N : Nat} (hr : r = N + 1) {G : Loc r ℝ} {g : Nat → ℝ} (hG : Holds N G g) :
    Post (idctRi (fillCache r n) N G) fun R => Holds N R (idct N g) := by
  unfold idctRi
  refine (loopFT_post (fun i (R : Loc r ℝ) => Holds (i - 1) R (idct N g)) (by omega) (fun i h1 h2 => by omega) ?_).mono ?_
  · intro i h1 h2 R hR
    refine Post.bind (P := fun s => s = idct N g i) ?_ fun s hs => ?_
    · refine (loopFT_post (fun k (s : ℝ) => s = ∑ k ∈ Finset.Icc 1 (k - 1), wgt k * g k *
        Real.cos (Real.pi * ((k : ℝ) - 1) * ((i : ℝ) - 1 / 2) / N)) (by omega) ?_ ?_).mono ?_
      · rw [RealArith.fi_r]; simp
      · rintro k k1 k2 s rfl
        refine Post.bind Loc.rd_post fun x hx => Post.bind (rdRi_r k1 h1) fun y hy => Post.pure ?_
        obtain ⟨h, hx⟩ := hx
        have e := hG ⟨_, h⟩ (by simpa using k1) (by simpa using k2)
        rw [hx] at e
        simp only [Int.toNat_natCast] at e
        cases e
        rw [show k + 1 - 1 = (k - 1) + 1 by omega, Finset.sum_Icc_succ_top (by omega), show k - 1 + 1 = k by omega,
          hy, dctWeight_r, hr]
        push_cast
        rw [show (N : ℝ) + 1 - 1 = N by ring]
        rfl
      · intro s hs; rw [hs]; rfl
    · refine Loc.wr_post.mono fun R' hR' => ?_
      obtain ⟨_, _, rfl⟩ := hR'
      intro j j1 j2
      rw [Int.toNat_natCast]
      by_cases e : j.val = i
      · rw [Arr.set_same e, hs, e]
      · rw [Arr.set_ne e]
        exact hR j j1 (by omega)
  · intro R h
    simpa using h

theorem idctBlock_r {r n a b : Nat} {C : Arr a (Loc b ℝ)} {i J : Nat} {g : Nat → ℝ}
    (hC : ∀ h : i < a, Holds J (C ⟨i, h⟩) g) {s : Arr 57 ℝ × Int} {l : Nat} (hl : s.2 = ((l + 1 : Nat) : Int)) :
    Post (idctBlock (fillCache r n) C i J s) fun s' => s'.2 = ((l + J + 1 : Nat) : Int) ∧
      ∀ q : Fin 57, s'.1 q = if l < q.val ∧ q.val ≤ l + J then idct J g (q.val - l) else s.1 q := by
  unfold idctBlock
  refine (loopFT_post (fun j (s' : Arr 57 ℝ × Int) => s'.2 = ((l + j : Nat) : Int) ∧
    ∀ q : Fin 57, s'.1 q = if l < q.val ∧ q.val < l + j then idct J g (q.val - l) else s.1 q) (by omega)
    ⟨hl, fun q => by rw [if_neg (by omega)]⟩ ?_).mono ?_
  · rintro j j1 j2 ⟨T, m⟩ ⟨h1, h2⟩
    dsimp only at h1 h2 ⊢
    subst h1
    refine Post.bind (P := fun s => s = idct J g j) ?_ fun x hx => ?_
    · refine (loopFT_post (fun k (s : ℝ) => s = ∑ k ∈ Finset.Icc 1 (k - 1), wgt k * g k *
        Real.cos (Real.pi * ((k : ℝ) - 1) * ((j : ℝ) - 1 / 2) / J)) (by omega) ?_ ?_).mono ?_
      · rw [RealArith.fi_r]; simp
      · rintro k k1 k2 s rfl
        refine Post.bind Loc.rd2_post fun x hx => Post.bind (rdIdct_r j1 j2 k1 k2) fun y hy => Post.pure ?_
        obtain ⟨h, h', hx⟩ := hx
        simp only [Int.toNat_natCast] at h h' hx
        have e := hC h ⟨k, h'⟩ k1 k2
        rw [hx] at e
        cases e
        rw [show k + 1 - 1 = (k - 1) + 1 by omega, Finset.sum_Icc_succ_top (by omega), show k - 1 + 1 = k by omega,
          hy, dctWeight_r]
        rfl
      · intro s hs; rw [hs]; rfl
    · refine Post.bind Arr.wr_post fun t ht => Post.pure ⟨by push_cast; ring, fun q => ?_⟩
      obtain ⟨_, _, rfl⟩ := ht
      dsimp only
      rw [Int.toNat_natCast]
      by_cases e : q.val = l + j
      · rw [Arr.set_same e, hx, if_pos (by omega), e, Nat.add_sub_cancel_left]
      · rw [Arr.set_ne e, h2 q]
        by_cases c : l < q.val ∧ q.val < l + j
        · rw [if_pos c, if_pos (by omega)]
        · rw [if_neg c, if_neg (by omega)]
  · rintro s' ⟨h1, h2⟩
    refine ⟨by rw [h1]; congr 1, fun q => ?_⟩
    rw [h2 q]
    by_cases c : l < q.val ∧ q.val ≤ l + J
    · rw [if_pos c, if_pos (by omega)]
    · rw [if_neg c, if_neg (by omega)]

end Verif.Model
