import Verif.Lemmas.EnhAcc

/-!
# The table of cosines of the spectral enhancement in binary32
-/

namespace Verif.Model
open Verif Verif.Gen Verif.Spec Verif.Num Arith
variable {m : Libm}

theorem turn_step {c s cd sd : IEEE m} {a b p q : ℚ} (hc : Val c a) (hs : Val s b) (hcd : Val cd p) (hsd : Val sd q)
    (ha : |a| ≤ 1001 / 1000) (hb : |b| ≤ 1001 / 1000) (hp : |p| ≤ 1001 / 1000) (hq : |q| ≤ 1001 / 1000)
    (hu : |a * p - b * q| ≤ 101 / 100) (hv : |b * p + a * q| ≤ 101 / 100) :
    ∃ a' b', Val ((c *ᶠ cd) -ᶠ (s *ᶠ sd) : IEEE m) a' ∧ Val ((s *ᶠ cd) +ᶠ (c *ᶠ sd) : IEEE m) b' ∧
      |a' - (a * p - b * q)| ≤ 302 / 100 / 2 ^ 24 ∧ |b' - (b * p + a * q)| ≤ 302 / 100 / 2 ^ 24 := by
  have hB : (100 : ℚ) ≤ Val.big := le_trans (by norm_num) big_ge
  have pr : ∀ {x y : ℚ}, |x| ≤ 1001 / 1000 → |y| ≤ 1001 / 1000 → |x * y| ≤ 1003 / 1000 := by
    intro x y hx hy
    rw [abs_mul]
    calc |x| * |y| ≤ 1001 / 1000 * (1001 / 1000) := mul_le_mul hx hy (abs_nonneg _) (by norm_num)
      _ ≤ 1003 / 1000 := by norm_num
  have h1 := pr ha hp
  have h2 := pr hb hq
  have h3 := pr hb hp
  have h4 := pr ha hq
  have k := p150
  have e24 := p24
  have tiny : (1 : ℚ) / 2 ^ 100 ≤ 1 / 2 ^ 60 := by norm_num
  obtain ⟨u1, v1, w1⟩ := hc.mulE hcd (h1.trans (le_trans (by norm_num) hB))
  obtain ⟨u2, v2, w2⟩ := hs.mulE hsd (h2.trans (le_trans (by norm_num) hB))
  obtain ⟨u3, v3, w3⟩ := hs.mulE hcd (h3.trans (le_trans (by norm_num) hB))
  obtain ⟨u4, v4, w4⟩ := hc.mulE hsd (h4.trans (le_trans (by norm_num) hB))
  rw [e24] at w1 w2 w3 w4
  have g : ∀ {u z : ℚ}, |u - z| ≤ 1 / 16777216 * |z| + pow2 (-150) → |z| ≤ 1003 / 1000 → |u - z| ≤ 10031 / 10000 / 2 ^ 24 := by
    intro u z hu hz
    norm_num at *
    linarith
  have g1 := abs_le.1 (g w1 h1)
  have g2 := abs_le.1 (g w2 h2)
  have g3 := abs_le.1 (g w3 h3)
  have g4 := abs_le.1 (g w4 h4)
  have hu' := abs_le.1 hu
  have hv' := abs_le.1 hv
  have s1 : |u1 - u2| ≤ 1011 / 1000 := by
    rw [abs_le]; constructor <;> norm_num at * <;> linarith
  have s2 : |u3 + u4| ≤ 1011 / 1000 := by
    rw [abs_le]; constructor <;> norm_num at * <;> linarith
  obtain ⟨x, vx, wx⟩ := v1.subE v2 (s1.trans (le_trans (by norm_num) hB))
  obtain ⟨y, vy, wy⟩ := v3.addE v4 (s2.trans (le_trans (by norm_num) hB))
  rw [e24] at wx wy
  refine ⟨x, y, vx, vy, ?_, ?_⟩
  · have wx' : |x - (u1 - u2)| ≤ 10111 / 10000 / 2 ^ 24 := by norm_num at *; linarith
    have := abs_le.1 wx'
    rw [abs_le]
    constructor <;> norm_num at * <;> linarith
  · have wy' : |y - (u3 + u4)| ≤ 10111 / 10000 / 2 ^ 24 := by norm_num at *; linarith
    have := abs_le.1 wy'
    rw [abs_le]
    constructor <;> norm_num at * <;> linarith

theorem norm_both {x y e : ℝ} (h0 : 0 ≤ e) (hx : |x| ≤ e) (hy : |y| ≤ e) : ‖(⟨x, y⟩ : ℂ)‖ ≤ 1415 / 1000 * e := by
  rw [Complex.norm_eq_sqrt_sq_add_sq]
  refine Real.sqrt_le_iff.2 ⟨by positivity, ?_⟩
  have h1 := sq_le_sq' (abs_le.1 hx).1 (abs_le.1 hx).2
  have h2 := sq_le_sq' (abs_le.1 hy).1 (abs_le.1 hy).2
  dsimp only
  nlinarith

/-- The pair `(c, s)` is near `exp(i n θ)`. -/
def Turn (θ : ℝ) (n : Nat) (c s : FP) : Prop :=
  ∃ a b : ℚ, Val c a ∧ Val s b ∧ ‖(⟨(a : ℝ), (b : ℝ)⟩ : ℂ) - Complex.exp ((n : ℂ) * θ * Complex.I)‖ ≤ n / 1600000

theorem cast_abs_le {x c : ℚ} {y : ℝ} (hy : y ≤ c) (h : |(x : ℝ)| ≤ y) : |x| ≤ c := by
  have : |(x : ℝ)| ≤ (c : ℝ) := h.trans hy
  exact_mod_cast this

theorem Turn.step {θ : ℝ} {n : Nat} (hn : n ≤ 56) {c s cd sd : IEEE m} (h : Turn θ n c s) {p q : ℚ}
    (hcd : Val cd p) (hsd : Val sd q) (hp : |(p : ℝ) - Real.cos θ| ≤ 1 / 4194304) (hq : |(q : ℝ) - Real.sin θ| ≤ 1 / 4194304) :
    Turn θ (n + 1) ((c *ᶠ cd) -ᶠ (s *ᶠ sd) : IEEE m) ((s *ᶠ cd) +ᶠ (c *ᶠ sd) : IEEE m) := by
  obtain ⟨a, b, hc, hs, hab⟩ := h
  have hn' : (n : ℝ) ≤ 56 := by exact_mod_cast hn
  have en : ‖Complex.exp ((n : ℂ) * θ * Complex.I)‖ = 1 := by
    have := Complex.norm_exp_ofReal_mul_I ((n : ℝ) * θ)
    push_cast at this
    exact this
  have n1 : ‖Complex.exp ((θ : ℂ) * Complex.I)‖ = 1 := Complex.norm_exp_ofReal_mul_I θ
  have d2 : ‖(⟨(p : ℝ), (q : ℝ)⟩ : ℂ) - Complex.exp ((θ : ℂ) * Complex.I)‖ ≤ 1415 / 1000 * (1 / 4194304) := by
    have : (⟨(p : ℝ), (q : ℝ)⟩ : ℂ) - Complex.exp ((θ : ℂ) * Complex.I) = ⟨(p : ℝ) - Real.cos θ, (q : ℝ) - Real.sin θ⟩ := by
      apply Complex.ext
      · simp [Complex.exp_ofReal_mul_I_re]
      · simp [Complex.exp_ofReal_mul_I_im]
    rw [this]
    exact norm_both (by norm_num) hp hq
  have hZ : ‖(⟨(a : ℝ), (b : ℝ)⟩ : ℂ)‖ ≤ 1 + 56 / 1600000 := by
    have := norm_sub_norm_le (⟨(a : ℝ), (b : ℝ)⟩ : ℂ) (Complex.exp ((n : ℂ) * θ * Complex.I))
    rw [en] at this
    linarith
  have hW : ‖(⟨(p : ℝ), (q : ℝ)⟩ : ℂ)‖ ≤ 1 + 1 / 1000000 := by
    have := norm_sub_norm_le (⟨(p : ℝ), (q : ℝ)⟩ : ℂ) (Complex.exp ((θ : ℂ) * Complex.I))
    rw [n1] at this
    linarith
  have hZW : ‖(⟨(a : ℝ), (b : ℝ)⟩ : ℂ) * ⟨(p : ℝ), (q : ℝ)⟩‖ ≤ 101 / 100 := by
    rw [norm_mul]
    exact (mul_le_mul hZ hW (norm_nonneg _) (by norm_num)).trans (by norm_num)
  have c1 : (1 : ℝ) + 56 / 1600000 ≤ ((1001 / 1000 : ℚ) : ℝ) := by push_cast; norm_num
  have c2 : (1 : ℝ) + 1 / 1000000 ≤ ((1001 / 1000 : ℚ) : ℝ) := by push_cast; norm_num
  have c3 : (101 / 100 : ℝ) ≤ ((101 / 100 : ℚ) : ℝ) := by push_cast; norm_num
  obtain ⟨a', b', v1, v2, e1, e2⟩ := turn_step hc hs hcd hsd (cast_abs_le c1 ((Complex.abs_re_le_norm ⟨(a : ℝ), (b : ℝ)⟩).trans hZ))
    (cast_abs_le c1 ((Complex.abs_im_le_norm ⟨(a : ℝ), (b : ℝ)⟩).trans hZ)) (cast_abs_le c2 ((Complex.abs_re_le_norm ⟨(p : ℝ), (q : ℝ)⟩).trans hW))
    (cast_abs_le c2 ((Complex.abs_im_le_norm ⟨(p : ℝ), (q : ℝ)⟩).trans hW)) (cast_abs_le (y := 101 / 100) c3 (by
      have := (Complex.abs_re_le_norm ((⟨(a : ℝ), (b : ℝ)⟩ : ℂ) * ⟨(p : ℝ), (q : ℝ)⟩)).trans hZW
      rw [Complex.mul_re] at this
      push_cast
      exact this)) (cast_abs_le (y := 101 / 100) c3 (by
      have := (Complex.abs_im_le_norm ((⟨(a : ℝ), (b : ℝ)⟩ : ℂ) * ⟨(p : ℝ), (q : ℝ)⟩)).trans hZW
      rw [Complex.mul_im] at this
      push_cast
      rw [add_comm]
      exact this))
  refine ⟨a', b', v1, v2, ?_⟩
  have e1' : |(a' : ℝ) - (a * p - b * q)| ≤ 302 / 100 / 2 ^ 24 := by
    have : ((|a' - (a * p - b * q)| : ℚ) : ℝ) ≤ ((302 / 100 / 2 ^ 24 : ℚ) : ℝ) := by exact_mod_cast e1
    push_cast at this
    exact this
  have e2' : |(b' : ℝ) - (b * p + a * q)| ≤ 302 / 100 / 2 ^ 24 := by
    have : ((|b' - (b * p + a * q)| : ℚ) : ℝ) ≤ ((302 / 100 / 2 ^ 24 : ℚ) : ℝ) := by exact_mod_cast e2
    push_cast at this
    exact this
  set Z : ℂ := ⟨(a : ℝ), (b : ℝ)⟩ with hZd
  set W : ℂ := ⟨(p : ℝ), (q : ℝ)⟩ with hWd
  set V : ℂ := ⟨(a' : ℝ), (b' : ℝ)⟩ with hVd
  set e := Complex.exp ((θ : ℂ) * Complex.I) with he
  have ee : Complex.exp (((n + 1 : Nat) : ℂ) * θ * Complex.I) = Complex.exp ((n : ℂ) * θ * Complex.I) * e := by
    rw [he, ← Complex.exp_add]
    congr 1
    push_cast
    ring
  have d1 : ‖V - Z * W‖ ≤ 1415 / 1000 * (302 / 100 / 2 ^ 24) := by
    have : V - Z * W = ⟨(a' : ℝ) - (a * p - b * q), (b' : ℝ) - (b * p + a * q)⟩ := by
      apply Complex.ext
      · simp [hVd, hZd, hWd]
      · simp [hVd, hZd, hWd]; ring
    rw [this]
    exact norm_both (by norm_num) e1' e2'
  rw [ee]
  have split : V - Complex.exp ((n : ℂ) * θ * Complex.I) * e = (V - Z * W) + Z * (W - e) +
      (Z - Complex.exp ((n : ℂ) * θ * Complex.I)) * e := by ring
  rw [split]
  refine (norm_add_le _ _).trans ?_
  have t1 := norm_add_le (V - Z * W) (Z * (W - e))
  rw [norm_mul] at t1
  have t2 : ‖Z‖ * ‖W - e‖ ≤ (1 + 56 / 1600000) * (1415 / 1000 * (1 / 4194304)) := mul_le_mul hZ d2 (norm_nonneg _) (by norm_num)
  rw [norm_mul, n1, mul_one]
  push_cast
  have : (1415 / 1000 * (302 / 100 / 2 ^ 24) + (1 + 56 / 1600000) * (1415 / 1000 * (1 / 4194304)) : ℝ) ≤ 1 / 1600000 := by norm_num
  have e3 : ((n : ℝ) + 1) / 1600000 = n / 1600000 + 1 / 1600000 := by ring
  linarith

/-- The table against the exact cosines. -/
theorem cosTab_near (hcos : CosAcc m) (hsin : SinAcc m) {w : IEEE m} {q : ℚ} (hw : Val w q) (hq : |q| ≤ 8) {L : Int} (hL : L ≤ 56) :
    Ok (cosTab w L) fun ct => ∀ l : Fin 57, 1 ≤ l.val → (l.val : Int) ≤ L →
      ∃ (c : IEEE m) (r : ℚ), ct l = some c ∧ Val c r ∧ |(r : ℝ) - Real.cos (l.val * (q : ℝ))| ≤ 56 / 1600000 := by
  obtain ⟨pc, hc1, hc2⟩ := hcos w q hw hq
  obtain ⟨ps, hs1, hs2⟩ := hsin w q hw hq
  have hc1 : Val (cos w : IEEE m) pc := hc1
  have hs1 : Val (sin w : IEEE m) ps := hs1
  have h1c : Val (lit 1 1 : IEEE m) 1 := one_val
  have h0c : Val (lit 0 1 : IEEE m) 0 := ⟨false, rfl⟩
  unfold cosTab
  dsimp only
  generalize hcs : (cos w : IEEE m) = cs at *
  generalize hss : (sin w : IEEE m) = ss at *
  refine Ok.bind (P := fun s : Loc 57 (IEEE m) × IEEE m × IEEE m => ∀ l : Fin 57, 1 ≤ l.val → (l.val : Int) ≤ L →
      ∃ (c : IEEE m) (r : ℚ), s.1 l = some c ∧ Val c r ∧ |(r : ℝ) - Real.cos (l.val * (q : ℝ))| ≤ 56 / 1600000) ?_ fun s hs => Ok.ok hs
  unfold loopTo
  by_cases h0 : L ≤ 0
  · have : L.toNat = 0 := by omega
    rw [this]
    exact Ok.ok fun l h1 h2 => by omega
  · refine (loopFT_inv (lo := 1) (hi := L.toNat) (fun k (s : Loc 57 (IEEE m) × IEEE m × IEEE m) =>
      (∀ l : Fin 57, 1 ≤ l.val → l.val < k → ∃ (c : IEEE m) (r : ℚ), s.1 l = some c ∧ Val c r ∧
        |(r : ℝ) - Real.cos (l.val * (q : ℝ))| ≤ 56 / 1600000) ∧
      Turn q (k - 1) s.2.1 s.2.2) (by omega) ⟨by intro l _ _; omega, ?_⟩ ?_).mono ?_
    · refine ⟨1, 0, h1c, h0c, ?_⟩
      have : (⟨((1 : ℚ) : ℝ), ((0 : ℚ) : ℝ)⟩ : ℂ) = 1 := by apply Complex.ext <;> simp
      rw [this]
      simp
    · intro i h1 h2 s hs
      obtain ⟨hs, hr⟩ := hs
      have hr' := Turn.step (by omega) hr hc1 hs1 hc2 hs2
      rw [show i - 1 + 1 = i by omega] at hr'
      rw [Loc.wr_nat (by omega), ok_bind]
      refine Ok.ok ⟨fun l a b => ?_, by simpa using hr'⟩
      by_cases e : l.val = i
      · dsimp only
        rw [Arr.set_same e]
        obtain ⟨x, y, hx, hy, hxy⟩ := hr'
        refine ⟨_, x, rfl, hx, ?_⟩
        have hre := (Complex.abs_re_le_norm _).trans hxy
        have e2 : ((⟨(x : ℝ), (y : ℝ)⟩ : ℂ) - Complex.exp ((i : ℂ) * ((q : ℝ) : ℂ) * Complex.I)).re = (x : ℝ) - Real.cos (i * (q : ℝ)) := by
          have := Complex.exp_ofReal_mul_I_re ((i : ℝ) * (q : ℝ))
          push_cast at this
          simp only [Complex.sub_re]
          push_cast
          rw [this]
        rw [e2] at hre
        have hi : (i : ℝ) ≤ 56 := by have : i ≤ 56 := by omega
                                     exact_mod_cast this
        rw [e]
        linarith
      · dsimp only; rw [Arr.set_ne e]; exact hs l a (by omega)
    · intro s hs l a b
      exact hs.1 l a (by omega)

end Verif.Model
