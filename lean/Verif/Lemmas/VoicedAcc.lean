import Verif.Spec.VoicedAcc
import Verif.Lemmas.FinUnvoiced
import Verif.Lemmas.FftNear
import Verif.Lemmas.Voiced
import Mathlib.Analysis.Real.Pi.Bounds

/-!
# Rounding errors of the voiced synthesis
-/

namespace Verif.Model
open Verif Verif.Gen Verif.Spec Verif.Num Arith
variable {m : Libm}

theorem Val.number {x : FP} {q : ℚ} (h : Val x q) : number x = (q : ℝ) := by
  obtain ⟨s, rfl⟩ := h
  rfl

theorem bnd_number {x : FP} {b : ℚ} (h : Bnd x b) : ∃ q : ℚ, Val x q ∧ number x = (q : ℝ) ∧ |number x| ≤ (b : ℝ) := by
  obtain ⟨q, v, hq⟩ := h
  refine ⟨q, v, Val.number v, ?_⟩
  rw [Val.number v]
  exact_mod_cast hq

/-- A number is near itself. -/
theorem near_self {x : IEEE m} {b : ℚ} (h : Bnd x b) {B : ℝ} (hB : (b : ℝ) ≤ B) : Near 0 B x (number x) := by
  obtain ⟨q, v, e, hq⟩ := bnd_number h
  exact ⟨q, v, by rw [e]; simp, hq.trans hB⟩

theorem near_int {n : Int} (h : |n| ≤ 2 ^ 24) {B : ℝ} (hB : |(n : ℝ)| ≤ B) : Near 0 B (ofInt n : IEEE m) (n : ℝ) :=
  ⟨n, Val.ofInt h, by simp, hB⟩

theorem fpi_acc0 : rngB (fpi : IEEE libm0) 3.14159265 3.14159275 = true := by decide +kernel
theorem twoPi_acc0 : rngB (twoPi : IEEE libm0) 6.2831853 6.2831855 = true := by decide +kernel

theorem fpi_near : Near (1 / 2 ^ 23) 3.15 (fpi : IEEE m) Real.pi := by
  have : rngB (fpi : IEEE m) 3.14159265 3.14159275 = true := fpi_acc0
  obtain ⟨q, v, h1, h2⟩ := rng_of this
  have p1 := Real.pi_gt_d20
  have p2 := Real.pi_lt_d20
  have h1' : ((3.14159265 : ℚ) : ℝ) ≤ q := by exact_mod_cast h1
  have h2' : (q : ℝ) ≤ ((3.14159275 : ℚ) : ℝ) := by exact_mod_cast h2
  push_cast at h1' h2'
  refine ⟨q, v, ?_, ?_⟩
  · rw [abs_le]; constructor <;> norm_num at h1' h2' p1 p2 ⊢ <;> linarith
  · rw [abs_of_pos Real.pi_pos]; norm_num at p2 ⊢; linarith

theorem twoPi_near : Near (1 / 4000000) 6.29 (twoPi : IEEE m) (2 * Real.pi) := by
  have : rngB (twoPi : IEEE m) 6.2831853 6.2831855 = true := twoPi_acc0
  obtain ⟨q, v, h1, h2⟩ := rng_of this
  have p1 := Real.pi_gt_d20
  have p2 := Real.pi_lt_d20
  have h1' : ((6.2831853 : ℚ) : ℝ) ≤ q := by exact_mod_cast h1
  have h2' : (q : ℝ) ≤ ((6.2831855 : ℚ) : ℝ) := by exact_mod_cast h2
  push_cast at h1' h2'
  refine ⟨q, v, ?_, ?_⟩
  · rw [abs_le]; constructor <;> norm_num at h1' h2' p1 p2 ⊢ <;> linarith
  · rw [abs_of_pos (by linarith [Real.pi_pos])]; norm_num at p2 ⊢; linarith

/-- Division by an exact number. -/
theorem Near.divc {e1 e B1 B : ℝ} {x x' : IEEE m} {y : ℝ} {d : ℚ} (h : Near e1 B1 x y) (hd : Val x' d) (hp : 0 < d) (hB : B1 / d ≤ B)
    (he : e1 / d + (B + e1 / d) / 16777216 + 1 / 2 ^ 150 ≤ e) (hb : B + e1 / d ≤ 2 ^ 126) : Near e B (x /ᶠ x' : IEEE m) (y / d) := by
  obtain ⟨q, v, a1, a2⟩ := h
  have hd0 : (0 : ℝ) < d := by exact_mod_cast hp
  have k1 : |((q / d : ℚ) : ℝ) - y / d| ≤ e1 / d := by
    rw [show ((q / d : ℚ) : ℝ) - y / d = (q - y) / d by push_cast; ring, abs_div, abs_of_pos hd0]
    exact div_le_div_of_nonneg_right a1 hd0.le
  have k2 : |y / d| ≤ B := by
    rw [abs_div, abs_of_pos hd0]
    exact (div_le_div_of_nonneg_right a2 hd0.le).trans hB
  have k3 : |((q / d : ℚ) : ℝ)| ≤ B + e1 / d := by
    have := abs_sub_abs_le_abs_sub ((q / d : ℚ) : ℝ) (y / d)
    linarith
  exact ⟨_, v.div hd hp.ne' (big_real k3 hb), near_op k1 k2 he, k2⟩

/-- The target may move. -/
theorem Near.shift {e1 e B1 B : ℝ} {x : IEEE m} {y z : ℝ} (h : Near e1 B1 x y) (hz : |y - z| ≤ e - e1) (hB : |z| ≤ B) : Near e B x z := by
  obtain ⟨q, v, a1, _⟩ := h
  refine ⟨q, v, ?_, hB⟩
  have := abs_sub_le (q : ℝ) y z
  linarith

/-! ## Accumulation -/

/-- The error allowed after `k` additions of terms whose magnitudes add up to `T`, at most `W` in the end. -/
noncomputable def accErr (W : ℝ) (k : Nat) (T : ℝ) : ℝ := T / 150 + k * (W / 2 ^ 21 + 1 / 2 ^ 100)

/-- The accumulator `o` is near the exact sum `X` of terms of total magnitude `T`. -/
def AccNear (W : ℝ) (k : Nat) (T : ℝ) (o : IEEE m) (X : ℝ) : Prop := Near (accErr W k T) (2 * T) o X

/-- A term of magnitude `a`. -/
def TermNear (a : ℝ) (y : IEEE m) (x : ℝ) : Prop := Near (a / 150 + 1 / 2 ^ 101) (2 * a) y x

theorem AccNear.add {W T a : ℝ} {k : Nat} {o y : IEEE m} {X x : ℝ} (h : AccNear W k T o X) (hy : TermNear a y x) (hT : 0 ≤ T) (ha : 0 ≤ a)
    (hW : T + a ≤ W) (hW2 : W ≤ 2 ^ 40) (hk : k ≤ 200) : AccNear W (k + 1) (T + a) (o +ᶠ y : IEEE m) (X + x) := by
  have hk' : (k : ℝ) ≤ 200 := by exact_mod_cast hk
  have hk0 : (0 : ℝ) ≤ k := Nat.cast_nonneg k
  have hW0 : 0 ≤ W := by linarith
  have g0 : 0 ≤ W / 2 ^ 21 + 1 / 2 ^ 100 := by positivity
  have hkg : (k : ℝ) * (W / 2 ^ 21 + 1 / 2 ^ 100) ≤ 200 * (W / 2 ^ 21 + 1 / 2 ^ 100) := mul_le_mul_of_nonneg_right hk' g0
  have := Near.add (e := accErr W (k + 1) (T + a)) (B := 2 * (T + a)) h hy (by linarith) ?_ ?_
  · exact this
  · unfold accErr
    push_cast
    have e : ((k : ℝ) + 1) * (W / 2 ^ 21 + 1 / 2 ^ 100) = k * (W / 2 ^ 21 + 1 / 2 ^ 100) + (W / 2 ^ 21 + 1 / 2 ^ 100) := by ring
    rw [e]
    norm_num at *
    linarith
  · unfold accErr
    norm_num at *
    linarith

/-! ## Windowed oscillators -/

theorem rot_cos {θ qp : ℝ} {z0 : ℂ} {n : Nat} {a b : ℝ} (h0 : ‖z0 - Complex.exp ((qp : ℂ) * Complex.I)‖ ≤ 1 / 524288)
    (h : ‖(⟨a, b⟩ : ℂ) - z0 * Complex.exp ((n : ℂ) * θ * Complex.I)‖ ≤ n * (1 / 131072)) :
    |a - Real.cos (qp + n * θ)| ≤ n * (1 / 131072) + 1 / 524288 := by
  have e : Complex.exp ((qp : ℂ) * Complex.I) * Complex.exp ((n : ℂ) * θ * Complex.I) = Complex.exp (((qp + n * θ : ℝ) : ℂ) * Complex.I) := by
    rw [← Complex.exp_add]
    congr 1
    push_cast
    ring
  have e1 : ‖Complex.exp ((n : ℂ) * θ * Complex.I)‖ = 1 := by
    have := Complex.norm_exp_ofReal_mul_I ((n : ℝ) * θ)
    push_cast at this
    exact this
  have k : ‖(⟨a, b⟩ : ℂ) - Complex.exp (((qp + n * θ : ℝ) : ℂ) * Complex.I)‖ ≤ n * (1 / 131072) + 1 / 524288 := by
    rw [← e, show (⟨a, b⟩ : ℂ) - Complex.exp ((qp : ℂ) * Complex.I) * Complex.exp ((n : ℂ) * θ * Complex.I) =
      ((⟨a, b⟩ : ℂ) - z0 * Complex.exp ((n : ℂ) * θ * Complex.I)) +
        (z0 - Complex.exp ((qp : ℂ) * Complex.I)) * Complex.exp ((n : ℂ) * θ * Complex.I) by ring]
    refine (norm_add_le _ _).trans (add_le_add h ?_)
    rw [norm_mul, e1, mul_one]
    exact h0
  have k2 := (Complex.abs_re_le_norm _).trans k
  rw [Complex.sub_re, Complex.exp_ofReal_mul_I_re] at k2
  exact k2

theorem cos_lip (x y : ℝ) : |Real.cos x - Real.cos y| ≤ |x - y| := by
  have h := Real.cos_sub_cos x y
  rw [h, abs_mul, abs_mul, abs_neg, abs_of_pos (show (0 : ℝ) < 2 by norm_num)]
  have h1 : |Real.sin ((x - y) / 2)| ≤ |(x - y) / 2| := Real.abs_sin_le_abs
  have h2 := Real.abs_sin_le_one ((x + y) / 2)
  rw [abs_div, abs_of_pos (show (0 : ℝ) < 2 by norm_num)] at h1
  have h3 : |Real.sin ((x + y) / 2)| * |Real.sin ((x - y) / 2)| ≤ 1 * (|x - y| / 2) := mul_le_mul h2 h1 (abs_nonneg _) zero_le_one
  linarith

theorem ws_near0 : ∀ v ∈ Ws, rngB (ftab v Ws_den : IEEE libm0) ((v : ℚ) / 100 - 1 / 2 ^ 24) ((v : ℚ) / 100 + 1 / 2 ^ 24) = true := by
  decide +kernel

theorem trapezoid_nonneg (t : ℝ) : 0 ≤ trapezoid t := le_max_left _ _
theorem trapezoid_le (t : ℝ) : trapezoid t ≤ 1 := max_le zero_le_one (min_le_left _ _)

theorem ws_abs : ∀ v ∈ Ws, |v| ≤ 100 := by decide +kernel

theorem ws_near (n : Nat) (h : n < 321) : Post (tab Ws n) fun v => Near (1 / 2 ^ 24) 1 (ftab v Ws_den : IEEE m) (trapezoid n) := by
  intro v hv
  have ht := ws_trap n h v hv
  have hv' : v ∈ Ws := by
    have := tab_post v hv
    exact List.mem_of_getElem? this
  have h0 : rngB (ftab v Ws_den : IEEE m) ((v : ℚ) / 100 - 1 / 2 ^ 24) ((v : ℚ) / 100 + 1 / 2 ^ 24) = true := ws_near0 v hv'
  obtain ⟨q, vq, h1, h2⟩ := rng_of h0
  have e : (ftab v Ws_den : ℝ) = (v : ℝ) / 100 := by
    rw [ftab_r (b := 100) (ws_abs v hv') (by decide), show ((Ws_den : Nat) : ℝ) = 100 by norm_num [Ws_den]]
  rw [← ht, e]
  refine ⟨q, vq, ?_, ?_⟩
  · have h1' : (((v : ℚ) / 100 - 1 / 2 ^ 24 : ℚ) : ℝ) ≤ q := by exact_mod_cast h1
    have h2' : (q : ℝ) ≤ (((v : ℚ) / 100 + 1 / 2 ^ 24 : ℚ) : ℝ) := by exact_mod_cast h2
    push_cast at h1' h2'
    rw [abs_le]
    constructor <;> linarith
  · rw [← e, ht, abs_of_nonneg (trapezoid_nonneg _)]
    exact trapezoid_le _

/-- One sample of a windowed oscillator. -/
theorem windowed_term {w amp c : IEEE m} {τ A a C : ℝ} (hw : Near (1 / 2 ^ 24) 1 w τ) (ha : Near 0 a amp A) (hc : Near (31 / 10000) 1 c C)
    (ha0 : 0 ≤ a) (ha1 : a ≤ 2 ^ 33) : TermNear a (((lit 2 1 *ᶠ w) *ᶠ amp) *ᶠ c : IEEE m) (2 * τ * A * C) := by
  have h2 : Near 0 2 (lit 2 1 : IEEE m) (lit 2 1 : ℝ) := by
    rw [two_r]
    exact ⟨2, two_val, by norm_num, by norm_num⟩
  have t1 := Near.mul (e := 1 / 2 ^ 21) (B := 2) h2 hw (by norm_num) (by norm_num) (by norm_num)
  have t2 := Near.mul (e := a / 2 ^ 20 + 1 / 2 ^ 140) (B := 2 * a) t1 ha (by linarith) (by norm_num; linarith) (by norm_num at *; linarith)
  have t3 := Near.mul (e := a / 150 + 1 / 2 ^ 101) (B := 2 * a) t2 hc (by linarith) (by norm_num; linarith) (by norm_num at *; linarith)
  rw [RealArith.mul_r, RealArith.mul_r, RealArith.mul_r, two_r] at t3
  exact t3

/-- A program adds a windowed oscillator to the accumulators in binary32. -/
def OscNear (osc : Nat → IEEE m → IEEE m → IEEE m → IEEE m → IEEE m → Arr 160 (IEEE m) → Exec (Arr 160 (IEEE m))) : Prop :=
  ∀ {off k : Nat}, off ≤ 160 → ∀ {amp x ph : IEEE m} {out : Arr 160 (IEEE m)} {X : Fin 160 → ℝ} {W T a A φ ω : ℝ}
    {qx qp : ℚ}, k ≤ 200 → Near 0 a amp A → 0 ≤ a → a ≤ 2 ^ 33 → Val x qx → |qx| ≤ pow2 26 →
    Val ph qp → |qp| ≤ pow2 26 → (∀ n : Nat, n < 160 → |(qp : ℝ) + n * qx - (φ + ω * n)| ≤ 18 / 10000) →
    0 ≤ T → T + a ≤ W → W ≤ 2 ^ 40 → (∀ n, AccNear W k T (out n) (X n)) →
    Post (osc off amp (sin x) (cos x) (sin ph) (cos ph) out) fun r =>
      ∀ n : Fin 160, AccNear W (k + 1) (T + a) (r n) (X n + 2 * trapezoid (n.val + off) * A * Real.cos (φ + ω * n.val))

/-- A windowed oscillator whose term is formed by `f`, from the window, the amplitude and the cosine. -/
def oscWith (f : IEEE m → IEEE m → IEEE m → IEEE m) (off : Nat) (amp sd cd s0 c0 : IEEE m) (out : Arr 160 (IEEE m)) :
    Exec (Arr 160 (IEEE m)) := do
  let r ← loop 160 (fun n (s : Arr 160 (IEEE m) × IEEE m × IEEE m) => do
    let cc := s.2.1
    let ss := s.2.2
    let w : IEEE m := ftab (← tab Ws (n + off)) Ws_den
    let o ← s.1.wr n ((← s.1.rd n) +ᶠ f w amp cc)
    .ok (o, (cc *ᶠ cd) -ᶠ (ss *ᶠ sd), (ss *ᶠ cd) +ᶠ (cc *ᶠ sd))) (out, c0, s0)
  .ok r.1

theorem oscWith_near (hm : TrigAcc m) {f : IEEE m → IEEE m → IEEE m → IEEE m} (hf : ∀ {w amp c : IEEE m} {τ A a C : ℝ},
    Near (1 / 2 ^ 24) 1 w τ → Near 0 a amp A → Near (31 / 10000) 1 c C → 0 ≤ a → a ≤ 2 ^ 33 → TermNear a (f w amp c) (2 * τ * A * C)) :
    OscNear (oscWith f) := by
  intro off k hoff amp x ph out X W T a A φ ω qx qp hk ha ha0 ha1 hx hx' hp hp' hang hT hW hW2 ho
  obtain ⟨c, hc, ec⟩ := hm.cos x qx hx hx'
  obtain ⟨s, hs, es⟩ := hm.sin x qx hx hx'
  obtain ⟨c0, hc0, ec0⟩ := hm.cos ph qp hp hp'
  obtain ⟨s0, hs0, es0⟩ := hm.sin ph qp hp hp'
  have hz : ‖(⟨(c0 : ℝ), (s0 : ℝ)⟩ : ℂ) - Complex.exp (((qp : ℝ) : ℂ) * Complex.I)‖ ≤ 1 / 524288 := by
    have e : (⟨(c0 : ℝ), (s0 : ℝ)⟩ : ℂ) - Complex.exp (((qp : ℝ) : ℂ) * Complex.I) = ⟨(c0 : ℝ) - Real.cos qp, (s0 : ℝ) - Real.sin qp⟩ := by
      apply Complex.ext
      · rw [Complex.sub_re, Complex.exp_ofReal_mul_I_re]
      · rw [Complex.sub_im, Complex.exp_ofReal_mul_I_im]
    rw [e]
    refine (norm_pair _ _).trans ?_
    linarith
  have hz1 : ‖(⟨(c0 : ℝ), (s0 : ℝ)⟩ : ℂ)‖ ≤ 5 / 4 := by
    have := norm_sub_norm_le (⟨(c0 : ℝ), (s0 : ℝ)⟩ : ℂ) (Complex.exp (((qp : ℝ) : ℂ) * Complex.I))
    rw [Complex.norm_exp_ofReal_mul_I] at this
    linarith
  have r0 : Rot (qx : ℝ) ⟨(c0 : ℝ), (s0 : ℝ)⟩ 0 (cos ph : IEEE m) (sin ph : IEEE m) := ⟨c0, s0, hc0, hs0, by simp⟩
  unfold oscWith
  refine Post.bind (loop_post (fun n (s : Arr 160 (IEEE m) × IEEE m × IEEE m) =>
    (∀ i : Fin 160, (i.val < n → AccNear W (k + 1) (T + a) (s.1 i) (X i + 2 * trapezoid (i.val + off) * A * Real.cos (φ + ω * i.val))) ∧
      (n ≤ i.val → AccNear W k T (s.1 i) (X i))) ∧ Rot (qx : ℝ) ⟨(c0 : ℝ), (s0 : ℝ)⟩ n s.2.1 s.2.2)
    ⟨fun i => ⟨fun h => absurd h (by omega), fun _ => ho i⟩, r0⟩ fun n hn st hst => ?_) fun r hr => Post.pure fun n => (hr.1 n).1 n.isLt
  obtain ⟨hs1, hs2⟩ := hst
  dsimp only
  refine Post.bind (ws_near (m := m) (n + off) (by omega)) fun w hw => ?_
  rw [Arr.rd_nat hn, ok_bind, Arr.wr_nat hn, ok_bind]
  refine Post.pure ⟨fun i => ?_, hs2.step hz1 (by omega) hc hs ec es⟩
  dsimp only
  by_cases e : i.val = n
  · rw [Arr.set_same e]
    refine ⟨fun _ => ?_, fun h => absurd h (by omega)⟩
    have hi : i = ⟨n, hn⟩ := Fin.ext e
    subst hi
    refine AccNear.add ((hs1 ⟨n, hn⟩).2 le_rfl) ?_ hT ha0 hW hW2 hk
    push_cast at hw
    refine hf hw ha ?_ ha0 ha1
    obtain ⟨p, q, hp1, _, hpq⟩ := hs2
    have k1 := rot_cos hz hpq
    have hn' : (n : ℝ) ≤ 160 := by exact_mod_cast hn.le
    refine ⟨p, hp1, ?_, Real.abs_cos_le_one _⟩
    have k2 := (cos_lip ((qp : ℝ) + n * qx) (φ + ω * n)).trans (hang n hn)
    have k3 := abs_sub_le (p : ℝ) (Real.cos ((qp : ℝ) + n * qx)) (Real.cos (φ + ω * n))
    linarith
  · rw [Arr.set_ne e]
    exact ⟨fun h => (hs1 i).1 (by omega), fun h => (hs1 i).2 (by omega)⟩

theorem osc_near (hm : TrigAcc m) : OscNear (windowedOsc (F := IEEE m)) := oscWith_near (f := fun w amp c => ((lit 2 1 *ᶠ w) *ᶠ amp) *ᶠ c) hm windowed_term

end Verif.Model
