import Verif.Lemmas.Tones
import Verif.Lemmas.RepeatHist
import Verif.Spec.Tone
import Mathlib.Analysis.Real.Pi.Bounds
import Mathlib.Analysis.SpecialFunctions.Trigonometric.Bounds

/-!
# Rounding errors of the tone oscillators
-/

namespace Verif.Num
open Arith

/-- Absolute error of rounding a value below `2^k`. -/
theorem rnd_err_lt {f : Fmt} {q : ℚ} {k : Int} (h : |q| < pow2 k) (he : f.emin ≤ k - f.p) :
    |rnd f q - q| ≤ pow2 (k - f.p - 1) := by
  have e : pow2 (k - f.p) = 2 * pow2 (k - f.p - 1) := by
    rw [← pow2_succ]; congr 1; ring
  by_cases hq : q = 0
  · subst hq; rw [rnd_zero]; simpa using (pow2_pos _).le
  · have hl := ilog2_lt (abs_pos.2 hq) h
    have : ulpExp f q ≤ k - f.p := by unfold ulpExp; omega
    have h2 := pow2_le this
    have h1 := rnd_err f q
    linarith

/-- Accuracy assumed of `sinf` on the angles of the oscillators: about two units in the last place of 1. -/
def SinAcc (m : Libm) : Prop :=
  ∀ (x : FP) (q : ℚ), Val x q → |q| ≤ 8 → ∃ r : ℚ, Val (m.sin x) r ∧ |(r : ℝ) - Real.sin q| ≤ 1 / 4194304

end Verif.Num

namespace Verif.Model
open Verif Verif.Num Verif.Spec Arith

variable {m : Libm}

theorem stepAngle_val : Val (((dlit 2 1 *ᵈ mpi) /ᵈ dlit 4294967296 1) : IEEE m) (884279719003555 / 604462909807314587353088) := by
  have : Val (((dlit 2 1 *ᵈ mpi) /ᵈ dlit 4294967296 1) : IEEE libm0) (884279719003555 / 604462909807314587353088) :=
    ⟨false, by decide +kernel⟩
  exact this

theorem halfPi_val : Val ((mpi /ᵈ dlit 2 1) : IEEE m) (884279719003555 / 562949953421312) := by
  have : Val ((mpi /ᵈ dlit 2 1) : IEEE libm0) (884279719003555 / 562949953421312) := ⟨false, by decide +kernel⟩
  exact this

theorem softClip_val : Val (softClip : IEEE m) (4553677 / 1024) := by
  have : Val (softClip : IEEE libm0) (4553677 / 1024) :=
    ⟨false, show FP.divR F32 (FP.mulR F32 (FP.round F32 false (mkRat 32767 1)) (FP.round F32 false (mkRat 95 100)))
      (FP.round F32 false (mkRat 7 1)) = FP.fin false (4553677 / 1024) by decide +kernel⟩
  exact this

theorem dofInt_val {n : Int} (h : |n| ≤ 2 ^ 53) : Val (Arith.dofInt n : IEEE m) n := by
  have h1 : |(n : ℚ)| ≤ Val.big := by
    rw [Val.big_eq]
    have : ((|n| : Int) : ℚ) ≤ ((2 ^ 53 : Int) : ℚ) := by exact_mod_cast h
    rw [Int.cast_abs] at this
    refine this.trans ?_
    norm_num
  have h2 := Val.round64 (s := false) h1
  rw [rnd_int F64_p (by decide) h] at h2
  exact h2

/-- The argument of `sinf` for phase `p`. -/
theorem toneAngle (p : Nat) (hp : p < 2 ^ 32) : ∃ (x : IEEE m) (q : ℚ), toneSample p = Arith.sin x ∧ Val x q ∧ |q| ≤ 8 ∧
    |(q : ℝ) - (2 * Real.pi * (p / 2 ^ 32) - Real.pi / 2)| ≤ 1 / 4194304 + 1 / 1099511627776 := by
  have p0 : (0 : ℚ) ≤ p := Nat.cast_nonneg p
  have p1 : (p : ℚ) < 4294967296 := by exact_mod_cast hp
  have b : (8 : ℚ) ≤ Val.big := by rw [Val.big_eq]; norm_num
  have k8 : pow2 3 = 8 := by rw [pow2_eq]; norm_num
  have v0 : Val (Arith.dofInt (p : Int) : IEEE m) p := by
    have := dofInt_val (m := m) (n := (p : Int)) (by rw [abs_of_nonneg (by omega)]; omega)
    simpa using this
  obtain ⟨c, hc⟩ : ∃ c : ℚ, c = 884279719003555 / 604462909807314587353088 := ⟨_, rfl⟩
  obtain ⟨h, hh⟩ : ∃ h : ℚ, h = 884279719003555 / 562949953421312 := ⟨_, rfl⟩
  have a1 : (0 : ℚ) ≤ p * c := by rw [hc]; positivity
  have a2 : (p : ℚ) * c < 63 / 10 := by rw [hc]; linarith
  have v1 := Val.dmul v0 (stepAngle_val (m := m)) (by rw [← hc, abs_of_nonneg a1]; linarith)
  rw [← hc] at v1
  have e1 : |rnd F64 (p * c) - p * c| ≤ 1 / 2251799813685248 := by
    have := rnd_err_lt (f := F64) (q := p * c) (k := 3) (by rw [k8, abs_of_nonneg a1]; linarith) (by decide)
    rwa [show pow2 (3 - (F64.p : Int) - 1) = 1 / 2251799813685248 by rw [pow2_eq]; norm_num [F64]] at this
  set y := rnd F64 (p * c)
  rw [abs_le] at e1
  have a3 : |y - h| ≤ 7 := by rw [abs_le, hh]; constructor <;> linarith
  have v2 := Val.dsub v1 (halfPi_val (m := m)) (by rw [← hh]; linarith)
  rw [← hh] at v2
  have e2 : |rnd F64 (y - h) - (y - h)| ≤ 1 / 2251799813685248 := by
    have := rnd_err_lt (f := F64) (q := y - h) (k := 3) (by rw [k8]; linarith) (by decide)
    rwa [show pow2 (3 - (F64.p : Int) - 1) = 1 / 2251799813685248 by rw [pow2_eq]; norm_num [F64]] at this
  set z := rnd F64 (y - h)
  rw [abs_le] at e2 a3
  have a4 : |z| ≤ 15 / 2 := by rw [abs_le]; constructor <;> linarith
  have v3 := Val.toF v2 (by linarith)
  have e3 : |rnd F32 z - z| ≤ 1 / 4194304 := by
    have := rnd_err_lt (f := F32) (q := z) (k := 3) (by rw [k8]; linarith) (by decide)
    rwa [show pow2 (3 - (F32.p : Int) - 1) = 1 / 4194304 by rw [pow2_eq]; norm_num [F32]] at this
  set w := rnd F32 z
  rw [abs_le] at e3 a4
  refine ⟨_, w, rfl, v3, by rw [abs_le]; constructor <;> linarith, ?_⟩
  have t1 : |w - (p * c - h)| ≤ 1 / 4194304 + 2 / 2251799813685248 := by rw [abs_le]; constructor <;> linarith
  have t2 : |(w : ℝ) - (p * (c : ℝ) - (h : ℝ))| ≤ 1 / 4194304 + 2 / 2251799813685248 := by
    have := (Rat.cast_le (K := ℝ)).2 t1
    push_cast at this
    exact this
  have hpi := Real.pi_gt_d20
  have hpi' := Real.pi_lt_d20
  have cr : (c : ℝ) = 884279719003555 / 604462909807314587353088 := by rw [hc]; norm_num
  have hr : (h : ℝ) = 884279719003555 / 562949953421312 := by rw [hh]; norm_num
  have pr0 : (0 : ℝ) ≤ p := Nat.cast_nonneg p
  have pr1 : (p : ℝ) < 4294967296 := by exact_mod_cast hp
  rw [cr, hr, abs_le] at t2
  have d : |2 * Real.pi * ((p : ℝ) / 2 ^ 32) - p * (884279719003555 / 604462909807314587353088)| ≤ 1 / 1000000000000000 := by
    have : 2 * Real.pi * ((p : ℝ) / 2 ^ 32) - p * (884279719003555 / 604462909807314587353088)
      = p / 2 ^ 32 * (2 * (Real.pi - 884279719003555 / 281474976710656)) := by ring
    rw [this, abs_mul, abs_of_nonneg (by positivity)]
    have l1 : (p : ℝ) / 2 ^ 32 ≤ 1 := by rw [div_le_one (by norm_num)]; norm_num; linarith
    have l2 : |2 * (Real.pi - 884279719003555 / 281474976710656)| ≤ 1 / 1000000000000000 := by
      rw [abs_le]; constructor <;> linarith
    calc _ ≤ 1 * (1 / 1000000000000000 : ℝ) := mul_le_mul l1 l2 (abs_nonneg _) (by norm_num)
      _ = _ := by norm_num
  rw [abs_le] at d ⊢
  constructor <;> linarith

/-- One sample of unit amplitude. -/
theorem toneSample_close (hm : SinAcc m) (p : Nat) (hp : p < 2 ^ 32) : ∃ r : ℚ, Val (toneSample p : IEEE m) r ∧
    |(r : ℝ) - -Real.cos (2 * Real.pi * (p / 2 ^ 32))| ≤ 1 / 2097152 + 1 / 1099511627776 := by
  obtain ⟨x, q, e, hv, hq, hd⟩ := toneAngle (m := m) p hp
  obtain ⟨r, hr, hd'⟩ := hm x q hv hq
  refine ⟨r, by rw [e]; exact hr, ?_⟩
  have l := Real.abs_sin_sub_sin_le (q : ℝ) (2 * Real.pi * (p / 2 ^ 32) - Real.pi / 2)
  rw [Real.sin_sub_pi_div_two] at l
  have := abs_sub_le (r : ℝ) (Real.sin q) (-Real.cos (2 * Real.pi * (p / 2 ^ 32)))
  linarith

/-- The gain. -/
theorem toneGain_close (amp : Int) (h0 : 0 ≤ amp) (h1 : amp ≤ 127) : ∃ g : ℚ, Val (toneGain amp : IEEE m) g ∧
    |g - amp / 127 * (32767 * 95 / 100 / 7)| ≤ 1 / 1024 := by
  have b : (8192 : ℚ) ≤ Val.big := by rw [Val.big_eq]; norm_num
  have A0 : (0 : ℚ) ≤ amp := by exact_mod_cast h0
  have A1 : (amp : ℚ) ≤ 127 := by exact_mod_cast h1
  have v0 : Val (Arith.ofInt amp : IEEE m) amp := Val.ofInt (by rw [abs_of_nonneg h0]; omega)
  have vl : Val (Arith.lit 127 1 : IEEE m) 127 := by
    have : Val (Arith.lit 127 1 : IEEE libm0) 127 := ⟨false, by decide +kernel⟩
    exact this
  have a1 : (0 : ℚ) ≤ amp / 127 := by positivity
  have a2 : (amp : ℚ) / 127 ≤ 1 := by rw [div_le_one (by norm_num)]; exact A1
  have v1 := Val.div v0 vl (by norm_num) (by rw [abs_of_nonneg a1]; linarith)
  have e1 : |rnd F32 ((amp : ℚ) / 127) - amp / 127| ≤ 1 / 16777216 := by
    have := rnd_err_lt (f := F32) (q := (amp : ℚ) / 127) (k := 1) (by
      rw [show pow2 1 = 2 by rw [pow2_eq]; norm_num, abs_of_nonneg a1]; linarith) (by decide)
    rwa [show pow2 (1 - (F32.p : Int) - 1) = 1 / 16777216 by rw [pow2_eq]; norm_num [F32]] at this
  set y := rnd F32 ((amp : ℚ) / 127)
  rw [abs_le] at e1
  have a3 : |y * (4553677 / 1024)| < 8192 := by rw [abs_lt]; constructor <;> linarith
  have v2 := Val.mul v1 (softClip_val (m := m)) (by linarith)
  have e2 : |rnd F32 (y * (4553677 / 1024)) - y * (4553677 / 1024)| ≤ 1 / 4096 := by
    have := rnd_err_lt (f := F32) (q := y * (4553677 / 1024)) (k := 13) (by
      rw [show pow2 13 = 8192 by rw [pow2_eq]; norm_num]; exact a3) (by decide)
    rwa [show pow2 (13 - (F32.p : Int) - 1) = 1 / 4096 by rw [pow2_eq]; norm_num [F32]] at this
  refine ⟨rnd F32 (y * (4553677 / 1024)), ?_, ?_⟩
  · unfold toneGain
    rw [if_neg (by omega)]
    exact v2
  · rw [abs_le] at e2 ⊢
    constructor <;> linarith

/-- `stepHz` is within half a unit. -/
theorem stepHz_close {f : ℚ} (h : 0 ≤ f) : |(stepHz f : ℝ) - (f : ℝ) / 8000 * 2 ^ 32| ≤ 1 / 2 := by
  have h0 : 0 ≤ ⌊f / 8000 * 2 ^ 32 + 1 / 2⌋ := Int.floor_nonneg.2 (by positivity)
  have e : ((stepHz f : Nat) : ℚ) = (⌊f / 8000 * 2 ^ 32 + 1 / 2⌋ : ℚ) := by
    unfold stepHz
    rw [← Int.cast_natCast, Int.toNat_of_nonneg h0]
  have l1 := Int.floor_le (f / 8000 * 2 ^ 32 + 1 / 2)
  have l2 := Int.lt_floor_add_one (f / 8000 * 2 ^ 32 + 1 / 2)
  rw [← e] at l1 l2
  have q : |(stepHz f : ℚ) - f / 8000 * 2 ^ 32| ≤ 1 / 2 := by rw [abs_le]; constructor <;> linarith
  have := (Rat.cast_le (K := ℝ)).2 q
  push_cast at this
  exact this

/-- The phase accumulator against the exact phase. -/
theorem osc_close {f : ℚ} (h : 0 ≤ f) (p N : Nat) :
    |-Real.cos (2 * Real.pi * ((phaseAt p (stepHz f) N : Nat) / 2 ^ 32)) - -Real.cos (2 * Real.pi * (p / 2 ^ 32 + f * N / 8000))|
      ≤ 2 * Real.pi * (N / 2 ^ 33) := by
  have e : ∃ k : ℕ, (p + N * stepHz f : ℕ) = phaseAt p (stepHz f) N + k * 2 ^ 32 := by
    refine ⟨(p + N * stepHz f) / 2 ^ 32, ?_⟩
    unfold phaseAt
    omega
  obtain ⟨k, e⟩ := e
  have er : (p : ℝ) + N * stepHz f = (phaseAt p (stepHz f) N : ℕ) + k * 2 ^ 32 := by exact_mod_cast e
  have c : Real.cos (2 * Real.pi * ((phaseAt p (stepHz f) N : Nat) / 2 ^ 32)) =
      Real.cos (2 * Real.pi * ((p + N * stepHz f) / 2 ^ 32)) := by
    rw [er, show 2 * Real.pi * (((phaseAt p (stepHz f) N : ℕ) + k * 2 ^ 32 : ℝ) / 2 ^ 32)
      = 2 * Real.pi * ((phaseAt p (stepHz f) N : ℕ) / 2 ^ 32) + k * (2 * Real.pi) by ring, Real.cos_add_nat_mul_two_pi]
  rw [c]
  have l := Real.abs_cos_sub_cos_le (2 * Real.pi * (p / 2 ^ 32 + f * N / 8000)) (2 * Real.pi * ((p + N * stepHz f) / 2 ^ 32))
  rw [show -Real.cos (2 * Real.pi * ((p + N * stepHz f) / 2 ^ 32)) - -Real.cos (2 * Real.pi * (p / 2 ^ 32 + f * N / 8000))
    = Real.cos (2 * Real.pi * (p / 2 ^ 32 + f * N / 8000)) - Real.cos (2 * Real.pi * ((p + N * stepHz f) / 2 ^ 32)) by ring]
  refine l.trans ?_
  rw [show 2 * Real.pi * ((p : ℝ) / 2 ^ 32 + f * N / 8000) - 2 * Real.pi * ((p + N * stepHz f) / 2 ^ 32)
    = -(2 * Real.pi * (N / 2 ^ 32) * ((stepHz f : ℝ) - (f : ℝ) / 8000 * 2 ^ 32)) by ring, abs_neg, abs_mul,
    abs_of_nonneg (by positivity)]
  calc _ ≤ 2 * Real.pi * (N / 2 ^ 32) * (1 / 2 : ℝ) := mul_le_mul_of_nonneg_left (stepHz_close h) (by positivity)
    _ = _ := by ring

/-- One oscillator: the product of a gain and a sample. -/
theorem oscProd_close (hm : SinAcc m) {f : ℚ} (hf : 0 ≤ f) (p N : Nat) {x : IEEE m} {g : ℚ} (hx : Val x g) {G : ℝ} (hG0 : 0 ≤ G)
    (hG : G ≤ 4447) {e : ℝ} (he : e ≤ 1 / 512) (hg : |(g : ℝ) - G| ≤ e) :
    ∃ r : ℚ, Val (x *ᶠ toneSample (phaseAt p (stepHz f) N) : IEEE m) r ∧ |r| ≤ 5000 ∧
      |(r : ℝ) - G * -Real.cos (2 * Real.pi * (p / 2 ^ 32 + f * N / 8000))| ≤ e + G / 2097152 + 1 / 4000 + G * (2 * Real.pi * (N / 2 ^ 33)) := by
  obtain ⟨r, hr, hd⟩ := toneSample_close (m := m) hm (phaseAt p (stepHz f) N) (Nat.mod_lt _ (by norm_num))
  have hc := osc_close hf p N
  have c1 := Real.abs_cos_le_one (2 * Real.pi * ((phaseAt p (stepHz f) N : Nat) / 2 ^ 32))
  set X : ℝ := -Real.cos (2 * Real.pi * ((phaseAt p (stepHz f) N : Nat) / 2 ^ 32)) with hX
  set Y : ℝ := -Real.cos (2 * Real.pi * (p / 2 ^ 32 + f * N / 8000)) with hY
  have x1 : |X| ≤ 1 := by rw [hX, abs_neg]; exact c1
  have gR : |(g : ℝ)| ≤ 4448 := by
    have := abs_sub_abs_le_abs_sub (g : ℝ) G
    rw [abs_of_nonneg hG0] at this
    linarith
  have rR : |(r : ℝ)| ≤ 1 + 1 / 1000000 := by
    have := abs_sub_abs_le_abs_sub (r : ℝ) X
    linarith
  have pR : |(g : ℝ) * r| ≤ 4449 := by
    rw [abs_mul]
    calc _ ≤ (4448 : ℝ) * (1 + 1 / 1000000) := mul_le_mul gR rR (abs_nonneg _) (by norm_num)
      _ ≤ _ := by norm_num
  have pQ : |g * r| ≤ 4449 := by
    have : ((|g * r| : ℚ) : ℝ) ≤ ((4449 : ℚ) : ℝ) := by push_cast; exact pR
    exact (Rat.cast_le (K := ℝ)).1 this
  have hv := Val.mul hx hr (by rw [Val.big_eq]; linarith)
  have e2 : |rnd F32 (g * r) - g * r| ≤ 1 / 4096 := by
    have := rnd_err_lt (f := F32) (q := g * r) (k := 13) (by
      rw [show pow2 13 = 8192 by rw [pow2_eq]; norm_num]; linarith) (by decide)
    rwa [show pow2 (13 - (F32.p : Int) - 1) = 1 / 4096 by rw [pow2_eq]; norm_num [F32]] at this
  refine ⟨_, hv, ?_, ?_⟩
  · have := abs_sub_abs_le_abs_sub (rnd F32 (g * r)) (g * r)
    linarith
  have e2r : |((rnd F32 (g * r) : ℚ) : ℝ) - g * r| ≤ 1 / 4096 := by
    have := (Rat.cast_le (K := ℝ)).2 e2
    push_cast at this
    exact this
  have t1 : |(g : ℝ) * r - G * X| ≤ e * (1 + 1 / 1000000) + G * (1 / 2097152 + 1 / 1099511627776) := by
    rw [show (g : ℝ) * r - G * X = (g - G) * r + G * (r - X) by ring]
    refine (abs_add_le _ _).trans ?_
    rw [abs_mul, abs_mul, abs_of_nonneg hG0]
    exact add_le_add (mul_le_mul hg rR (abs_nonneg _) ((abs_nonneg _).trans hg)) (mul_le_mul_of_nonneg_left hd hG0)
  have t2 : |G * X - G * Y| ≤ G * (2 * Real.pi * (N / 2 ^ 33)) := by
    rw [← mul_sub, abs_mul, abs_of_nonneg hG0]
    exact mul_le_mul_of_nonneg_left hc hG0
  have T1 := abs_sub_le ((rnd F32 (g * r) : ℚ) : ℝ) (g * r) (G * Y)
  have T2 := abs_sub_le ((g : ℝ) * r) (G * X) (G * Y)
  linarith

theorem toneAmp_lt {d : Nat → Int} (hd : Bits 49 d) : toneAmp2450 d < 128 := by
  have := field_lt (is := [6, 7, 8, 9, 10, 11, 44]) hd (by decide)
  simpa [toneAmp2450] using this

theorem toneHz_pos {id : Nat} {a b : ℚ} (h : toneHz id = some (a, b)) : 0 ≤ a ∧ 0 ≤ b := by
  have t : ∀ i : Fin 164, (match toneHz i.val with | some p => decide (0 ≤ p.1) && decide (0 ≤ p.2) | none => true) = true := by
    decide +kernel
  by_cases hi : id < 164
  · have := t ⟨id, hi⟩
    dsimp only at this
    rw [h] at this
    simpa using this
  · rw [toneHz_ge (by omega)] at h
    cases h

/-- A sample of a tone against the ideal signal. -/
theorem toneOut_close (hm : SinAcc m) {a b : ℚ} (ha : 0 ≤ a) (hb : 0 ≤ b) (A : Nat) (hA : A < 128) (p q N : Nat) :
    ∃ r : ℚ, Val (toneOut (!(decide (a = b))) (toneGain (A : Int)) (phaseAt p (stepHz a) N)
        (phaseAt q (if a = b then 0 else stepHz b) N) : IEEE m) r ∧
      |(r : ℝ) - toneWave a b (toneLevel A) p q N| ≤ 1 / 200 + N / 300000 := by
  obtain ⟨g, hg, hd⟩ := toneGain_close (m := m) (A : Int) (by omega) (by omega)
  have G0 : 0 ≤ toneLevel A := by unfold toneLevel; positivity
  have G1 : toneLevel A ≤ 4447 := by
    have : (A : ℝ) ≤ 127 := by exact_mod_cast (by omega : A ≤ 127)
    unfold toneLevel
    linarith
  have hgR : |(g : ℝ) - toneLevel A| ≤ 1 / 1024 := by
    have := (Rat.cast_le (K := ℝ)).2 hd
    push_cast at this
    exact this
  have hpi := Real.pi_lt_d2
  have hpi0 := Real.pi_pos
  have hN : (0 : ℝ) ≤ N := Nat.cast_nonneg N
  have drift : toneLevel A * (2 * Real.pi * (N / 2 ^ 33)) ≤ N / 300000 := by
    have h1 : toneLevel A * (2 * Real.pi) ≤ 4447 * (2 * (315 / 100)) :=
      mul_le_mul G1 (by linarith) (by positivity) (by norm_num)
    calc toneLevel A * (2 * Real.pi * ((N : ℝ) / 2 ^ 33)) = toneLevel A * (2 * Real.pi) * ((N : ℝ) / 2 ^ 33) := by ring
      _ ≤ 4447 * (2 * (315 / 100)) * ((N : ℝ) / 2 ^ 33) := mul_le_mul_of_nonneg_right h1 (by positivity)
      _ ≤ (N : ℝ) / 300000 := by norm_num; linarith
  by_cases e : a = b
  · obtain ⟨r, hr, _, hc⟩ := oscProd_close hm ha p N hg G0 G1 (e := 1 / 1024) (by norm_num) hgR
    refine ⟨r, ?_, ?_⟩
    · rw [decide_eq_true e]; exact hr
    · unfold toneWave
      dsimp only
      rw [if_pos e]
      linarith
  · have b5 : Val (Arith.lit 5 10 : IEEE m) (1 / 2) := by
      have : Val (Arith.lit 5 10 : IEEE libm0) (1 / 2) := ⟨false, by decide +kernel⟩
      exact this
    have gQ : |g| ≤ 4448 := by
      have : |(g : ℝ)| ≤ 4448 := by
        have := abs_sub_abs_le_abs_sub (g : ℝ) (toneLevel A)
        rw [abs_of_nonneg G0] at this
        linarith
      have : ((|g| : ℚ) : ℝ) ≤ ((4448 : ℚ) : ℝ) := by push_cast; exact this
      exact (Rat.cast_le (K := ℝ)).1 this
    have gh : |1 / 2 * g| ≤ 2224 := by rw [abs_mul, abs_of_pos (by norm_num : (0 : ℚ) < 1 / 2)]; linarith
    have hv := Val.mul b5 hg (by rw [Val.big_eq]; linarith)
    have e2 : |rnd F32 (1 / 2 * g) - 1 / 2 * g| ≤ 1 / 8192 := by
      have := rnd_err_lt (f := F32) (q := 1 / 2 * g) (k := 12) (by
        rw [show pow2 12 = 4096 by rw [pow2_eq]; norm_num]; linarith) (by decide)
      rwa [show pow2 (12 - (F32.p : Int) - 1) = 1 / 8192 by rw [pow2_eq]; norm_num [F32]] at this
    have e2r : |((rnd F32 (1 / 2 * g) : ℚ) : ℝ) - 1 / 2 * g| ≤ 1 / 8192 := by
      have := (Rat.cast_le (K := ℝ)).2 e2
      push_cast at this
      exact this
    have hgR2 : |((rnd F32 (1 / 2 * g) : ℚ) : ℝ) - toneLevel A / 2| ≤ 1 / 1600 := by
      rw [abs_le] at e2r hgR ⊢
      constructor <;> linarith
    obtain ⟨r1, hr1, q1, hc1⟩ := oscProd_close hm ha p N hv (by linarith : 0 ≤ toneLevel A / 2) (by linarith) (by norm_num) hgR2
    obtain ⟨r2, hr2, q2, hc2⟩ := oscProd_close hm hb q N hv (by linarith : 0 ≤ toneLevel A / 2) (by linarith) (by norm_num) hgR2
    have q3 : |r1 + r2| ≤ 10000 := (abs_add_le _ _).trans (by linarith)
    have hv3 := Val.add hr1 hr2 (by rw [Val.big_eq]; linarith)
    have e3 : |rnd F32 (r1 + r2) - (r1 + r2)| ≤ 1 / 2048 := by
      have := rnd_err_lt (f := F32) (q := r1 + r2) (k := 14) (by
        rw [show pow2 14 = 16384 by rw [pow2_eq]; norm_num]; linarith) (by decide)
      rwa [show pow2 (14 - (F32.p : Int) - 1) = 1 / 2048 by rw [pow2_eq]; norm_num [F32]] at this
    have e3r : |((rnd F32 (r1 + r2) : ℚ) : ℝ) - (r1 + r2)| ≤ 1 / 2048 := by
      have := (Rat.cast_le (K := ℝ)).2 e3
      push_cast at this
      exact this
    refine ⟨rnd F32 (r1 + r2), ?_, ?_⟩
    · rw [decide_eq_false e, if_neg e]; exact hv3
    · unfold toneWave
      dsimp only
      rw [if_neg e]
      have d2 : toneLevel A / 2 * (2 * Real.pi * (N / 2 ^ 33)) ≤ N / 300000 / 2 := by linarith
      rw [abs_le] at e3r hc1 hc2 ⊢
      constructor <;> linarith

end Verif.Model
