import Verif.Spec.Unvoiced
import Verif.Spec.VoicedAcc
import Verif.Spec.Fft

/-!
# Vocabulary for the accuracy of the unvoiced block in binary32
-/

namespace Verif.Spec
open Verif Verif.Model Verif.Num Arith

variable {m : Libm}

/-- `e l` is the first bin of band `l` and the first bin after band `l - 1`: `⌈(l - 1/2) · 256 w / 2π⌉`, at most 128, where the
product under the ceiling has a relative error of at most `ε`. -/
def LimitsWithin (ε w : ℝ) (e : ℕ → ℕ) : Prop :=
  ∀ l : ℕ, 1 ≤ l → l ≤ 57 → ∃ y : ℝ, |y - (l - 1 / 2) * (256 * w / (2 * Real.pi))| ≤ ε * ((l - 1 / 2) * (256 * w / (2 * Real.pi))) ∧
    (e l : ℤ) = min 128 ⌈y⌉

/-- The power of the bins `a .. b - 1` of a spectrum. -/
noncomputable def powerOf (X : ℕ → ℂ) (a b : ℕ) : ℝ := ∑ k ∈ Finset.Ico a b, Complex.normSq (X k)

/-- The block `u` is noise `x` shaped by the unvoiced bands of the set `p`. Up to `d` per sample it is the block `v` whose
spectrum is `g k · X k` in bin `k`. Here `X` is within 512 of the spectrum of `x`; the gain `g k` is 0 outside the unvoiced bands; it
is the same in all bins of one unvoiced band, and it gives the band of amplitude `Ml` the root mean square `146.17696 Ml` over
its bins, up to a ten-thousandth, or is 0 if there is no noise in the band. -/
def ShapedNoise (d : ℝ) (p : Parms ℝ) (x u : ℕ → ℝ) : Prop :=
  ∃ (e : ℕ → ℕ) (X : ℕ → ℂ) (g : ℕ → ℝ) (v : ℕ → ℝ),
    LimitsWithin (1 / 2 ^ 20) p.w0 e ∧
    (∀ k, k ≤ 128 → ‖X k - dft 256 x k‖ ≤ 512) ∧
    (∀ k, k ≤ 128 → dft 256 v k = g k * X k) ∧
    (∀ k, k ≤ 128 → (∀ l : Fin 57, 1 ≤ l.val → (l.val : Int) ≤ p.L → p.Vl l = 0 → ¬ (e l.val ≤ k ∧ k < e (l.val + 1))) → g k = 0) ∧
    (∀ l : Fin 57, 1 ≤ l.val → (l.val : Int) ≤ p.L → p.Vl l = 0 → e l.val < e (l.val + 1) →
      ∃ γ : ℝ, (∀ k, e l.val ≤ k → k < e (l.val + 1) → g k = γ) ∧
        ((γ = 0 ∧ powerOf X (e l.val) (e (l.val + 1)) ≤ 2 / 10 ^ 10) ∨
          (1 / (2 * 10 ^ 10) ≤ powerOf X (e l.val) (e (l.val + 1)) ∧
            |γ * Real.sqrt (powerOf X (e l.val) (e (l.val + 1)) / ((e (l.val + 1) : ℝ) - e l.val)) - 146.17696 * p.Ml l| ≤
              |146.17696 * p.Ml l| / 10000 + 1 / 2 ^ 80))) ∧
    ∀ n, n < 256 → |u n - v n| ≤ d

/-- The amplitudes of the unvoiced bands of a set are numbers of at most `A`; or the fundamental is 0 and there are no bands. -/
def UnvoicedBnd (A : ℚ) (p : Parms (IEEE m)) : Prop :=
  (∀ l : Fin 57, 1 ≤ l.val → (l.val : Int) ≤ p.L → p.Vl l = 0 → Bnd (p.Ml l) A) ∨ Val p.w0 0

/-- The noise of a frame under the synthesis window. -/
noncomputable def windowed (noise : Arr 256 (IEEE m)) : ℕ → ℝ := seqOf fun n => number (noise n) * winAt ((n.val : Int) - 128)

/-- The unvoiced block that a frame leaves in the parameter set: zeros, as after initialisation, or shaped noise made by the
synthesis of one frame. -/
def StoredBlock (u : Arr 256 (IEEE m)) : Prop :=
  (∀ i, Val (u i) 0) ∨
  ∃ (E : Env (IEEE m)) (cur prev : Parms (IEEE m)) (t : Tls (IEEE m)) (r : SynthRes (IEEE m)) (nr : NoiseRes (IEEE m)),
    synthUnmuted E cur prev t = .ok r ∧ noiseOverlap (Arr.const 256 (fi 0)) cur.noiseSeed cur.noiseOverlap t = .ok nr ∧
    u = r.cur.previousUw ∧ UnvoicedBnd (2 ^ 32) cur ∧ ∀ A : ℚ, 0 ≤ A → A ≤ 2 ^ 32 → UnvoicedBnd A cur →
      (∀ i, Bnd (u i) (148 * A + 1 / 2 ^ 78)) ∧
      ShapedNoise (A / 10 + 1 / 2 ^ 80) (valuesOf cur) (windowed nr.buf) (seqOf fun n => number (u n))

end Verif.Spec
