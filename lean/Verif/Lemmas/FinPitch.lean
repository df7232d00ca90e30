import Verif.Lemmas.FinEnh
import Verif.Lemmas.SafeIeee
import Verif.Lemmas.ToneWave

/-!
# Finite samples: no harmonic of a valid pitch is near a multiple of pi
-/

namespace Verif.Model
open Verif Verif.Gen Verif.Spec Verif.Num Arith
variable {m : Libm}

theorem cos_away {x : ℝ} (h1 : 6 / 125 ≤ x) (h2 : x ≤ 30935 / 10000) : |Real.cos x| ≤ 1 - 1 / 900 := by
  have hp := Real.pi_gt_d4
  have hc : Real.cos (6 / 125) ≤ 1 - 1 / 900 := by
    have := Real.cos_bound (x := 6 / 125) (by rw [abs_of_nonneg] <;> norm_num)
    rw [abs_of_nonneg (show (0 : ℝ) ≤ 6 / 125 by norm_num)] at this
    have := (abs_le.mp this).2
    norm_num at this ⊢
    linarith
  rw [abs_le]
  constructor
  · have : Real.cos (Real.pi - x) ≤ Real.cos (6 / 125) :=
      Real.cos_le_cos_of_nonneg_of_le_pi (by norm_num) (by linarith) (by linarith)
    rw [Real.cos_pi_sub] at this
    linarith
  · have : Real.cos x ≤ Real.cos (6 / 125) := Real.cos_le_cos_of_nonneg_of_le_pi (by norm_num) (by linarith) h1
    linarith

theorem pitch_lin {w : ℚ} {L : Int} (h1 : 6 / 125 ≤ w) (h2 : w * L ≤ 30935 / 10000) : PitchOk w L := by
  intro l l1 l2
  have hw : ((6 / 125 : ℚ) : ℝ) ≤ w := by exact_mod_cast h1
  push_cast at hw
  have hL : ((w * L : ℚ) : ℝ) ≤ ((30935 / 10000 : ℚ) : ℝ) := by exact_mod_cast h2
  push_cast at hL
  have a : (1 : ℝ) ≤ l := by exact_mod_cast l1
  have b : (l : ℝ) ≤ L := by exact_mod_cast l2
  refine cos_away (by nlinarith) ?_
  have := mul_le_mul_of_nonneg_right b (show (0 : ℝ) ≤ w by linarith)
  linarith

theorem pitch_sil {w : ℚ} {L : Int} (h1 : 6168 / 10000 ≤ w) (h2 : w ≤ 6169 / 10000) (hL : L ≤ 15) : PitchOk w L := by
  intro l l1 l2
  have hw : ((6168 / 10000 : ℚ) : ℝ) ≤ w := by exact_mod_cast h1
  push_cast at hw
  have hw' : (w : ℝ) ≤ ((6169 / 10000 : ℚ) : ℝ) := by exact_mod_cast h2
  push_cast at hw'
  have p1 := Real.pi_gt_d4
  have p2 := Real.pi_lt_d4
  have hl : l ≤ 15 := by omega
  have k0 : (l : ℝ) ≤ 5 → |Real.cos (l * (w : ℝ))| ≤ 1 - 1 / 900 := fun h => by
    have : (1 : ℝ) ≤ l := by exact_mod_cast l1
    exact cos_away (by nlinarith) (by nlinarith)
  have k1 : (6 : ℝ) ≤ l → (l : ℝ) ≤ 10 → |Real.cos (l * (w : ℝ))| ≤ 1 - 1 / 900 := fun a b => by
    have := cos_away (x := l * (w : ℝ) - Real.pi) (by nlinarith) (by nlinarith)
    rwa [Real.cos_sub_pi, abs_neg] at this
  have k2 : (11 : ℝ) ≤ l → (l : ℝ) ≤ 15 → |Real.cos (l * (w : ℝ))| ≤ 1 - 1 / 900 := fun a b => by
    have := cos_away (x := l * (w : ℝ) - 2 * Real.pi) (by nlinarith) (by nlinarith)
    rwa [Real.cos_sub_two_pi] at this
  by_cases c0 : l ≤ 5
  · exact k0 (by exact_mod_cast c0)
  · by_cases c1 : l ≤ 10
    · exact k1 (by exact_mod_cast (show 6 ≤ l by omega)) (by exact_mod_cast c1)
    · exact k2 (by exact_mod_cast (show 11 ≤ l by omega)) (by exact_mod_cast hl)

/-- A fundamental frequency and a number of harmonics that the enhancement can handle. -/
def Pitch (x : IEEE m) (L : Int) : Prop := ∃ w, Val x w ∧ 1 / 32 ≤ w ∧ w ≤ 5 / 8 ∧ PitchOk w L

/-- Check of a fundamental frequency. -/
def pitchB : FP → Int → Bool
  | .fin _ q, L => decide (6 / 125 ≤ q ∧ q * L ≤ 30935 / 10000 ∧ q ≤ 5 / 8)
  | _, _ => false

theorem pitchB_of {x : FP} {L : Int} (h : pitchB x L = true) : Pitch (m := m) x L := by
  cases x with
  | fin s q =>
    obtain ⟨a, b, c⟩ := of_decide_eq_true h
    exact ⟨q, ⟨s, rfl⟩, le_trans (by norm_num) a, c, pitch_lin a b⟩
  | nan => cases h
  | inf s => cases h

theorem sil_of {x : FP} (h : rngB x (6168 / 10000) (6169 / 10000) = true) {L : Int} (hL : L ≤ 15) : Pitch (m := m) x L := by
  obtain ⟨q, v, a, b⟩ := rng_of h
  exact ⟨q, v, le_trans (by norm_num) a, b.trans (by norm_num), pitch_sil a b hL⟩

theorem imbe_pitch0 : ∀ b0 < 208, pitchB (imbeW0 b0 : IEEE libm0) (imbeLTab b0 : Nat) = true := by decide +kernel
theorem imbe_pitch {b0 : Nat} (h : b0 < 208) : Pitch (imbeW0 b0 : IEEE m) (imbeLTab b0 : Nat) := by
  have e : (imbeW0 b0 : IEEE m) = (imbeW0 b0 : IEEE libm0) := rfl
  rw [e]
  exact pitchB_of (imbe_pitch0 b0 h)

theorem imbeDefault_pitch0 : pitchB (imbeDefaultW0 : IEEE libm0) 39 = true := by decide +kernel
theorem imbeDefault_pitch : Pitch (imbeDefaultW0 : IEEE m) 39 := by
  rw [imbeDefaultW0_ieee]
  exact pitchB_of imbeDefault_pitch0

theorem ambeInit_pitch0 : rngB (toF ((mpi /ᵈ dlit 32 1) *ᵈ (dlit 2 1 *ᵈ mpi)) : IEEE libm0) (6168 / 10000) (6169 / 10000) = true := by
  decide +kernel
theorem ambeInit_pitch : Pitch (toF ((mpi /ᵈ dlit 32 1) *ᵈ (dlit 2 1 *ᵈ mpi)) : IEEE m) 15 :=
  sil_of (x := (toF ((mpi /ᵈ dlit 32 1) *ᵈ (dlit 2 1 *ᵈ mpi)) : IEEE m)) ambeInit_pitch0 le_rfl

theorem sil_pitch0 : rngB ((fpi /ᶠ lit 32 1) *ᶠ toF (dlit 2 1 *ᵈ mpi) : IEEE libm0) (6168 / 10000) (6169 / 10000) = true := by
  decide +kernel
theorem sil_pitch {L : Int} (hL : L ≤ 15) : Pitch ((fpi /ᶠ lit 32 1) *ᶠ toF (dlit 2 1 *ᵈ mpi) : IEEE m) L :=
  sil_of (x := ((fpi /ᶠ lit 32 1) *ᶠ toF (dlit 2 1 *ᵈ mpi) : IEEE m)) sil_pitch0 hL

theorem ambe_pitch0 : ∀ b0 < 120, pitchB (ambeW0 (ftab (AmbeW0table.getD b0 0) AmbeW0table_den) : IEEE libm0)
    (AmbeLtable.getD b0 0) = true := by decide +kernel
theorem ambe_pitch {b0 : Nat} (h : b0 < 120) : Pitch (ambeW0 (ftab (AmbeW0table.getD b0 0) AmbeW0table_den) : IEEE m) (AmbeLtable.getD b0 0) := by
  have e : (ambeW0 (ftab (AmbeW0table.getD b0 0) AmbeW0table_den) : IEEE m) =
      (ambeW0 (ftab (AmbeW0table.getD b0 0) AmbeW0table_den) : IEEE libm0) := ambeW0_tab_ieee _ _
  exact e ▸ pitchB_of (ambe_pitch0 b0 h)

/-! AMBE 2400: the fundamental comes out of `exp2f`. -/

/-- As `argCheck`, with smaller constants. -/
def argCheck2 (b0 : Nat) (x : FP) : Bool :=
  match x with
  | .fin _ y =>
    let k := (⌊-y * 1024⌋).toNat
    decide (-7 ≤ y) && decide (y ≤ -4) && decide ((16 * (AmbePlusLtable.getD b0 0).toNat * 1001) ^ 1024 ≤ 7840 ^ 1024 * 2 ^ k)
  | _ => false

theorem argCheck2_all : ∀ b0 < 126, argCheck2 b0 (f0Arg b0 : IEEE libm0) = true := by decide +kernel

theorem pow_bound2 {y : ℚ} (hy : y ≤ -4) {L : Nat} (h : (16 * L * 1001) ^ 1024 ≤ 7840 ^ 1024 * 2 ^ (⌊-y * 1024⌋).toNat) :
    16 * (L : ℝ) * (1001 / 1000) * (2 : ℝ) ^ (y : ℝ) ≤ 784 / 100 := by
  obtain ⟨k, hk⟩ : ∃ k, k = (⌊-y * 1024⌋).toNat := ⟨_, rfl⟩
  rw [← hk] at h
  have h0 : (0 : ℚ) ≤ -y * 1024 := by linarith
  have hkz : (k : Int) = ⌊-y * 1024⌋ := by rw [hk]; exact Int.toNat_of_nonneg (Int.floor_nonneg.mpr h0)
  have hkq : (k : ℚ) ≤ -y * 1024 := by
    have := Int.floor_le (-y * 1024)
    rw [← hkz] at this
    exact_mod_cast this
  have hkr : (k : ℝ) ≤ -(y : ℝ) * 1024 := by exact_mod_cast hkq
  have hle : (2 : ℝ) ^ (y : ℝ) ≤ (2 : ℝ) ^ (-((k : ℝ) / 1024)) := by
    apply Real.rpow_le_rpow_of_exponent_le (by norm_num)
    linarith
  obtain ⟨z, hz⟩ : ∃ z, z = (2 : ℝ) ^ (-((k : ℝ) / 1024)) := ⟨_, rfl⟩
  rw [← hz] at hle
  have hz0 : 0 < z := by rw [hz]; exact Real.rpow_pos_of_pos (by norm_num) _
  have hzp : z ^ 1024 * 2 ^ k = 1 := by
    rw [hz, ← Real.rpow_natCast, ← Real.rpow_mul (by norm_num), ← Real.rpow_natCast, ← Real.rpow_add (by norm_num)]
    have : -((k : ℝ) / 1024) * ((1024 : ℕ) : ℝ) + (k : ℝ) = 0 := by push_cast; ring
    rw [this, Real.rpow_zero]
  have hR : (16 * (L : ℝ) * 1001) ^ 1024 ≤ 7840 ^ 1024 * 2 ^ k := by exact_mod_cast h
  have hpow : (16 * (L : ℝ) * 1001 * z) ^ 1024 ≤ (7840 : ℝ) ^ 1024 := by
    rw [mul_pow]
    calc (16 * (L : ℝ) * 1001) ^ 1024 * z ^ 1024 ≤ 7840 ^ 1024 * 2 ^ k * z ^ 1024 :=
          mul_le_mul_of_nonneg_right hR (by positivity)
      _ = 7840 ^ 1024 * (z ^ 1024 * 2 ^ k) := by ring
      _ = _ := by rw [hzp, mul_one]
  have hfin : 16 * (L : ℝ) * 1001 * z ≤ 7840 := le_of_pow_le_pow_left₀ (by norm_num) (by norm_num) hpow
  have h2 : 16 * (L : ℝ) * 1001 * (2 : ℝ) ^ (y : ℝ) ≤ 16 * (L : ℝ) * 1001 * z :=
    mul_le_mul_of_nonneg_left hle (by positivity)
  linarith

theorem f0_2400' (hm : Exp2Acc m) {b0 : Nat} (hb : b0 < 126) :
    ∃ q : ℚ, Val (f0Of2400 b0 : IEEE m) q ∧ 999 / 128000 ≤ q ∧ 16 * ((AmbePlusLtable.getD b0 0).toNat : ℚ) * q ≤ 784 / 100 := by
  have hc := argCheck2_all b0 hb
  rw [f0Of2400_eq, f0Arg_ieee (m := m)]
  generalize (f0Arg b0 : IEEE libm0) = x at hc
  match x, hc with
  | .fin s y, hc =>
    simp only [argCheck2, Bool.and_eq_true, decide_eq_true_eq] at hc
    obtain ⟨⟨h1, h2⟩, h3⟩ := hc
    obtain ⟨r, hr, ha⟩ := hm (.fin s y) y ⟨s, rfl⟩ (by linarith) h2
    have hp : 1 / 128 ≤ (2 : ℝ) ^ (y : ℝ) := by
      have : (2 : ℝ) ^ (-7 : ℝ) ≤ (2 : ℝ) ^ (y : ℝ) := Real.rpow_le_rpow_of_exponent_le (by norm_num) (by exact_mod_cast h1)
      rw [Real.rpow_neg (by norm_num)] at this
      norm_num at this
      linarith
    rw [abs_le] at ha
    have hb := pow_bound2 h2 h3
    have r0 : (999 / 128000 : ℝ) ≤ r := by linarith
    have r1 : (r : ℝ) ≤ 1001 / 1000 * (2 : ℝ) ^ (y : ℝ) := by linarith
    have r0' : ((999 / 128000 : ℚ) : ℝ) ≤ r := by push_cast; exact r0
    refine ⟨r, hr, by exact_mod_cast r0', ?_⟩
    have : 16 * ((AmbePlusLtable.getD b0 0).toNat : ℝ) * (r : ℝ) ≤ 784 / 100 := by
      have := mul_le_mul_of_nonneg_left r1 (show (0 : ℝ) ≤ 16 * ((AmbePlusLtable.getD b0 0).toNat : ℝ) by positivity)
      linarith
    have h' : ((16 * ((AmbePlusLtable.getD b0 0).toNat : ℚ) * r : ℚ) : ℝ) ≤ ((784 / 100 : ℚ) : ℝ) := by
      push_cast; exact this
    exact_mod_cast h'

theorem mpi_rng0 : rngB (mpi : IEEE libm0) (314159 / 100000) (314160 / 100000) = true := by decide +kernel
theorem mpi_rng : ∃ q, Val (mpi : IEEE m) q ∧ 314159 / 100000 ≤ q ∧ q ≤ 314160 / 100000 := rng_of (x := (mpi : IEEE m)) mpi_rng0

theorem ambeW0_val {x : IEEE m} {f : ℚ} (hx : Val x f) (h0 : 1 / 256 ≤ f) (h1 : f ≤ 1 / 16) : ∃ w, Val (ambeW0 x : IEEE m) w ∧
    2 * f * (314159 / 100000) - 1 / 100000 ≤ w ∧ w ≤ 2 * f * (314160 / 100000) + 1 / 100000 := by
  obtain ⟨pi, vp, p1, p2⟩ := mpi_rng (m := m)
  have e2 : Val (ofInt 2 : IEEE m) 2 := by
    have := Val.ofInt (m := m) (n := 2) (by norm_num)
    simpa using this
  have a := hx.mul e2 (by rw [abs_of_nonneg (by linarith)]; exact le_trans (by linarith) big_ge)
  have ea := rnd32_err (f * 2)
  rw [abs_of_nonneg (show 0 ≤ f * 2 by linarith)] at ea
  have p24 : pow2 (-24) = 1 / 16777216 := by rw [pow2_eq]; norm_num
  have p150 : pow2 (-150) ≤ 1 / 16777216 := by rw [← p24]; exact pow2_le (by norm_num)
  rw [p24] at ea
  generalize rnd F32 (f * 2) = g at a ea
  rw [abs_le] at ea
  have g0 : 0 ≤ g := by linarith [ea.1]
  have g1 : g ≤ 1 / 4 := by linarith [ea.2]
  have gp0 : 0 ≤ g * pi := by nlinarith
  have gp1 : g * pi < 1 := by nlinarith
  have b := a.dmul vp (by rw [abs_of_nonneg gp0]; exact le_trans gp1.le (le_trans (by norm_num) big_ge))
  have z : pow2 0 = 1 := by rw [pow2_eq]; norm_num
  have eb : |rnd F64 (g * pi) - g * pi| ≤ 1 / 16777216 := by
    refine (rnd_err_lt (f := F64) (k := 0) (by rw [abs_of_nonneg gp0, z]; exact gp1) (by decide)).trans ?_
    rw [← p24]
    exact pow2_le (by decide)
  generalize rnd F64 (g * pi) = h at b eb
  rw [abs_le] at eb
  have hh0 : 0 ≤ h + 1 / 16777216 := by linarith [eb.1]
  have hh : |h| ≤ 2 := by rw [abs_le]; constructor <;> linarith [eb.1, eb.2]
  have c := b.toF (hh.trans (le_trans (by norm_num) big_ge))
  have ec := rnd32_err h
  rw [p24] at ec
  refine ⟨_, c, ?_, ?_⟩
  · have := (abs_le.mp ec).1
    have k1 : (f * 2 - 1 / 8388608) * (314159 / 100000) ≤ g * pi :=
      mul_le_mul (by linarith [ea.1]) p1 (by norm_num) g0
    have k2 : 1 / 16777216 * |h| ≤ 1 / 8388608 := by linarith
    linarith [eb.1]
  · have := (abs_le.mp ec).2
    have k1 : g * pi ≤ (f * 2 + 1 / 8388608) * (314160 / 100000) :=
      mul_le_mul (by linarith [ea.2]) p2 (by linarith) (by linarith)
    have k2 : 1 / 16777216 * |h| ≤ 1 / 8388608 := by linarith
    linarith [eb.2]

theorem ambe2400_pitch (hm : Exp2Acc m) {b0 : Nat} (hb : b0 < 126) : Pitch (ambeW0 (f0Of2400 b0) : IEEE m) (AmbePlusLtable.getD b0 0) := by
  obtain ⟨q, hq, h0, h1⟩ := f0_2400' hm hb
  have hL := ltabPlus_check b0 hb
  obtain ⟨L, e⟩ : ∃ L : Nat, AmbePlusLtable.getD b0 0 = (L : Int) := ⟨(AmbePlusLtable.getD b0 0).toNat, by omega⟩
  rw [e, Int.toNat_natCast] at h1
  rw [e] at hL ⊢
  have l9 : (9 : ℚ) ≤ L := by exact_mod_cast hL.1
  have l56 : (L : ℚ) ≤ 56 := by exact_mod_cast hL.2
  have hq1 : q ≤ 1 / 16 := by nlinarith
  obtain ⟨w, v, w0, w1⟩ := ambeW0_val hq (le_trans (by norm_num) h0) hq1
  have a : 6 / 125 ≤ w := by linarith
  refine ⟨w, v, le_trans (by norm_num) a, by linarith, pitch_lin a ?_⟩
  push_cast
  have : w * L ≤ (2 * q * (314160 / 100000) + 1 / 100000) * L := mul_le_mul_of_nonneg_right w1 (by linarith)
  nlinarith

end Verif.Model
