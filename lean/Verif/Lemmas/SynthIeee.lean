import Verif.Lemmas.SynthSafe
import Verif.Lemmas.ImbeEval

/-!
# Conversions of the synthesiser in IEEE arithmetic
-/

namespace Verif.Num
open Verif
variable {m : Libm}

/-- Executable form of `Bnd`. -/
def bndB : FP → ℚ → Bool
  | .fin _ q, b => decide (|q| ≤ b)
  | _, _ => false

theorem Bnd.of {x : FP} {b : ℚ} (h : bndB x b = true) : Bnd x b := by
  cases x with
  | fin s q => exact ⟨q, ⟨s, rfl⟩, of_decide_eq_true h⟩
  | nan => cases h
  | inf s => cases h

theorem Bnd.mono {x : FP} {a b : ℚ} (h : Bnd x a) (hab : a ≤ b) : Bnd x b := by
  obtain ⟨q, h1, h2⟩ := h
  exact ⟨q, h1, h2.trans hab⟩

theorem Bnd.mul {x y : IEEE m} {i j : Int} (hx : Bnd x (pow2 i)) (hy : Bnd y (pow2 j)) (h1 : -149 ≤ i + j) (h2 : i + j ≤ 127) :
    Bnd (Arith.mul x y : IEEE m) (pow2 (i + j)) := by
  obtain ⟨a, ha, ha'⟩ := hx
  obtain ⟨b, hb, hb'⟩ := hy
  have hab : |a * b| ≤ pow2 (i + j) := by
    rw [abs_mul, pow2_add]
    exact mul_le_mul ha' hb' (abs_nonneg _) (pow2_pos _).le
  exact ⟨_, ha.mul hb (hab.trans (pow2_le h2)), abs_rnd_le F32_p (repr_pow2 h1) hab⟩

theorem Bnd.dmul {x y : IEEE m} {i j : Int} (hx : Bnd x (pow2 i)) (hy : Bnd y (pow2 j)) (h1 : -149 ≤ i + j) (h2 : i + j ≤ 127) :
    Bnd (Arith.dmul x y : IEEE m) (pow2 (i + j)) := by
  obtain ⟨a, ha, ha'⟩ := hx
  obtain ⟨b, hb, hb'⟩ := hy
  have hab : |a * b| ≤ pow2 (i + j) := by
    rw [abs_mul, pow2_add]
    exact mul_le_mul ha' hb' (abs_nonneg _) (pow2_pos _).le
  refine ⟨_, ha.dmul hb (hab.trans (pow2_le h2)), abs_rnd_le F64_p (repr_pow2 ?_) hab⟩
  exact le_trans (by decide) h1

theorem Bnd.toF {x : IEEE m} {i : Int} (hx : Bnd x (pow2 i)) (h1 : -149 ≤ i) (h2 : i ≤ 127) :
    Bnd (Arith.toF x : IEEE m) (pow2 i) := by
  obtain ⟨a, ha, ha'⟩ := hx
  exact ⟨_, ha.toF (ha'.trans (pow2_le h2)), abs_rnd_le F32_p (repr_pow2 h1) ha'⟩

theorem Val.ceil {x : IEEE m} {a : ℚ} (h : Val x a) : Val (Arith.ceil x : IEEE m) (⌈a⌉ : Int) := by
  obtain ⟨s, rfl⟩ := h
  exact ⟨_, rfl⟩

theorem truncQ_abs (a : ℚ) : |FP.truncQ a| ≤ ⌊|a|⌋ := by
  have hf : ∀ x : ℚ, Rat.floor x = ⌊x⌋ := fun _ => rfl
  unfold FP.truncQ
  split
  · rename_i h
    rw [hf, abs_of_nonneg h, abs_of_nonneg (Int.floor_nonneg.mpr h)]
  · rename_i h
    have h' : 0 ≤ -a := by linarith [not_le.mp h]
    rw [hf, abs_neg, abs_of_nonneg (Int.floor_nonneg.mpr h'), abs_of_nonpos (by linarith)]

theorem Bnd.toI32 {x : IEEE m} (h : Bnd x 2147483647) : ∃ n, Verif.toI32 x = .ok n := by
  obtain ⟨a, ha, hb⟩ := h
  unfold Verif.toI32
  rw [ha.trunc]
  have h1 := truncQ_abs a
  have h2 : ⌊|a|⌋ ≤ 2147483647 := by
    have : (⌊|a|⌋ : ℚ) ≤ 2147483647 := (Int.floor_le _).trans hb
    exact_mod_cast this
  rw [abs_le] at h1
  dsimp only
  rw [if_pos (by omega)]
  exact ⟨_, rfl⟩

theorem Val.toU32 {x : IEEE m} {a : ℚ} (hx : Val x a) (h0 : 0 ≤ a) (h : a < 4294967296) : Verif.toU32 x = .ok ⌊a⌋.toNat := by
  unfold Verif.toU32
  rw [hx.trunc]
  have e : FP.truncQ a = ⌊a⌋ := by unfold FP.truncQ; rw [if_pos h0]; rfl
  have h1 : (0 : Int) ≤ ⌊a⌋ := Int.floor_nonneg.mpr h0
  have h2 : ⌊a⌋ < 4294967296 := by rw [Int.floor_lt]; exact_mod_cast h
  simp only [e]
  rw [if_pos ⟨h1, h2⟩]

end Verif.Num

namespace Verif.Model
open Verif Verif.Gen Verif.Num Arith
variable {m : Libm}

/-- A seed that can be converted: any finite value below `2^32`. -/
def SeedGood (x : IEEE m) : Prop := ∃ q, Val x q ∧ q < 4294967296

theorem SeedGood.conv {x : IEEE m} (h : SeedGood x) : SeedConv x := by
  obtain ⟨q, hv, hq⟩ := h
  have hz : Val (lit 0 1 : IEEE m) 0 := by
    have := Val.lit (m := m) (n := 0) (d := 1) (by simpa using Val.big_pos.le)
    have e : rnd F32 (mkRat 0 1) = 0 := by decide +kernel
    rw [e] at this
    exact this
  unfold SeedConv
  by_cases h0 : q < 0
  · left
    rw [hv.lt hz]
    exact decide_eq_true h0
  · right
    exact ⟨_, hv.toU32 (by linarith) hq⟩

theorem SeedGood.ofNat {n : Nat} (h : n ≤ 2 ^ 24) : SeedGood (ofInt (n : Int) : IEEE m) := by
  refine ⟨n, ?_, ?_⟩
  · have := Val.ofInt (m := m) (n := (n : Int)) (by
      rw [abs_of_nonneg (by omega)]
      exact_mod_cast h)
    simpa using this
  · have : (n : ℚ) ≤ ((2 ^ 24 : Nat) : ℚ) := by exact_mod_cast h
    refine lt_of_le_of_lt this ?_
    norm_num

theorem SeedGood.of_bnd {x : IEEE m} {b : ℚ} (h : Bnd x b) (hb : b < 4294967296) : SeedGood x := by
  obtain ⟨q, h1, h2⟩ := h
  exact ⟨q, h1, lt_of_le_of_lt (le_abs_self q) (lt_of_le_of_lt h2 hb)⟩

theorem seed3147_0 : bndB (lit 3147 1 : IEEE libm0) 4096 = true := by decide +kernel
theorem seed3147 : SeedGood (lit 3147 1 : IEEE m) := SeedGood.of_bnd (Bnd.of seed3147_0) (by norm_num)
theorem seedNeg_0 : bndB (neg (lit 1 1) : IEEE libm0) 1 = true := by decide +kernel
theorem seedNeg : SeedGood (neg (lit 1 1) : IEEE m) := SeedGood.of_bnd (Bnd.of seedNeg_0) (by norm_num)

theorem SeedNext.good {t : Tls (IEEE m)} {x : IEEE m} (h : SeedNext t x) (ht : t.uvSeedState ≤ 2 ^ 24) : SeedGood x := by
  rcases h with rfl | rfl | ⟨n, hn, rfl⟩
  · exact SeedGood.ofNat ht
  · exact seed3147
  · exact SeedGood.ofNat (by omega)

/-! ## Band edges -/

theorem binConst_0 : bndB ((lit 256 1 /ᶠ (lit 2 1 *ᶠ lit 314159265358979323846 100000000000000000000)) : IEEE libm0) 64 = true := by
  decide +kernel

theorem half_0 : bndB (lit 5 10 : IEEE libm0) 1 = true := by decide +kernel

theorem pow2_15 : pow2 15 = 32768 := by rw [pow2_eq]; norm_num
theorem pow2_6 : pow2 6 = 64 := by rw [pow2_eq]; norm_num
theorem pow2_27 : pow2 27 = 134217728 := by rw [pow2_eq]; norm_num

theorem edge_toI32 {w : IEEE m} {l : IEEE m} (hw : Bnd w 32768) (hl : Bnd l 64) :
    Fine (toI32 (ceil (l *ᶠ binMultiplier w))) := by
  have h1 : Bnd (binMultiplier (F := IEEE m) w) (pow2 (6 + 15)) :=
    Bnd.mul (m := m) (x := (lit 256 1 /ᶠ (lit 2 1 *ᶠ lit 314159265358979323846 100000000000000000000) : IEEE m))
      (Bnd.of (by rw [pow2_6]; exact binConst_0)) (by rw [pow2_15]; exact hw) (by decide) (by decide)
  obtain ⟨q, hv, hq⟩ := Bnd.mul (i := 6) (j := 6 + 15) (by rw [pow2_6]; exact hl) h1 (by decide) (by decide)
  rw [show (6 : Int) + (6 + 15) = 27 by decide, pow2_27] at hq
  rw [abs_le] at hq
  have hb : Bnd (ceil (l *ᶠ binMultiplier w) : IEEE m) 2147483647 := by
    refine ⟨_, hv.ceil, ?_⟩
    have a1 : ⌈q⌉ ≤ 134217728 := by rw [Int.ceil_le]; exact_mod_cast hq.2
    have a2 : -134217728 ≤ ⌈q⌉ := by
      have : ((-134217728 : Int) : ℚ) ≤ ⌈q⌉ := le_trans (by exact_mod_cast hq.1) (Int.le_ceil q)
      exact_mod_cast this
    have b1 : ((⌈q⌉ : Int) : ℚ) ≤ 134217728 := by exact_mod_cast a1
    have b2 : (-134217728 : ℚ) ≤ ((⌈q⌉ : Int) : ℚ) := by exact_mod_cast a2
    rw [abs_le]
    constructor <;> linarith
  obtain ⟨n, hn⟩ := hb.toI32
  rw [hn]
  exact Ok.ok trivial

theorem edgeConv {w : IEEE m} (hw : Bnd w 32768) {L : Int} (hL : L ≤ 56) : EdgeConv w L := by
  intro l h1 h2
  obtain ⟨r, hr, hr'⟩ : Bnd (lit 5 10 : IEEE m) 1 := Bnd.of half_0
  have hl := Val.ofInt (m := m) (n := (l : Int)) (by rw [abs_of_nonneg (by omega)]; omega)
  have hlq : ((l : Int) : ℚ) ≤ 56 := by exact_mod_cast (show (l : Int) ≤ 56 by omega)
  have hl0 : (0 : ℚ) ≤ ((l : Int) : ℚ) := by exact_mod_cast (show (0 : Int) ≤ (l : Int) by omega)
  rw [abs_le] at hr'
  have hbig : (64 : ℚ) ≤ Val.big := by rw [Val.big_eq]; norm_num
  constructor
  · unfold bandLo
    refine Ok.bind (edge_toI32 hw ?_) fun _ _ => Ok.ok trivial
    have hb : |((l : Int) : ℚ) - r| ≤ 64 := by rw [abs_le]; constructor <;> linarith
    exact ⟨_, hl.sub hr (hb.trans hbig), abs_rnd_le F32_p (by rw [← pow2_6]; exact repr_pow2 (by decide)) hb⟩
  · unfold bandHi
    refine Ok.bind (edge_toI32 hw ?_) fun _ _ => Ok.ok trivial
    have hb : |((l : Int) : ℚ) + r| ≤ 64 := by rw [abs_le]; constructor <;> linarith
    exact ⟨_, hl.add hr (hb.trans hbig), abs_rnd_le F32_p (by rw [← pow2_6]; exact repr_pow2 (by decide)) hb⟩

/-! ## Tones -/

theorem tonePhaseStep_ieee (f : IEEE m) : tonePhaseStep f = tonePhaseStep (F := IEEE libm0) f := rfl
theorem lookupToneFreqs_ieee (id : Nat) : (lookupToneFreqs id : IEEE m × IEEE m × Bool) = (lookupToneFreqs id : IEEE libm0 × IEEE libm0 × Bool) := rfl
theorem dstarFreq_ieee (id : Int) : (dstarFreq id : IEEE m) = (dstarFreq id : IEEE libm0) := rfl

/-- Does the conversion succeed? -/
def isOkB {α} : Exec α → Bool
  | .ok _ => true
  | .error _ => false

theorem isOkB_fine {α} {x : Exec α} (h : isOkB x = true) : Fine x := by
  cases x with
  | ok a => exact Ok.ok trivial
  | error e => cases h

theorem toneSteps_0 : ∀ id < 256, isOkB (tonePhaseStep (lookupToneFreqs id : IEEE libm0 × IEEE libm0 × Bool).1) = true ∧
    isOkB (tonePhaseStep (lookupToneFreqs id : IEEE libm0 × IEEE libm0 × Bool).2.1) = true := by decide +kernel

theorem dstarSteps_0 : ∀ id : Nat, id < 123 → isOkB (tonePhaseStep (dstarFreq (id : Int) : IEEE libm0)) = true := by decide +kernel

theorem toneSteps {id : Nat} (h : id < 256) : Fine (tonePhaseStep (lookupToneFreqs id : IEEE m × IEEE m × Bool).1) ∧
    Fine (tonePhaseStep (lookupToneFreqs id : IEEE m × IEEE m × Bool).2.1) := by
  obtain ⟨a, b⟩ := toneSteps_0 id h
  rw [tonePhaseStep_ieee, tonePhaseStep_ieee, lookupToneFreqs_ieee]
  exact ⟨isOkB_fine a, isOkB_fine b⟩

theorem dstarSteps {id : Nat} (h : id < 123) : Fine (tonePhaseStep (dstarFreq (id : Int) : IEEE m)) := by
  rw [tonePhaseStep_ieee, dstarFreq_ieee]
  exact isOkB_fine (dstarSteps_0 id h)

theorem renderTonef_fine {F : Type} [Arith F] (out : Arr 160 F) (cur : Parms F) {f1 f2 : F} (amp : Int)
    (h1 : Fine (tonePhaseStep f1)) (h2 : Fine (tonePhaseStep f2)) : Fine (renderTonef out cur f1 f2 amp) := by
  unfold renderTonef
  refine Ok.ite (fun _ => Ok.ok trivial) fun _ => Ok.bind h1 fun s1 _ => ?_
  refine Ok.bind (P := fun _ => True) (Ok.ite (fun _ => h2) fun _ => Ok.ok trivial) fun s2 _ => ?_
  refine Ok.bind (P := fun _ => True) ?_ fun _ _ => Ok.ok trivial
  refine loop_fine fun i hi s => Ok.ite (fun _ => ?_) fun _ => ?_
  · exact Ok.bind (wr_fine (by omega) (by omega)) fun _ _ => Ok.ok trivial
  · exact Ok.bind (wr_fine (by omega) (by omega)) fun _ _ => Ok.ok trivial

end Verif.Model
