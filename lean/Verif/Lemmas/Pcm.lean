import Verif.Lemmas.Buffers
import Verif.Lemmas.FPOps
import Verif.Lemmas.ImbeEval
import Verif.Spec.Sound

/-!
# Conversion to 16 bits, clipping and comfort noise under IEEE arithmetic
-/

namespace Verif.Model
open Verif Verif.Gen Verif.Num Verif.Spec Arith

variable {m : Libm}

/-! ## Constants -/

/-- The value of `32767.0f * 0.95f`. -/
def maxQ : ℚ := 15937869 / 512

theorem maxAmplitude_ieee : (maxAmplitude : IEEE m) = FP.fin false maxQ := by
  have h : (maxAmplitude : IEEE libm0) = IEEE.mk (FP.fin false maxQ) := by decide +kernel
  exact h

theorem minSse2_ieee : (neg (lit 32767 1) *ᶠ lit 95 100 : IEEE m) = FP.fin true (-maxQ) := by
  have h : (neg (lit 32767 1) *ᶠ lit 95 100 : IEEE libm0) = IEEE.mk (FP.fin true (-maxQ)) := by decide +kernel
  exact h

theorem seven_ieee : (lit 7 1 : IEEE m) = FP.fin false 7 := by
  have h : (lit 7 1 : IEEE libm0) = IEEE.mk (FP.fin false 7) := by decide +kernel
  exact h

theorem negMax_ieee : (neg (maxAmplitude) : IEEE m) = FP.fin true (-maxQ) := by
  rw [maxAmplitude_ieee]
  exact (show FP.neg (FP.fin false maxQ) = FP.fin true (-maxQ) by decide +kernel)

theorem maxQ_pos : 0 < maxQ := by unfold maxQ; norm_num

/-- Limit to `[-c, c]`. -/
def clampQ (c q : ℚ) : ℚ := max (-c) (min c q)

theorem clampQ_abs {c q : ℚ} (h : 0 ≤ c) : |clampQ c q| ≤ c := by
  unfold clampQ
  rw [abs_le]
  exact ⟨le_max_left _ _, max_le (by linarith) (min_le_left _ _)⟩

theorem clampQ_mono {c p q : ℚ} (h : p ≤ q) : clampQ c p ≤ clampQ c q :=
  max_le_max (le_refl _) (min_le_min (le_refl _) h)

theorem clampQ_neg {c q : ℚ} (h : 0 ≤ c) : clampQ c (-q) = -clampQ c q := by
  unfold clampQ
  rcases le_total c q with h1 | h1
  · rw [min_eq_left h1, max_eq_right (a := -c) (b := c) (by linarith), min_eq_right (a := c) (b := -q) (by linarith),
      max_eq_left (by linarith)]
  · rcases le_total q (-c) with h2 | h2
    · rw [min_eq_right h1, max_eq_left h2, min_eq_left (by linarith), max_eq_right (by linarith)]
      ring
    · rw [min_eq_right h1, max_eq_right h2, min_eq_right (by linarith), max_eq_right (by linarith)]

theorem truncQ_mono {p q : ℚ} (h : p ≤ q) : FP.truncQ p ≤ FP.truncQ q := by
  unfold FP.truncQ
  simp only [floor_eq]
  by_cases hp : 0 ≤ p
  · rw [if_pos hp, if_pos (hp.trans h)]
    exact Int.floor_le_floor h
  · rw [if_neg hp]
    have h1 : 0 ≤ ⌊-p⌋ := Int.floor_nonneg.2 (by linarith)
    by_cases hq : 0 ≤ q
    · rw [if_pos hq]
      have : 0 ≤ ⌊q⌋ := Int.floor_nonneg.2 hq
      omega
    · rw [if_neg hq]
      have : ⌊-q⌋ ≤ ⌊-p⌋ := Int.floor_le_floor (by linarith)
      omega

theorem truncQ_neg (q : ℚ) : FP.truncQ (-q) = -FP.truncQ q := by
  unfold FP.truncQ
  simp only [floor_eq]
  rcases lt_trichotomy q 0 with h | h | h
  · rw [if_pos (by linarith), if_neg (by linarith)]; omega
  · subst h; simp
  · rw [if_neg (by linarith), if_pos (by linarith), neg_neg]

theorem truncQ_abs {q b : ℚ} (h : |q| ≤ b) : |FP.truncQ q| ≤ ⌊b⌋ := by
  rw [abs_le] at h ⊢
  have e : FP.truncQ b = ⌊b⌋ := by
    unfold FP.truncQ; rw [if_pos (by linarith)]; rfl
  constructor
  · rw [← e, ← truncQ_neg]; exact truncQ_mono h.1
  · rw [← e]; exact truncQ_mono h.2

/-! ## `mbe_floattoshort` -/

/-- The product `7 * x` limited to the clipping range, for any datum but NaN. -/
def scaled : FP → ℚ
  | .nan => 0
  | .inf s => if s then -maxQ else maxQ
  | .fin _ q => clampQ maxQ (rnd F32 (7 * q))

theorem maxQ_lt : maxQ < pow2 F32.emax := by
  have : pow2 20 ≤ pow2 F32.emax := pow2_le (by decide)
  refine lt_of_lt_of_le ?_ this
  rw [pow2_eq]; unfold maxQ; norm_num

/-- Clipping of a rounded product. -/
theorem clip_round (s : Bool) (q : ℚ) :
    (if FP.ltB (FP.fin false maxQ) (FP.round F32 s q) then FP.fin false maxQ
      else if FP.ltB (FP.round F32 s q) (FP.fin true (-maxQ)) then FP.fin true (-maxQ) else FP.round F32 s q) =
    FP.fin (if q = 0 then s else decide (q < 0)) (clampQ maxQ (rnd F32 q)) := by
  have hM := maxQ_pos
  have hlt := maxQ_lt
  unfold FP.round
  by_cases h0 : q = 0
  · subst h0
    rw [if_pos rfl]
    simp only [FP.ltB, decide_eq_true_eq, if_neg (not_lt.2 hM.le)]
    rw [if_neg (by linarith), rnd_zero]
    unfold clampQ
    rw [min_eq_right hM.le, max_eq_right (by linarith), if_pos trivial]
  · rw [if_neg h0, if_neg h0]
    have sg : (q < 0 → rnd F32 q ≤ 0) ∧ (0 < q → 0 ≤ rnd F32 q) := by
      refine ⟨fun h => ?_, fun h => rnd_nonneg h.le⟩
      have := rnd_nonneg (f := F32) (q := -q) (by linarith)
      rw [rnd_neg] at this
      linarith
    generalize hr : rnd F32 q = r at sg
    rcases lt_or_gt_of_ne h0 with hq | hq
    · have hr0 := sg.1 hq
      simp only [hq, decide_true]
      by_cases hb : pow2 F32.emax ≤ |r|
      · rw [if_pos hb]
        rw [abs_of_nonpos hr0] at hb
        simp only [FP.ltB, Bool.not_true, Bool.false_eq_true, if_false, if_true]
        unfold clampQ
        rw [min_eq_right (by linarith), max_eq_left (by linarith)]
      · rw [if_neg hb]
        simp only [FP.ltB, decide_eq_true_eq]
        rw [if_neg (by linarith)]
        by_cases hc : r < -maxQ
        · rw [if_pos hc]
          unfold clampQ
          rw [min_eq_right (by linarith), max_eq_left (by linarith)]
        · rw [if_neg hc]
          unfold clampQ
          rw [min_eq_right (by linarith), max_eq_right (by linarith)]
    · have hr0 := sg.2 hq
      have hn : ¬ q < 0 := not_lt.2 hq.le
      simp only [hn, decide_false]
      by_cases hb : pow2 F32.emax ≤ |r|
      · rw [if_pos hb]
        rw [abs_of_nonneg hr0] at hb
        simp only [FP.ltB, Bool.not_false, if_true]
        unfold clampQ
        rw [min_eq_left (by linarith), max_eq_right (by linarith)]
      · rw [if_neg hb]
        simp only [FP.ltB, decide_eq_true_eq]
        by_cases hc : maxQ < r
        · rw [if_pos hc]
          unfold clampQ
          rw [min_eq_left (by linarith), max_eq_right (by linarith)]
        · rw [if_neg hc, if_neg (by linarith)]
          unfold clampQ
          rw [min_eq_right (by linarith), max_eq_right (by linarith)]

theorem mul7 (s : Bool) (q : ℚ) : (mul (lit 7 1) (FP.fin s q) : IEEE m) = FP.round F32 (FP.sgn (FP.fin s q)) (7 * q) := by
  rw [seven_ieee]
  show FP.round F32 (xor (FP.sgn (FP.fin false 7)) (FP.sgn (FP.fin s q))) (7 * q) = _
  have : FP.sgn (FP.fin false 7) = false := by decide
  rw [this, Bool.false_xor]

theorem toI16_fin {s : Bool} {q : ℚ} (h : |q| ≤ maxQ) : toI16 (F := IEEE m) (FP.fin s q) = .ok (FP.truncQ q) := by
  unfold toI16
  show (match FP.truncR (FP.fin s q) with
    | some n => if -32768 ≤ n ∧ n < 32768 then (.ok n : Exec Int) else .error .floatToInt
    | none => .error .floatToInt) = _
  simp only [FP.truncR]
  have := truncQ_abs h
  have e : ⌊maxQ⌋ = 31128 := by unfold maxQ; rw [Int.floor_eq_iff]; norm_num
  rw [e, abs_le] at this
  rw [if_pos (by omega)]

theorem shortSample_eq (x : FP) (hx : x ≠ .nan) : shortSample (F := IEEE m) x = .ok (FP.truncQ (scaled x)) := by
  unfold shortSample
  dsimp only
  rw [negMax_ieee, maxAmplitude_ieee]
  cases x with
  | nan => exact absurd rfl hx
  | inf s =>
    have e : (mul (lit 7 1) (FP.inf s) : IEEE m) = FP.inf s := by
      rw [seven_ieee]
      cases s
      · exact (show (FP.mulR F32 (FP.fin false 7) (FP.inf false)) = FP.inf false by decide +kernel)
      · exact (show (FP.mulR F32 (FP.fin false 7) (FP.inf true)) = FP.inf true by decide +kernel)
    rw [e]
    cases s
    · exact (toI16_fin (m := m) (s := false) (q := maxQ) (by rw [abs_of_pos maxQ_pos]))
    · exact (toI16_fin (m := m) (s := true) (q := -maxQ) (by rw [abs_neg, abs_of_pos maxQ_pos]))
  | fin s q =>
    have e := clip_round (FP.sgn (FP.fin s q)) (7 * q)
    rw [mul7]
    refine (congrArg (toI16 (F := IEEE m)) e).trans ?_
    exact toI16_fin (clampQ_abs maxQ_pos.le)

theorem shortSample_nan : shortSample (F := IEEE m) FP.nan = .error .floatToInt := by
  have h : shortSample (F := IEEE libm0) FP.nan = .error .floatToInt := by decide +kernel
  exact h

theorem scaled_abs (x : FP) : |scaled x| ≤ maxQ := by
  have := maxQ_pos
  cases x with
  | nan => exact (by rw [show scaled .nan = 0 from rfl, abs_zero]; exact this.le)
  | inf s => cases s <;> simp [scaled, abs_of_pos this]
  | fin s q => exact clampQ_abs this.le

theorem scaled_mono {x y : FP} (h : FP.leB x y = true) : scaled x ≤ scaled y := by
  have := maxQ_pos
  have lo : ∀ z, -maxQ ≤ scaled z := fun z => (abs_le.1 (scaled_abs z)).1
  have hi : ∀ z, scaled z ≤ maxQ := fun z => (abs_le.1 (scaled_abs z)).2
  cases x with
  | nan => exact absurd h (by simp [FP.leB])
  | inf s =>
    cases s with
    | true => exact lo y
    | false =>
      cases y with
      | nan => exact absurd h (by simp [FP.leB])
      | inf t => cases t <;> simp_all [FP.leB]
      | fin t b => exact absurd h (by simp [FP.leB])
  | fin s a =>
    cases y with
    | nan => exact absurd h (by simp [FP.leB])
    | inf t =>
      cases t with
      | false => exact hi _
      | true => exact absurd h (by simp [FP.leB])
    | fin t b =>
      have hab : a ≤ b := by simpa [FP.leB] using h
      exact clampQ_mono (rnd_mono F32_p (by linarith))

theorem scaled_neg (x : FP) : scaled (FP.neg x) = -scaled x := by
  cases x with
  | nan => rfl
  | inf s => cases s <;> simp [scaled, FP.neg]
  | fin s q =>
    show clampQ maxQ (rnd F32 (7 * -q)) = _
    rw [mul_neg, rnd_neg, clampQ_neg maxQ_pos.le]
    rfl

/-! ## The SSE2 variant -/

theorem sse2_of_scaled {s : Bool} {q : ℚ} (h : |q| ≤ maxQ) : packs (cvtt (F := IEEE m) (FP.fin s q)) = FP.truncQ q := by
  have := truncQ_abs h
  have e : ⌊maxQ⌋ = 31128 := by unfold maxQ; rw [Int.floor_eq_iff]; norm_num
  rw [e, abs_le] at this
  have e1 : cvtt (F := IEEE m) (FP.fin s q) = FP.truncQ q := by
    unfold cvtt
    show (if -2147483648 ≤ FP.truncQ q ∧ FP.truncQ q < 2147483648 then FP.truncQ q else -2147483648) = _
    rw [if_pos (by omega)]
  rw [e1]
  unfold packs
  rw [if_neg (by omega), if_neg (by omega)]

theorem mulR_seven (x : FP) : FP.mulR F32 x (FP.fin false 7) = FP.mulR F32 (FP.fin false 7) x := by
  cases x with
  | nan => rfl
  | inf s => cases s <;> decide +kernel
  | fin s q =>
    show FP.round F32 _ _ = FP.round F32 _ _
    rw [Bool.xor_comm, mul_comm]

theorem mul7' (x : IEEE m) : (mul x (lit 7 1) : IEEE m) = mul (lit 7 1) x := by
  rw [seven_ieee]
  exact mulR_seven x

/-- `min(max(z, -max), max)` as the two instructions compute it. -/
def sse2Clip (z : FP) : FP :=
  let a := if FP.ltB (FP.fin true (-maxQ)) z = true then z else FP.fin true (-maxQ)
  if FP.ltB a (FP.fin false maxQ) = true then a else FP.fin false maxQ

theorem sse2Clip_inf (s : Bool) : sse2Clip (FP.inf s) = FP.fin s (if s then -maxQ else maxQ) := by
  cases s <;> decide +kernel

theorem sse2Clip_fin (t : Bool) (r : ℚ) : ∃ u, sse2Clip (FP.fin t r) = FP.fin u (clampQ maxQ r) := by
  have hM := maxQ_pos
  have e1 : FP.ltB (FP.fin true (-maxQ)) (FP.fin t r) = decide (-maxQ < r) := rfl
  have e2 : FP.ltB (FP.fin t r) (FP.fin false maxQ) = decide (r < maxQ) := rfl
  have e3 : FP.ltB (FP.fin true (-maxQ)) (FP.fin false maxQ) = true := by decide +kernel
  unfold sse2Clip clampQ
  dsimp only
  rw [e1]
  by_cases h : -maxQ < r
  · rw [decide_eq_true h, if_pos rfl, e2]
    by_cases h' : r < maxQ
    · rw [decide_eq_true h', if_pos rfl, min_eq_right h'.le, max_eq_right h.le]
      exact ⟨t, rfl⟩
    · rw [decide_eq_false h', if_neg Bool.false_ne_true, min_eq_left (not_lt.1 h'), max_eq_right (by linarith)]
      exact ⟨false, rfl⟩
  · rw [decide_eq_false h, if_neg Bool.false_ne_true, e3, if_pos rfl, min_eq_right (by linarith), max_eq_left (not_lt.1 h)]
    exact ⟨true, rfl⟩

theorem sse2Clip_round (s : Bool) (q : ℚ) : ∃ u, sse2Clip (FP.round F32 s q) = FP.fin u (clampQ maxQ (rnd F32 q)) := by
  have hM := maxQ_pos
  have hlt := maxQ_lt
  unfold FP.round
  by_cases h0 : q = 0
  · subst h0
    rw [if_pos rfl, rnd_zero]
    exact sse2Clip_fin s 0
  · rw [if_neg h0]
    dsimp only
    have sg : (q < 0 → rnd F32 q ≤ 0) ∧ (0 < q → 0 ≤ rnd F32 q) := by
      refine ⟨fun h => ?_, fun h => rnd_nonneg h.le⟩
      have := rnd_nonneg (f := F32) (q := -q) (by linarith)
      rw [rnd_neg] at this
      linarith
    by_cases hb : pow2 F32.emax ≤ |rnd F32 q|
    · rw [if_pos hb, sse2Clip_inf]
      refine ⟨_, congrArg _ ?_⟩
      unfold clampQ
      rcases lt_or_gt_of_ne h0 with hq | hq
      · rw [abs_of_nonpos (sg.1 hq)] at hb
        rw [decide_eq_true hq, if_pos rfl, min_eq_right (by linarith), max_eq_left (by linarith)]
      · rw [abs_of_nonneg (sg.2 hq)] at hb
        rw [if_neg (by rw [decide_eq_true_eq]; linarith), min_eq_left (by linarith), max_eq_right (by linarith)]
    · rw [if_neg hb]
      exact sse2Clip_fin _ _

theorem shortSampleSse2_clip (x : IEEE m) : shortSampleSse2 x = packs (cvtt (F := IEEE m) (sse2Clip (mul (lit 7 1) x : IEEE m))) := by
  unfold shortSampleSse2
  dsimp only
  rw [minSse2_ieee, maxAmplitude_ieee, mul7' (m := m) x]
  rfl

theorem shortSampleSse2_eq (x : FP) (hx : x ≠ .nan) : shortSampleSse2 (F := IEEE m) x = FP.truncQ (scaled x) := by
  refine (shortSampleSse2_clip (m := m) x).trans ?_
  cases x with
  | nan => exact absurd rfl hx
  | inf s =>
    have e : (mul (lit 7 1) (FP.inf s) : IEEE m) = FP.inf s := by
      rw [seven_ieee]
      cases s
      · exact (show (FP.mulR F32 (FP.fin false 7) (FP.inf false)) = FP.inf false by decide +kernel)
      · exact (show (FP.mulR F32 (FP.fin false 7) (FP.inf true)) = FP.inf true by decide +kernel)
    refine (congrArg (fun z => packs (cvtt (F := IEEE m) (sse2Clip z))) e).trans ?_
    refine (congrArg (fun z => packs (cvtt (F := IEEE m) z)) (sse2Clip_inf s)).trans ?_
    exact sse2_of_scaled (scaled_abs (FP.inf s))
  | fin s q =>
    refine (congrArg (fun z => packs (cvtt (F := IEEE m) (sse2Clip z))) (mul7 s q)).trans ?_
    obtain ⟨u, hu⟩ := sse2Clip_round (FP.sgn (FP.fin s q)) (7 * q)
    refine (congrArg (fun z => packs (cvtt (F := IEEE m) z)) hu).trans ?_
    exact sse2_of_scaled (scaled_abs (FP.fin s q))

theorem shortSampleSse2_nan : shortSampleSse2 (F := IEEE m) FP.nan = -31128 := by
  have h : shortSampleSse2 (F := IEEE libm0) FP.nan = -31128 := by decide +kernel
  exact h

/-! ## Clipping -/

/-- The value of `(32767.0f * 0.95f) / 7.0f`. -/
def clipQ : ℚ := 4553677 / 1024

theorem softClip_ieee : (softClip : IEEE m) = FP.fin false clipQ := by
  have h : (softClip : IEEE libm0) = IEEE.mk (FP.fin false clipQ) := by decide +kernel
  exact h

theorem clipQ_pos : 0 < clipQ := by unfold clipQ; norm_num

/-- Clipping on data. -/
def clipR (x : FP) : FP :=
  if FP.ltB (FP.fin false clipQ) x = true then FP.fin false clipQ
  else if FP.ltB x (FP.fin true (-clipQ)) = true then FP.fin true (-clipQ) else x

theorem clipSample_ieee (x : IEEE m) : clipSample x = clipR x := by
  unfold clipSample
  have e : (neg softClip : IEEE m) = FP.fin true (-clipQ) := by
    rw [softClip_ieee]
    exact (show FP.neg (FP.fin false clipQ) = FP.fin true (-clipQ) by decide +kernel)
  rw [e, softClip_ieee]
  rfl

theorem clipR_inf (s : Bool) : clipR (FP.inf s) = FP.fin s (if s then -clipQ else clipQ) := by cases s <;> decide +kernel

theorem clipR_fin (s : Bool) (q : ℚ) : ∃ u, clipR (FP.fin s q) = FP.fin u (clampQ clipQ q) := by
  have hM := clipQ_pos
  unfold clipR clampQ
  rw [show FP.ltB (FP.fin false clipQ) (FP.fin s q) = decide (clipQ < q) from rfl,
    show FP.ltB (FP.fin s q) (FP.fin true (-clipQ)) = decide (q < -clipQ) from rfl]
  by_cases h : clipQ < q
  · rw [decide_eq_true h, if_pos rfl, min_eq_left h.le, max_eq_right (by linarith)]
    exact ⟨false, rfl⟩
  · rw [decide_eq_false h, if_neg Bool.false_ne_true, min_eq_right (not_lt.1 h)]
    by_cases h' : q < -clipQ
    · rw [decide_eq_true h', if_pos rfl, max_eq_left h'.le]
      exact ⟨true, rfl⟩
    · rw [decide_eq_false h', if_neg Bool.false_ne_true, max_eq_right (not_lt.1 h')]
      exact ⟨s, rfl⟩

theorem clipR_cases (x : FP) : (x = .nan ∧ clipR x = .nan) ∨ (x ≠ .nan ∧ Bnd (clipR x) clipQ) := by
  have hM := clipQ_pos
  cases x with
  | nan => exact .inl ⟨rfl, rfl⟩
  | inf s =>
    refine .inr ⟨by simp, _, ⟨_, clipR_inf s⟩, ?_⟩
    cases s
    · exact le_of_eq (abs_of_pos hM)
    · exact le_of_eq (by rw [if_pos rfl, abs_neg, abs_of_pos hM])
  | fin s q =>
    obtain ⟨u, hu⟩ := clipR_fin s q
    exact .inr ⟨by simp, _, ⟨u, hu⟩, clampQ_abs hM.le⟩

/-! ## Loops that rewrite a buffer in place -/

theorem inPlace_loop {α : Type} {n : Nat} (f : α → α) (a : Arr n α) :
    loop n (fun i (a : Arr n α) => do a.wr i (f (← a.rd i))) a = .ok (fun i => f (a i)) := by
  have key : ∀ k, k ≤ n → loop k (fun i (a : Arr n α) => do a.wr i (f (← a.rd i))) a =
      .ok (fun i => if i.val < k then f (a i) else a i) := by
    intro k
    induction k with
    | zero =>
      intro _
      have : (fun i : Fin n => if i.val < 0 then f (a i) else a i) = a := funext fun i => if_neg (by omega)
      rw [this]; rfl
    | succ k ih =>
      intro hk
      rw [loop_succ, ih (by omega), ok_bind, Arr.rd_nat (show k < n by omega), ok_bind,
        Arr.wr_nat (show k < n by omega)]
      refine congrArg _ (funext fun j => ?_)
      by_cases e : j.val = k
      · rw [Arr.set_same e]
        have : (⟨k, by omega⟩ : Fin n) = j := Fin.ext e.symm
        rw [this, if_neg (by omega), if_pos (by omega)]
      · rw [Arr.set_ne e]
        by_cases e' : j.val < k
        · rw [if_pos e', if_pos (by omega)]
        · rw [if_neg e', if_neg (by omega)]
  rw [key n (le_refl n)]
  exact congrArg _ (funext fun i => if_pos i.isLt)

theorem clipBuffer_eq {F : Type} [Arith F] (a : Arr 160 F) : clipBuffer a = .ok (fun i => clipSample (a i)) :=
  inPlace_loop clipSample a

/-! ## Comfort noise -/

theorem javaStep_eq (s : Nat) : javaStep s = (s * 0x5DEECE66D + 0xB) % 2 ^ 48 := by
  unfold javaStep javaMult
  rw [Nat.mod_mod_of_dvd _ (show 2 ^ 48 ∣ 2 ^ 64 by decide), Nat.add_mod, Nat.mod_mod_of_dvd _ (show 2 ^ 48 ∣ 2 ^ 64 by decide),
    ← Nat.add_mod]

theorem javaState_lt (seed k : Nat) : javaState seed k < 2 ^ 48 := by
  cases k with
  | zero => exact Nat.mod_lt _ (by decide)
  | succ k => exact Nat.mod_lt _ (by decide)

theorem javaNext24_lt (seed k : Nat) : javaNext seed 24 k < 2 ^ 24 := by
  unfold javaNext
  have := javaState_lt seed (k + 1)
  rw [Nat.div_lt_iff_lt_mul (by decide)]
  exact this

/-- The generator is in the state after `k` draws. -/
def ComfortAt {F : Type} (seed k : Nat) (t : Tls F) : Prop := t.comfortSeeded = true ∧ t.comfortSeed48 = javaState seed k

section
variable {F : Type} [Arith F]

theorem javaNext24_at {seed k : Nat} {t : Tls F} (h : ComfortAt seed k t) :
    javaNext24 t = (javaNext seed 24 k, { t with comfortSeed48 := javaState seed (k + 1), comfortSeeded := true }) := by
  have e : javaStep (javaState seed k) = javaState seed (k + 1) := javaStep_eq _
  unfold javaNext24
  dsimp only
  rw [h.1, if_pos rfl, h.2, e, Nat.shiftRight_eq_div_pow]
  rfl

theorem comfortNoisef_at {seed k : Nat} {t : Tls F} (h : ComfortAt seed k t) (buf : Arr 160 F) :
    comfortNoisef buf t = .ok (fun i => comfortSample (javaNext seed 24 (k + i.val)),
      { t with comfortSeed48 := javaState seed (k + 160), comfortSeeded := true }) := by
  unfold comfortNoisef
  have key : ∀ n, n ≤ 160 → loop n (fun i (s : Arr 160 F × Tls F) => do
      let (v, t) := javaNext24 s.2
      .ok (← s.1.wr i (comfortSample v), t)) (buf, t) =
      .ok (fun i => if i.val < n then comfortSample (javaNext seed 24 (k + i.val)) else buf i,
        { t with comfortSeed48 := javaState seed (k + n), comfortSeeded := true }) := by
    intro n
    induction n with
    | zero =>
      intro _
      have e : (fun i : Fin 160 => if i.val < 0 then comfortSample (javaNext seed 24 (k + i.val)) else buf i) = buf :=
        funext fun i => if_neg (by omega)
      rw [e]
      show Except.ok (buf, t) = _
      rw [Nat.add_zero, ← h.2, ← h.1]
    | succ n ih =>
      intro hn
      rw [loop_succ, ih (by omega), ok_bind]
      have h' : ComfortAt seed (k + n) { t with comfortSeed48 := javaState seed (k + n), comfortSeeded := true } := ⟨rfl, rfl⟩
      dsimp only
      rw [javaNext24_at h', Arr.wr_nat (show n < 160 by omega), ok_bind]
      refine congrArg Except.ok (Prod.ext (funext fun j => ?_) rfl)
      show Arr.set (fun i : Fin 160 => if i.val < n then comfortSample (javaNext seed 24 (k + i.val)) else buf i) n
        (comfortSample (javaNext seed 24 (k + n))) j =
        if j.val < n + 1 then comfortSample (javaNext seed 24 (k + j.val)) else buf j
      by_cases e : j.val = n
      · refine (Arr.set_same e).trans ?_
        rw [if_pos (by omega), e]
      · refine (Arr.set_ne e).trans ?_
        by_cases e' : j.val < n
        · rw [if_pos e', if_pos (by omega)]
        · rw [if_neg e', if_neg (by omega)]
  rw [key 160 (le_refl _)]
  exact congrArg Except.ok (Prod.ext (funext fun j => if_pos j.isLt) rfl)

theorem seeded_at (seed : Nat) (t : Tls F) : ComfortAt (effectiveSeed seed) 0 (setThreadRngSeed seed t) := by
  unfold setThreadRngSeed seedComfortNoise seedUnvoicedNoise effectiveSeed
  refine ⟨rfl, ?_⟩
  show ((if (if seed = 0 then zeroSeed else seed) = 0 then zeroSeed else if seed = 0 then zeroSeed else seed) ^^^ javaMult) % 2 ^ 48 = _
  by_cases h : seed = 0
  · subst h; rfl
  · simp only [if_neg h]; rfl

/-- Without a seed the first draw uses seed 0x12345678. -/
theorem comfortNoisef_unseeded (buf : Arr 160 F) : comfortNoisef buf (Tls.start : Tls F) =
    comfortNoisef buf { (Tls.start : Tls F) with comfortSeed48 := javaState 0x12345678 0, comfortSeeded := true } := by
  unfold comfortNoisef
  have e : javaNext24 (Tls.start : Tls F) =
      javaNext24 { (Tls.start : Tls F) with comfortSeed48 := javaState 0x12345678 0, comfortSeeded := true } := rfl
  have key : ∀ n, loop (n + 1) (fun i (s : Arr 160 F × Tls F) => do
      let (v, t) := javaNext24 s.2
      .ok (← s.1.wr i (comfortSample v), t)) (buf, (Tls.start : Tls F)) =
      loop (n + 1) (fun i (s : Arr 160 F × Tls F) => do
      let (v, t) := javaNext24 s.2
      .ok (← s.1.wr i (comfortSample v), t))
        (buf, { (Tls.start : Tls F) with comfortSeed48 := javaState 0x12345678 0, comfortSeeded := true }) := by
    intro n
    induction n with
    | zero =>
      rw [loop_succ, loop_succ]
      show (Except.ok _ >>= _) = (Except.ok _ >>= _)
      rw [ok_bind, ok_bind]
      dsimp only
      rw [e]
    | succ n ih => rw [loop_succ, ih, ← loop_succ]
  exact key 159

theorem afterComfort_at {seed k : Nat} {t : Tls F} (h : ComfortAt seed k t) (j : Nat) :
    ∃ t', afterComfort j t = .ok t' ∧ ComfortAt seed (k + 160 * j) t' := by
  induction j generalizing k t with
  | zero => exact ⟨t, rfl, h⟩
  | succ j ih =>
    obtain ⟨t', h1, h2⟩ := ih (k := k + 160) (t := { t with comfortSeed48 := javaState seed (k + 160), comfortSeeded := true })
      ⟨rfl, rfl⟩
    refine ⟨t', ?_, by rw [show k + 160 * (j + 1) = k + 160 + 160 * j by omega]; exact h2⟩
    unfold afterComfort
    rw [comfortNoisef_at h, ok_bind]
    exact h1
end

/-- The value of `(0.003f * 32767.0f) / 7.0f`. -/
def gainQ : ℚ := 14725153 / 1048576

theorem comfortGain_ieee : (comfortGain : IEEE m) = FP.fin false gainQ := by
  have h : (comfortGain : IEEE libm0) = IEEE.mk (FP.fin false gainQ) := by decide +kernel
  exact h

theorem comfortSample_val {v : Nat} (hv : v < 2 ^ 24) :
    Val (comfortSample v : IEEE m) (rnd F32 ((2 * (v : ℚ) / 16777216 - 1) * gainQ)) := by
  have hv' : (v : ℚ) < 16777216 := by exact_mod_cast (show v < 16777216 from hv)
  have hv0 : (0 : ℚ) ≤ v := Nat.cast_nonneg _
  have hbig := Val.big_eq
  have p24 : pow2 (-24) = 1 / 16777216 := by rw [pow2_eq]; norm_num
  have p23 : pow2 (-23) = 1 / 8388608 := by rw [pow2_eq]; norm_num
  have h1 : Val (ofInt (v : Int) : IEEE m) ((v : Int) : ℚ) := Val.ofInt (by rw [abs_of_nonneg (by omega)]; norm_num; omega)
  have h2 : Val (lit 16777216 1 : IEEE m) 16777216 := by
    have h : (lit 16777216 1 : IEEE libm0) = IEEE.mk (FP.fin false 16777216) := by decide +kernel
    exact ⟨false, h⟩
  have h3 : Val (lit 2 1 : IEEE m) 2 := by
    have h : (lit 2 1 : IEEE libm0) = IEEE.mk (FP.fin false 2) := by decide +kernel
    exact ⟨false, h⟩
  have h4 : Val (lit 1 1 : IEEE m) 1 := by
    have h : (lit 1 1 : IEEE libm0) = IEEE.mk (FP.fin false 1) := by decide +kernel
    exact ⟨false, h⟩
  have a1 := Val.div (m := m) h1 h2 (by norm_num) (by rw [hbig, abs_of_nonneg (by push_cast; positivity)]; push_cast; linarith)
  have e1 : rnd F32 (((v : Int) : ℚ) / 16777216) = (v : ℚ) / 16777216 := by
    push_cast
    refine rnd_repr F32_p ⟨v, -24, by rw [p24]; push_cast; ring, ?_, by decide⟩
    rw [abs_of_nonneg (by omega)]
    have : (2 : Int) ^ F32.p = 16777216 := by decide
    omega
  rw [e1] at a1
  have a2 := Val.mul (m := m) a1 h3 (by rw [hbig, abs_of_nonneg (by positivity)]; linarith)
  have e2 : rnd F32 ((v : ℚ) / 16777216 * 2) = (v : ℚ) / 8388608 := by
    have : (v : ℚ) / 16777216 * 2 = v / 8388608 := by ring
    rw [this]
    refine rnd_repr F32_p ⟨v, -23, by rw [p23]; push_cast; ring, ?_, by decide⟩
    rw [abs_of_nonneg (by omega)]
    have : (2 : Int) ^ F32.p = 16777216 := by decide
    omega
  rw [e2] at a2
  have b3 : |(v : ℚ) / 8388608 - 1| ≤ 1 := by rw [abs_le]; constructor <;> linarith
  have a3 := Val.sub (m := m) a2 h4 (by rw [hbig]; linarith)
  have e3 : rnd F32 ((v : ℚ) / 8388608 - 1) = (v : ℚ) / 8388608 - 1 := by
    refine rnd_repr F32_p ⟨(v : Int) - 8388608, -23, by rw [p23]; push_cast; ring, ?_, by decide⟩
    have : (2 : Int) ^ F32.p = 16777216 := by decide
    rw [abs_le]
    omega
  rw [e3] at a3
  have a4 := Val.mul (m := m) (y := comfortGain) a3 ⟨false, comfortGain_ieee⟩ (by
    rw [hbig, abs_mul, show |gainQ| = gainQ from abs_of_pos (by unfold gainQ; norm_num)]
    unfold gainQ
    nlinarith [abs_nonneg ((v : ℚ) / 8388608 - 1)])
  have e4 : ((v : ℚ) / 8388608 - 1) * gainQ = (2 * (v : ℚ) / 16777216 - 1) * gainQ := by ring
  rw [e4] at a4
  exact a4

theorem gainQ_repr : Repr F32 gainQ :=
  ⟨14725153, -20, by rw [pow2_eq]; unfold gainQ; norm_num, by decide, by decide⟩

theorem rnd_top : rnd F32 ((2 * (16777215 : ℚ) / 16777216 - 1) * gainQ) = 14725151 / 1048576 := by decide +kernel

theorem comfortQ_range {v : Nat} (hv : v < 2 ^ 24) :
    -gainQ ≤ rnd F32 ((2 * (v : ℚ) / 16777216 - 1) * gainQ) ∧ rnd F32 ((2 * (v : ℚ) / 16777216 - 1) * gainQ) < gainQ := by
  have hv' : (v : ℚ) ≤ 16777215 := by exact_mod_cast (show v ≤ 16777215 by have : v < 16777216 := hv; omega)
  have hv0 : (0 : ℚ) ≤ v := Nat.cast_nonneg _
  have hg : 0 < gainQ := by unfold gainQ; norm_num
  constructor
  · refine le_rnd_of_repr F32_p (repr_neg gainQ_repr) ?_
    have : 0 ≤ 2 * (v : ℚ) / 16777216 := by positivity
    nlinarith
  · have := rnd_mono (f := F32) F32_p (a := (2 * (v : ℚ) / 16777216 - 1) * gainQ)
      (b := (2 * (16777215 : ℚ) / 16777216 - 1) * gainQ) (mul_le_mul_of_nonneg_right (by linarith) hg.le)
    rw [rnd_top] at this
    refine lt_of_le_of_lt this ?_
    unfold gainQ
    norm_num

theorem short_comfort {v : Nat} (hv : v < 2 ^ 24) : ∃ n : Int, shortSample (comfortSample v : IEEE m) = .ok n ∧ |n| ≤ 98 := by
  obtain ⟨s, hs⟩ := comfortSample_val (m := m) hv
  obtain ⟨h1, h2⟩ := comfortQ_range hv
  rw [hs]
  refine ⟨_, shortSample_eq _ (by simp), ?_⟩
  generalize rnd F32 ((2 * (v : ℚ) / 16777216 - 1) * gainQ) = q at h1 h2
  have hr : |rnd F32 (7 * q)| ≤ 98.5 := by
    refine abs_rnd_le F32_p ⟨197, -1, by rw [pow2_eq]; norm_num, by decide, by decide⟩ ?_
    unfold gainQ at h1 h2
    rw [abs_le]
    constructor <;> linarith
  have hc : |scaled (FP.fin s q)| ≤ 98.5 := by
    show |clampQ maxQ (rnd F32 (7 * q))| ≤ 98.5
    rw [abs_le] at hr ⊢
    unfold clampQ maxQ
    constructor
    · refine le_max_of_le_right (le_min (by norm_num) hr.1)
    · exact max_le (by norm_num) ((min_le_right _ _).trans hr.2)
  have := truncQ_abs hc
  rwa [show ⌊(98.5 : ℚ)⌋ = 98 by rw [Int.floor_eq_iff]; norm_num] at this

end Verif.Model
