import Verif.Lemmas.Pcm
import Verif.Lemmas.SynthIeee

/-!
# Noise generators
-/

namespace Verif.Model
open Verif Verif.Gen Verif.Num Verif.Spec Arith
set_option linter.unusedSectionVars false

section
variable {F : Type} [Arith F]

theorem lcgSeq_lt (x0 k : Nat) : lcgSeq x0 k < 53125 := by
  cases k with
  | zero => exact Nat.mod_lt _ (by decide)
  | succ k => exact Nat.mod_lt _ (by decide)

theorem lcgStep_seq (x0 k : Nat) : lcgStep (lcgSeq x0 k) = lcgSeq x0 (k + 1) := by
  have := lcgSeq_lt x0 k
  unfold lcgStep
  show _ = (171 * lcgSeq x0 k + 11213) % 53125
  rw [Nat.mod_eq_of_lt (show 171 * lcgSeq x0 k < 2 ^ 32 by omega),
    Nat.mod_eq_of_lt (show 171 * lcgSeq x0 k + 11213 < 2 ^ 32 by omega)]

theorem lcgSeq_add (x0 a k : Nat) : lcgSeq (lcgSeq x0 a) k = lcgSeq x0 (a + k) := by
  induction k with
  | zero => exact Nat.mod_eq_of_lt (lcgSeq_lt x0 a)
  | succ k ih => show (171 * lcgSeq (lcgSeq x0 a) k + 11213) % 53125 = (171 * lcgSeq x0 (a + k) + 11213) % 53125; rw [ih]

/-- A loop that writes consecutive members of the sequence. -/
theorem lcg_fill {n : Nat} (buf : Arr n F) (off x0 : Nat) (k : Nat) (hk : off + k ≤ n) :
    loop k (fun i (s : Arr n F × Nat) => do
      .ok (← s.1.wr ((off + i : Nat) : Int) (ofInt (s.2 : Int)), lcgStep s.2)) (buf, x0 % 53125) =
    .ok (fun i => if off ≤ i.val ∧ i.val < off + k then ofInt ((lcgSeq x0 (i.val - off) : Nat) : Int) else buf i,
      lcgSeq x0 k) := by
  induction k with
  | zero =>
    refine congrArg Except.ok (Prod.ext (funext fun i => ?_) rfl)
    exact (if_neg (by omega)).symm
  | succ k ih =>
    rw [loop_succ, ih (by omega), ok_bind]
    dsimp only
    rw [Arr.wr_nat (show off + k < n by omega), ok_bind, lcgStep_seq]
    refine congrArg Except.ok (Prod.ext (funext fun j => ?_) rfl)
    dsimp only
    by_cases e : j.val = off + k
    · refine (Arr.set_same e).trans ?_
      rw [if_pos (by omega), e, Nat.add_sub_cancel_left]
    · refine (Arr.set_ne e).trans ?_
      by_cases e' : off ≤ j.val ∧ j.val < off + k
      · rw [if_pos e', if_pos (by omega)]
      · rw [if_neg e', if_neg (by omega)]

theorem noiseLcg_eq {n x : Nat} (buf : Arr n F) {seed : F} (h : toU32 seed = .ok x) :
    noiseLcg n buf seed = .ok (fun i => ofInt ((lcgSeq x i.val : Nat) : Int), ofInt ((lcgSeq x n : Nat) : Int)) := by
  unfold noiseLcg
  rw [h, ok_bind]
  have := lcg_fill buf 0 x n (by omega)
  dsimp only
  have e : loop n (fun i (s : Arr n F × Nat) => do
      .ok (← s.1.wr i (ofInt (s.2 : Int)), lcgStep s.2)) (buf, x % 53125) = loop n (fun i (s : Arr n F × Nat) => do
      .ok (← s.1.wr ((0 + i : Nat) : Int) (ofInt (s.2 : Int)), lcgStep s.2)) (buf, x % 53125) :=
    loop_congr fun i _ => funext fun s => by rw [Nat.zero_add]
  rw [e, this, ok_bind]
  refine congrArg Except.ok (Prod.ext (funext fun j => ?_) rfl)
  exact if_pos (by omega)

/-- Copying a block between arrays. -/
theorem copy_loop {α : Type} {n k : Nat} (g : Nat → α) (src : Nat → Exec α) (hs : ∀ i, i < k → src i = .ok (g i))
    (a : Arr n α) (hk : k ≤ n) :
    loop k (fun i (a : Arr n α) => do a.wr i (← src i)) a = .ok (fun i => if i.val < k then g i.val else a i) := by
  induction k with
  | zero => exact congrArg Except.ok (funext fun i => (if_neg (by omega)).symm)
  | succ k ih =>
    rw [loop_succ, ih (fun i hi => hs i (by omega)) (by omega), ok_bind, hs k (by omega), ok_bind,
      Arr.wr_nat (show k < n by omega)]
    refine congrArg Except.ok (funext fun j => ?_)
    by_cases e : j.val = k
    · refine (Arr.set_same e).trans ?_
      rw [if_pos (by omega), e]
    · refine (Arr.set_ne e).trans ?_
      by_cases e' : j.val < k
      · rw [if_pos e', if_pos (by omega)]
      · rw [if_neg e', if_neg (by omega)]

/-- One call that continues a stream. -/
theorem noiseOverlap_eq {x : Nat} (buf : Arr 256 F) {seed : F} (ov : Arr 96 F) (t : Tls F)
    (h0 : lt seed (lit 0 1) = false) (h : toU32 seed = .ok x) :
    noiseOverlap buf seed ov t = .ok ⟨fun i => if c : i.val < 96 then ov ⟨i.val, c⟩ else ofInt ((lcgSeq x (i.val - 96) : Nat) : Int),
      ofInt ((lcgSeq x 160 : Nat) : Int), fun i => ofInt ((lcgSeq x (i.val + 64) : Nat) : Int), t⟩ := by
  unfold noiseOverlap
  rw [h0, if_neg Bool.false_ne_true,
    copy_loop (fun i => if c : i < 96 then ov ⟨i, c⟩ else lit 0 1) (fun i => ov.rd i)
      (fun i hi => by rw [Arr.rd_nat hi, dif_pos hi]) buf (by omega), ok_bind, h, ok_bind]
  dsimp only
  unfold loopFT
  rw [show 255 + 1 - 96 = 160 from rfl, lcg_fill _ 96 x 160 (by omega), ok_bind]
  dsimp only
  rw [copy_loop (fun i => ofInt ((lcgSeq x (i + 64) : Nat) : Int)) _ (fun i hi => ?_) ov (le_refl _), ok_bind]
  · congr 2
    · funext j
      by_cases e : j.val < 96
      · rw [if_neg (by omega), if_pos e, dif_pos e, dif_pos e]
      · rw [if_pos (by omega), dif_neg e]
    · funext j
      rw [if_pos j.isLt]
  · rw [Arr.rd_ok (by omega) (by omega)]
    have e : (160 + (i : Int)).toNat = 160 + i := by omega
    dsimp only
    rw [if_pos (by omega), e, show 160 + i - 96 = i + 64 by omega]

end

variable {m : Libm}

theorem seed_val {x : Nat} (hx : x ≤ 2 ^ 24) : Val (ofInt (x : Int) : IEEE m) (x : ℚ) := by
  have := Val.ofInt (m := m) (n := (x : Int)) (by rw [abs_of_nonneg (by omega)]; exact_mod_cast hx)
  simpa using this

theorem zero_val : Val (lit 0 1 : IEEE m) 0 := by
  have h : (lit 0 1 : IEEE libm0) = IEEE.mk (FP.fin false 0) := by decide +kernel
  exact ⟨false, h⟩

theorem lit0_eq : (lit 0 1 : IEEE m) = FP.fin false 0 := by
  have h : (lit 0 1 : IEEE libm0) = IEEE.mk (FP.fin false 0) := by decide +kernel
  exact h
theorem ofInt0_eq : (ofInt 0 : IEEE m) = FP.fin false 0 := by
  have h : (ofInt 0 : IEEE libm0) = IEEE.mk (FP.fin false 0) := by decide +kernel
  exact h

theorem seed_ok {seed : IEEE m} {q : ℚ} (hv : Val seed q) (h0 : 0 ≤ q) (h : q < 4294967296) :
    lt seed (lit 0 1) = false ∧ toU32 seed = .ok ⌊q⌋.toNat := by
  refine ⟨?_, hv.toU32 h0 h⟩
  rw [hv.lt zero_val]
  exact decide_eq_false (not_lt.2 h0)

theorem ofNat_seed_ok {x : Nat} (hx : x ≤ 2 ^ 24) :
    lt (ofInt (x : Int) : IEEE m) (lit 0 1) = false ∧ toU32 (ofInt (x : Int) : IEEE m) = .ok x := by
  have := seed_ok (m := m) (seed_val hx) (Nat.cast_nonneg _)
    (by have : (x : ℚ) ≤ 16777216 := by exact_mod_cast hx
        linarith)
  rwa [Int.floor_natCast, Int.toNat_natCast] at this

theorem noiseRes_eq {F : Type} {b b' : Arr 256 F} {s s' : F} {o o' : Arr 96 F} {t : Tls F} (hb : ∀ i, b i = b' i) (hs : s = s')
    (ho : ∀ i, o i = o' i) : (Except.ok ⟨b, s, o, t⟩ : Exec (NoiseRes F)) = .ok ⟨b', s', o', t⟩ := by
  rw [show b = b' from funext hb, hs, show o = o' from funext ho]

/-- All calls of a stream that starts from a non-negative seed. -/
theorem noiseCalls_eq {x : Nat} {seed : IEEE m} (ov : Arr 96 (IEEE m)) (t : Tls (IEEE m))
    (h0 : lt seed (lit 0 1) = false) (h : toU32 seed = .ok x) (k : Nat) :
    noiseCalls k seed ov t = .ok ⟨fun i =>
        if c : i.val < 96 then (if k = 0 then ov ⟨i.val, c⟩ else ofInt ((lcgSeq x (160 * k + i.val - 96) : Nat) : Int))
        else ofInt ((lcgSeq x (160 * k + i.val - 96) : Nat) : Int),
      ofInt ((lcgSeq x (160 * (k + 1)) : Nat) : Int),
      fun i => ofInt ((lcgSeq x (160 * k + i.val + 64) : Nat) : Int), t⟩ := by
  induction k with
  | zero =>
    unfold noiseCalls
    rw [noiseOverlap_eq _ ov t h0 h]
    refine noiseRes_eq (fun j => ?_) rfl fun j => ?_
    · by_cases c : j.val < 96
      · rw [dif_pos c, dif_pos c, if_pos rfl]
      · rw [dif_neg c, dif_neg c, Nat.mul_zero, Nat.zero_add]
    · rw [Nat.mul_zero, Nat.zero_add]
  | succ k ih =>
    unfold noiseCalls
    rw [ih, ok_bind]
    have hl := lcgSeq_lt x (160 * (k + 1))
    obtain ⟨g0, g1⟩ := ofNat_seed_ok (m := m) (x := lcgSeq x (160 * (k + 1))) (by omega)
    dsimp only
    rw [noiseOverlap_eq _ _ t g0 g1]
    refine noiseRes_eq (fun j => ?_) ?_ fun j => ?_
    · by_cases c : j.val < 96
      · rw [dif_pos c, dif_pos c, if_neg (by omega), show 160 * (k + 1) + j.val - 96 = 160 * k + j.val + 64 by omega]
      · rw [dif_neg c, dif_neg c, lcgSeq_add, show 160 * (k + 1) + j.val - 96 = 160 * (k + 1) + (j.val - 96) by omega]
    · rw [lcgSeq_add, show 160 * (k + 1) + 160 = 160 * (k + 1 + 1) by omega]
    · rw [lcgSeq_add, show 160 * (k + 1) + (j.val + 64) = 160 * (k + 1) + j.val + 64 by omega]

/-! ## The 32-bit generator -/

theorem shl_inj (k : Nat) (hk : 0 < k) {x y : Nat} (h : x ^^^ ((x <<< k) % 2 ^ 32) = y ^^^ ((y <<< k) % 2 ^ 32)) : x = y := by
  refine Nat.eq_of_testBit_eq fun i => ?_
  induction i using Nat.strong_induction_on with
  | _ i ih =>
    have hi := congrArg (fun z => Nat.testBit z i) h
    simp only [Nat.testBit_xor, Nat.testBit_mod_two_pow, Nat.testBit_shiftLeft] at hi
    by_cases c : i ≥ k
    · rw [ih (i - k) (by omega)] at hi
      exact (Bool.xor_left_inj).1 hi
    · simpa [c] using hi

theorem shr_inj (k : Nat) (hk : 0 < k) {x y : Nat} (hx : x < 2 ^ 32) (hy : y < 2 ^ 32) (h : x ^^^ (x >>> k) = y ^^^ (y >>> k)) :
    x = y := by
  have key : ∀ n i, 32 ≤ i + n → x.testBit i = y.testBit i := by
    intro n
    induction n with
    | zero =>
      intro i hi
      have : 2 ^ 32 ≤ 2 ^ i := Nat.pow_le_pow_right (by decide) (by omega)
      rw [Nat.testBit_lt_two_pow (by omega), Nat.testBit_lt_two_pow (by omega)]
    | succ n ih =>
      intro i hi
      have hi := congrArg (fun z => Nat.testBit z i) h
      simp only [Nat.testBit_xor, Nat.testBit_shiftRight] at hi
      rw [ih (k + i) (by omega)] at hi
      exact (Bool.xor_left_inj).1 hi
  exact Nat.eq_of_testBit_eq fun i => key 32 i (by omega)

theorem xorshiftStep_lt {x : Nat} (hx : x < 2 ^ 32) : xorshiftStep x < 2 ^ 32 := by
  unfold xorshiftStep
  have h1 : x ^^^ ((x <<< 13) % 2 ^ 32) < 2 ^ 32 := Nat.xor_lt_two_pow hx (Nat.mod_lt _ (by decide))
  generalize x ^^^ ((x <<< 13) % 2 ^ 32) = a at h1
  have h2 : a ^^^ (a >>> 17) < 2 ^ 32 := Nat.xor_lt_two_pow h1 (lt_of_le_of_lt (Nat.shiftRight_le _ _) h1)
  exact Nat.xor_lt_two_pow h2 (Nat.mod_lt _ (by decide))

theorem xorshiftStep_inj {x y : Nat} (hx : x < 2 ^ 32) (hy : y < 2 ^ 32) (h : xorshiftStep x = xorshiftStep y) : x = y := by
  unfold xorshiftStep at h
  have h3 := shl_inj 5 (by decide) h
  have lx : x ^^^ ((x <<< 13) % 2 ^ 32) < 2 ^ 32 := Nat.xor_lt_two_pow hx (Nat.mod_lt _ (by decide))
  have ly : y ^^^ ((y <<< 13) % 2 ^ 32) < 2 ^ 32 := Nat.xor_lt_two_pow hy (Nat.mod_lt _ (by decide))
  exact shl_inj 13 (by decide) (shr_inj 17 (by decide) lx ly h3)

theorem xorshiftStep_pos {x : Nat} (hx : x < 2 ^ 32) (h : x ≠ 0) : xorshiftStep x ≠ 0 := by
  intro h0
  exact h (xorshiftStep_inj hx (by decide) (h0.trans (show (0 : Nat) = xorshiftStep 0 by decide)))

end Verif.Model
