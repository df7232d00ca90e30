import Verif.Lemmas.Unvoiced
import Verif.Lemmas.SynthIeee
import Verif.Lemmas.Cache
import Verif.Lemmas.Pcm
import Verif.Num.Real

/-!
# Lemmas on unvoiced synthesis in IEEE and in exact arithmetic
-/

namespace Verif.Model
open Verif Verif.Gen Verif.Spec Verif.Num Arith

variable {m : Libm}

/-! ## Band edges -/

theorem halfTab0 : ∀ l : Fin 58, 1 ≤ l.val →
    IEEE.get ((ofInt (l.val : Int) : IEEE libm0) -ᶠ lit 5 10) = FP.fin false ((l.val : ℚ) - 1 / 2) ∧
      IEEE.get ((ofInt (l.val : Int) : IEEE libm0) +ᶠ lit 5 10) = FP.fin false ((l.val : ℚ) + 1 / 2) := by decide +kernel

theorem halfTab {l : Nat} (h1 : 1 ≤ l) (h2 : l < 58) :
    Val (IEEE.get ((ofInt (l : Int) : IEEE m) -ᶠ lit 5 10)) ((l : ℚ) - 1 / 2) ∧
      Val (IEEE.get ((ofInt (l : Int) : IEEE m) +ᶠ lit 5 10)) ((l : ℚ) + 1 / 2) :=
  ⟨⟨_, (halfTab0 ⟨l, h2⟩ h1).1⟩, ⟨_, (halfTab0 ⟨l, h2⟩ h1).2⟩⟩

theorem binConstVal0 : IEEE.get ((lit 256 1 /ᶠ (lit 2 1 *ᶠ lit 314159265358979323846 100000000000000000000)) : IEEE libm0) =
    FP.fin false (10680707 / 262144) := by decide +kernel

theorem rnd_nonneg {q : ℚ} (h : 0 ≤ q) : 0 ≤ rnd F32 q := by
  have := rnd_mono (f := F32) F32_p h
  rwa [rnd_zero] at this

theorem binMult_val {w : IEEE m} {q : ℚ} (hw : Val w q) (h0 : 0 ≤ q) (h1 : q ≤ 32768) :
    ∃ u : ℚ, Val (binMultiplier (F := IEEE m) w) u ∧ 0 ≤ u ∧ u ≤ 2097152 := by
  have hc : Val ((lit 256 1 /ᶠ (lit 2 1 *ᶠ lit 314159265358979323846 100000000000000000000)) : IEEE m) (10680707 / 262144) :=
    ⟨_, binConstVal0⟩
  have hb : 10680707 / 262144 * q ≤ 2097152 := by linarith
  have hn : 0 ≤ 10680707 / 262144 * q := by linarith
  refine ⟨_, hc.mul hw ?_, rnd_nonneg hn, ?_⟩
  · rw [abs_of_nonneg hn, Val.big_eq]; linarith
  · refine rnd_le_of_repr F32_p (b := 2097152) ?_ hb
    have := repr_pow2 (f := F32) (k := 21) (by decide)
    rwa [show pow2 21 = 2097152 by rw [pow2_eq]; norm_num] at this

theorem edge_val {x w : IEEE m} {h u : ℚ} (hx : Val x h) (hw : Val w u) (h0 : 0 ≤ h) (h1 : h ≤ 64) (u0 : 0 ≤ u)
    (u1 : u ≤ 2097152) : toI32 (ceil (x *ᶠ w) : IEEE m) = .ok ⌈rnd F32 (h * u)⌉ := by
  have hn : 0 ≤ h * u := mul_nonneg h0 u0
  have hb : h * u ≤ 134217728 := by nlinarith
  have hr := rnd_nonneg hn
  have hr1 : rnd F32 (h * u) ≤ 134217728 := by
    refine rnd_le_of_repr F32_p (b := 134217728) ?_ hb
    have := repr_pow2 (f := F32) (k := 27) (by decide)
    rwa [pow2_27] at this
  have hv : Val (ceil (x *ᶠ w) : IEEE m) (⌈rnd F32 (h * u)⌉ : Int) :=
    (hx.mul hw (by rw [abs_of_nonneg hn, Val.big_eq]; linarith)).ceil
  have c0 : (0 : ℚ) ≤ (⌈rnd F32 (h * u)⌉ : Int) := by exact_mod_cast Int.ceil_nonneg hr
  have c1 : ⌈rnd F32 (h * u)⌉ ≤ 134217728 := by rw [Int.ceil_le]; exact_mod_cast hr1
  rw [hv.toI32 c0 (by have : ((⌈rnd F32 (h * u)⌉ : Int) : ℚ) ≤ 134217728 := by exact_mod_cast c1
                      linarith), Int.floor_intCast]

/-- For a finite fundamental between 0 and 32768 the band edges form one nondecreasing sequence: a band ends where the
next one starts. -/
theorem edges_seq {w : IEEE m} {q : ℚ} (hw : Val w q) (h0 : 0 ≤ q) (h1 : q ≤ 32768) :
    ∃ e : Nat → Int, (∀ l, 1 ≤ l → 0 ≤ e l) ∧ (∀ l l', 1 ≤ l → l ≤ l' → e l ≤ e l') ∧
      ∀ l lo hi, 1 ≤ l → l ≤ 56 → (Edges (F := IEEE m) w l lo hi ↔ lo = e l ∧ hi = min 128 (e (l + 1))) := by
  obtain ⟨u, hu, u0, u1⟩ := binMult_val hw h0 h1
  have hpos : ∀ l : Nat, 1 ≤ l → (0 : ℚ) ≤ (l : ℚ) - 1 / 2 := by
    intro l hl
    have : (1 : ℚ) ≤ l := by exact_mod_cast hl
    linarith
  refine ⟨fun l => ⌈rnd F32 (((l : ℚ) - 1 / 2) * u)⌉, fun l hl => Int.ceil_nonneg (rnd_nonneg (mul_nonneg (hpos l hl) u0)),
    fun l l' hl h => Int.ceil_mono (rnd_mono F32_p (mul_le_mul_of_nonneg_right ?_ u0)), fun l lo hi h1 h2 => ?_⟩
  · have : (l : ℚ) ≤ l' := by exact_mod_cast h
    linarith
  · have hl56 : (l : ℚ) ≤ 56 := by exact_mod_cast h2
    have hl1 : (1 : ℚ) ≤ l := by exact_mod_cast h1
    have hh := halfTab (m := m) h1 (show l < 58 by omega)
    have ea : toI32 (ceil ((ofInt (l : Int) -ᶠ lit 5 10) *ᶠ binMultiplier w) : IEEE m) = _ := edge_val hh.1 hu (hpos l h1) (by linarith) u0 u1
    have eb : toI32 (ceil ((ofInt (l : Int) +ᶠ lit 5 10) *ᶠ binMultiplier w) : IEEE m) = _ := edge_val hh.2 hu (by linarith) (by linarith) u0 u1
    have e2 : (l : ℚ) + 1 / 2 = ((l + 1 : Nat) : ℚ) - 1 / 2 := by push_cast; ring
    rw [e2] at eb
    have nn : 0 ≤ ⌈rnd F32 (((l : ℚ) - 1 / 2) * u)⌉ := Int.ceil_nonneg (rnd_nonneg (mul_nonneg (hpos l h1) u0))
    unfold Edges
    constructor
    · rintro ⟨a, b, ha, hb, rfl, rfl⟩
      rw [ea] at ha
      rw [eb] at hb
      cases ha
      cases hb
      exact ⟨max_eq_right nn, rfl⟩
    · rintro ⟨rfl, rfl⟩
      exact ⟨_, _, ea, eb, (max_eq_right nn).symm, rfl⟩

/-! ## Overlap-add -/

/-- A finite value between two bounds. -/
def withinB (lo hi : ℚ) : FP → Bool
  | FP.fin _ q => decide (lo ≤ q ∧ q ≤ hi)
  | _ => false

theorem withinB_val {lo hi : ℚ} {x : FP} (h : withinB lo hi x = true) : ∃ q : ℚ, Val x q ∧ lo ≤ q ∧ q ≤ hi := by
  cases x with
  | nan => cases h
  | inf s => cases h
  | fin s q => exact ⟨q, ⟨s, rfl⟩, of_decide_eq_true h⟩

/-- The denominators of the overlap-add, evaluated. -/
theorem denomTab0 : ∀ n : Fin 160, lt (lit 1 10000000000) ((thePlan : Plan (IEEE libm0)).denom n) = true ∧
    withinB (48 / 100) 1 (IEEE.get ((thePlan : Plan (IEEE libm0)).denom n)) = true := by decide +kernel

theorem denomTab (n : Fin 160) : lt (lit 1 10000000000) ((thePlan : Plan (IEEE m)).denom n) = true := (denomTab0 n).1

theorem denomVal (n : Fin 160) : ∃ q : ℚ, Val (IEEE.get ((thePlan : Plan (IEEE m)).denom n)) q ∧ 48 / 100 ≤ q ∧ q ≤ 1 :=
  withinB_val (denomTab0 n).2

/-- The window as a rational table. -/
def winQ (n : Int) : ℚ :=
  if n < -105 ∨ n > 105 then 0 else (Ws_synthesis.getD (n + 105).toNat 0 : ℚ) / 1000

theorem winAt_real (n : Int) : (winAt n : ℝ) = (winQ n : ℝ) := by
  unfold winAt winQ
  split
  · rw [RealArith.lit_r _ _ (by decide)]; simp
  · rw [RealArith.lit_r]
    · unfold Ws_synthesis_den
      push_cast
      rfl
    · have : ∀ x ∈ Ws_synthesis, x ≠ (314159265358979323846 : Int) ∧ x ≠ -7071067811865475 ∧ x ≠ -1414213562373095 ∧
        x ≠ 70710678118654752440 ∧ x ≠ 141421356237309504880 := by decide +kernel
      rw [List.getD_eq_getElem?_getD]
      cases hx : Ws_synthesis[(n + 105).toNat]? with
      | none => exact (by decide)
      | some x => exact this x (List.mem_of_getElem? hx)

theorem denomQ : ∀ n : Fin 160, (48 / 100 : ℚ) ≤ winQ (n.val : Int) * winQ (n.val : Int) +
    winQ ((n.val : Int) - 160) * winQ ((n.val : Int) - 160) := by decide +kernel

theorem denom_real (n : Fin 160) : (48 / 100 : ℝ) ≤ (winAt (n.val : Int) : ℝ) * winAt (n.val : Int) +
    (winAt ((n.val : Int) - 160) : ℝ) * winAt ((n.val : Int) - 160) := by
  rw [winAt_real, winAt_real]
  have h : ((48 / 100 : ℚ) : ℝ) ≤ ((winQ (n.val : Int) * winQ (n.val : Int) +
    winQ ((n.val : Int) - 160) * winQ ((n.val : Int) - 160) : ℚ) : ℝ) := Rat.cast_le.mpr (denomQ n)
  rw [Rat.cast_add, Rat.cast_mul, Rat.cast_mul] at h
  refine le_trans (le_of_eq ?_) h
  norm_num

/-! ## The voiced part alone -/

section
variable {F : Type} [Arith F]

theorem noiseOverlap_plan (b : Arr 256 F) (sd : F) (ov : Arr 96 F) (t : Tls F) (x : Option (Plan F)) {nr : NoiseRes F}
    (h : noiseOverlap b sd ov t = .ok nr) :
    noiseOverlap b sd ov { t with plan := x } = .ok ⟨nr.buf, nr.seed, nr.overlap, { nr.tls with plan := x }⟩ := by
  unfold noiseOverlap at h ⊢
  by_cases h1 : lt sd (lit 0 1) = true
  · rw [if_pos h1] at h ⊢
    by_cases h2 : t.uvSeedOverride = true
    · rw [if_pos h2] at h
      rw [if_pos (show ({ t with plan := x } : Tls F).uvSeedOverride = true from h2), ← ok_inj h]
    · rw [if_neg h2] at h
      rw [if_neg (show ¬ ({ t with plan := x } : Tls F).uvSeedOverride = true from h2), ← ok_inj h]
  · rw [if_neg h1] at h ⊢
    obtain ⟨a1, e1, h⟩ := bind_ok h
    obtain ⟨a2, e2, h⟩ := bind_ok h
    obtain ⟨a3, e3, h⟩ := bind_ok h
    obtain ⟨a4, e4, h⟩ := bind_ok h
    rw [e1, ok_bind, e2, ok_bind]
    dsimp only
    rw [e3, ok_bind, e4, ok_bind, ← ok_inj h]

theorem unvoiced_wola (E : Env F) (P : Plan F) (noise : Arr 256 F) (cur prev : Parms F) (out : Arr 160 F) :
    Post (unvoiced E P noise cur prev out) fun r => wolaFast P prev.previousUw r.2 out = .ok r.1 := by
  intro r h
  unfold unvoiced at h
  obtain ⟨a1, e1, h⟩ := bind_ok h
  obtain ⟨a2, e2, h⟩ := bind_ok h
  obtain ⟨a3, e3, h⟩ := bind_ok h
  obtain ⟨a4, e4, h⟩ := bind_ok h
  obtain ⟨a5, e5, h⟩ := bind_ok h
  obtain ⟨a6, e6, h⟩ := bind_ok h
  rw [← ok_inj h]
  exact e6

/-- A run and the same run without an FFT plan: the second is the voiced part alone, the first adds the overlap-add of
the two unvoiced buffers before clipping. -/
theorem synthUnmuted_split (E : Env F) (cur prev : Parms F) (t : Tls F) :
    Post (synthUnmuted E cur prev t) fun r => ∃ (r' : SynthRes F) (voiced : Arr 160 F),
      synthUnmuted { E with alloc := false } cur prev { t with plan := none } = .ok r' ∧
      (∀ n, r'.out n = clipSample (voiced n)) ∧
      ((r.tls.plan = none ∧ ∀ n, r.out n = clipSample (voiced n)) ∨
        ∃ P mix, r.tls.plan = some P ∧ wolaFast P r.prev.previousUw r.cur.previousUw voiced = .ok mix ∧
          ∀ n, r.out n = clipSample (mix n)) := by
  intro r h
  unfold synthUnmuted at h
  obtain ⟨nr, e1, h⟩ := bind_ok h
  obtain ⟨nuv, e2, h⟩ := bind_ok h
  obtain ⟨⟨cur1, prev1, maxl⟩, e3, h⟩ := bind_ok h
  obtain ⟨⟨cur2, prev2⟩, e4, h⟩ := bind_ok h
  obtain ⟨out, e5, h⟩ := bind_ok h
  obtain ⟨⟨plan, t1⟩, e6, h⟩ := bind_ok h
  dsimp only at e2 e3 e4 e5 e6 h
  refine ⟨⟨fun n => clipSample (out n), cur2, prev2, { nr.tls with plan := none }⟩, out, ?_, fun n => rfl, ?_⟩
  · unfold synthUnmuted
    rw [noiseOverlap_plan _ _ _ t none e1, ok_bind]
    dsimp only
    rw [e2, ok_bind, e3, ok_bind]
    dsimp only
    rw [e4, ok_bind]
    dsimp only
    rw [e5, ok_bind]
    unfold getPlan
    dsimp only
    rw [if_neg Bool.false_ne_true, ok_bind]
    dsimp only
    rw [clipBuffer_eq, ok_bind]
  · cases plan with
    | none =>
      dsimp only at h
      rw [clipBuffer_eq, ok_bind] at h
      rw [← ok_inj h]
      refine .inl ⟨?_, fun n => rfl⟩
      unfold getPlan at e6
      split at e6
      · cases ok_inj e6
      · rename_i hp
        split at e6
        · obtain ⟨a, _, e6⟩ := bind_ok e6
          cases ok_inj e6
        · have := congrArg Prod.snd (ok_inj e6)
          dsimp only at this
          rw [← this]
          exact hp
    | some P =>
      dsimp only at h
      obtain ⟨u, e7, h⟩ := bind_ok h
      rw [clipBuffer_eq, ok_bind] at h
      rw [← ok_inj h]
      refine .inr ⟨P, u.1, ?_, unvoiced_wola _ _ _ _ _ _ u e7, fun n => rfl⟩
      unfold getPlan at e6
      split at e6
      · rename_i hp
        have := ok_inj e6
        have h1 := congrArg Prod.snd this
        have h2 := congrArg Prod.fst this
        dsimp only at h1 h2
        rw [← h1, hp, ← h2]
      · split at e6
        · obtain ⟨a, _, e6⟩ := bind_ok e6
          have := ok_inj e6
          have h1 := congrArg Prod.snd this
          have h2 := congrArg Prod.fst this
          dsimp only at h1 h2
          rw [← h1, ← h2]
        · cases ok_inj e6

end

/-! ## NaN -/

theorem add_nan {x y : FP} (h : FP.addR F32 x y = FP.nan) :
    x = FP.nan ∨ y = FP.nan ∨ ∃ s, x = FP.inf s ∧ y = FP.inf (!s) := by
  cases x with
  | nan => exact .inl rfl
  | inf s =>
    cases y with
    | nan => exact .inr (.inl rfl)
    | inf t =>
      right; right
      refine ⟨s, rfl, ?_⟩
      cases s <;> cases t <;> first | rfl | cases h
    | fin t b => cases h
  | fin s a =>
    cases y with
    | nan => exact .inr (.inl rfl)
    | inf t => cases h
    | fin t b =>
      exfalso
      revert h
      show FP.round F32 _ _ = FP.nan → False
      unfold FP.round
      split
      · intro h; cases h
      · dsimp only
        split <;> (intro h; cases h)

theorem zero_add_nan {y : FP} : FP.addR F32 (FP.fin false 0) y = FP.nan ↔ y = FP.nan := by
  constructor
  · intro h
    rcases add_nan h with h | h | ⟨s, h, _⟩
    · cases h
    · exact h
    · cases h
  · rintro rfl
    rfl

end Verif.Model
