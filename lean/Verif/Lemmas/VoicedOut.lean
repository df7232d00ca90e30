import Verif.Lemmas.VoicedFrame
import Verif.Lemmas.SimdSafeStep

/-!
# Rounding errors of the overlap-add and of the clipping
-/

namespace Verif.Model
open Verif Verif.Gen Verif.Spec Verif.Num Arith
variable {m : Libm}

/-! ## Overlap-add -/

/-- The values of a block. -/
noncomputable abbrev blockOf (a : Arr 256 (IEEE m)) : Arr 256 ℝ := fun i => number (a i)

theorem winAt_acc0 : ∀ k : Fin 211, rngB (winAt ((k.val : Int) - 105) : IEEE libm0) (winQ ((k.val : Int) - 105) - 1 / 2 ^ 24)
    (winQ ((k.val : Int) - 105) + 1 / 2 ^ 24) = true ∧ 0 ≤ winQ ((k.val : Int) - 105) ∧ winQ ((k.val : Int) - 105) ≤ 1 := by decide +kernel

theorem winAt_near (n : Int) : Near (1 / 2 ^ 24) 1 (winAt n : IEEE m) (winAt n : ℝ) := by
  rw [winAt_real]
  by_cases h : n < -105 ∨ n > 105
  · unfold winAt winQ
    rw [if_pos h, if_pos h]
    exact ⟨0, ⟨false, rfl⟩, by norm_num, by norm_num⟩
  · obtain ⟨a, b, c⟩ := winAt_acc0 ⟨(n + 105).toNat, by omega⟩
    have e : (((⟨(n + 105).toNat, by omega⟩ : Fin 211).val : Int) - 105) = n := by dsimp only; omega
    rw [e] at a b c
    have a' : rngB (winAt n : IEEE m) (winQ n - 1 / 2 ^ 24) (winQ n + 1 / 2 ^ 24) = true := a
    obtain ⟨q, v, h1, h2⟩ := rng_of a'
    refine ⟨q, v, ?_, ?_⟩
    · have h1' : ((winQ n - 1 / 2 ^ 24 : ℚ) : ℝ) ≤ q := by exact_mod_cast h1
      have h2' : (q : ℝ) ≤ ((winQ n + 1 / 2 ^ 24 : ℚ) : ℝ) := by exact_mod_cast h2
      push_cast at h1' h2'
      rw [abs_le]
      constructor <;> linarith
    · have b' : (0 : ℝ) ≤ winQ n := by exact_mod_cast b
      rw [abs_of_nonneg b']
      exact_mod_cast c

/-- Division by a number near `D`. -/
theorem Near.divn {e1 e2 B1 e : ℝ} {x x' : IEEE m} {y D : ℝ} {d : ℚ} (h : Near e1 B1 x y) (hd : Val x' d) (hd1 : 48 / 100 ≤ d) (hD : 48 / 100 ≤ D)
    (hdD : |(d : ℝ) - D| ≤ e2) (he1 : 0 ≤ e1) (hB1 : 0 ≤ B1) (he2 : 0 ≤ e2)
    (he : (e1 * 3 + B1 * e2 * 5) + (B1 * 3 + (e1 * 3 + B1 * e2 * 5)) / 16777216 + 1 / 2 ^ 150 ≤ e) (hb : B1 * 3 + (e1 * 3 + B1 * e2 * 5) ≤ 2 ^ 126) :
    Near e (B1 * 3) (x /ᶠ x' : IEEE m) (y / D) := by
  obtain ⟨q, v, a1, a2⟩ := h
  have hd0 : (48 / 100 : ℝ) ≤ d := by
    have : ((48 / 100 : ℚ) : ℝ) ≤ d := by exact_mod_cast hd1
    push_cast at this
    exact this
  have dp : (0 : ℝ) < d := by linarith
  have Dp : (0 : ℝ) < D := by linarith
  have i1 : |1 / (d : ℝ)| ≤ 3 := by
    rw [abs_of_nonneg (by positivity), div_le_iff₀ dp]
    linarith
  have i2 : |1 / (D : ℝ)| ≤ 3 := by
    rw [abs_of_nonneg (by positivity), div_le_iff₀ Dp]
    linarith
  have i3 : |1 / ((d : ℝ) * D)| ≤ 5 := by
    have : (48 / 100 : ℝ) * (48 / 100) ≤ d * D := mul_le_mul hd0 hD (by norm_num) dp.le
    rw [abs_of_nonneg (by positivity), div_le_iff₀ (by positivity)]
    norm_num at this
    linarith
  have k1 : |((q / d : ℚ) : ℝ) - y / D| ≤ e1 * 3 + B1 * e2 * 5 := by
    have e : ((q / d : ℚ) : ℝ) - y / D = (q - y) * (1 / d) + y * (D - d) * (1 / (d * D)) := by
      push_cast
      field_simp
      ring
    rw [e]
    refine (abs_add_le _ _).trans (add_le_add ?_ ?_)
    · rw [abs_mul]
      exact mul_le_mul a1 i1 (abs_nonneg _) he1
    · rw [abs_mul, abs_mul, abs_sub_comm]
      exact mul_le_mul (mul_le_mul a2 hdD (abs_nonneg _) hB1) i3 (abs_nonneg _) (mul_nonneg hB1 he2)
  have k2 : |y / D| ≤ B1 * 3 := by
    rw [div_eq_mul_one_div, abs_mul]
    exact mul_le_mul a2 i2 (abs_nonneg _) hB1
  have k3 : |((q / d : ℚ) : ℝ)| ≤ B1 * 3 + (e1 * 3 + B1 * e2 * 5) := by
    have := abs_sub_abs_le_abs_sub ((q / d : ℚ) : ℝ) (y / D)
    linarith
  exact ⟨_, v.div hd (by have : (0 : ℚ) < d := lt_of_lt_of_le (by norm_num) hd1
                         exact this.ne') (big_real k3 hb), near_op k1 k2 he, k2⟩

theorem readOr_near {a : Arr 256 (IEEE m)} {U : ℝ} (hU : 0 ≤ U) (h : ∀ i, Near 0 U (a i) (number (a i))) (i : Int) :
    Near 0 U (readOr a i : IEEE m) (readOr (blockOf a) i : ℝ) := by
  unfold readOr
  by_cases c : 0 ≤ i ∧ i < 256
  · rw [dif_pos c, dif_pos c]
    exact h _
  · rw [dif_neg c, dif_neg c, RealArith.lit_r _ _ (by decide)]
    exact ⟨0, ⟨false, rfl⟩, by norm_num, by simpa using hU⟩

theorem wolaSample_near {p c : Arr 256 (IEEE m)} {U : ℝ} (hU : 0 ≤ U) (hU' : U ≤ 2 ^ 100) (hp : ∀ i, Near 0 U (p i) (number (p i)))
    (hc : ∀ i, Near 0 U (c i) (number (c i))) (n : Fin 160) :
    Near (U / 2 ^ 16 + 1 / 2 ^ 100) (6 * U) (wolaSample thePlan p c n : IEEE m) (overlapAdd (blockOf p) (blockOf c) (n.val : Int)) := by
  have w1 := winAt_near (m := m) (n.val : Int)
  have w2 := winAt_near (m := m) ((n.val : Int) - 160)
  have a1 := Near.mul (e := U / 2 ^ 22 + 1 / 2 ^ 149) (B := U) w1 (readOr_near hU hp ((n.val : Int) + 128)) (by linarith) (by norm_num; linarith)
    (by norm_num at *; linarith)
  have a2 := Near.mul (e := U / 2 ^ 22 + 1 / 2 ^ 149) (B := U) w2 (readOr_near hU hc ((n.val : Int) + 128 - 160)) (by linarith) (by norm_num; linarith)
    (by norm_num at *; linarith)
  have a3 := Near.add (e := U / 2 ^ 20 + 1 / 2 ^ 145) (B := 2 * U) a1 a2 (by linarith) (by norm_num; linarith) (by norm_num at *; linarith)
  have d1 := Near.mul (e := 1 / 2 ^ 22) (B := 1) w1 w1 (by norm_num) (by norm_num) (by norm_num)
  have d2 := Near.mul (e := 1 / 2 ^ 22) (B := 1) w2 w2 (by norm_num) (by norm_num) (by norm_num)
  have d3 := Near.add (e := 1 / 2 ^ 20) (B := 2) d1 d2 (by norm_num) (by norm_num) (by norm_num)
  obtain ⟨d, vd, d4, _⟩ := denomVal (m := m) n
  obtain ⟨d', vd', d5, _⟩ := d3
  have e : d' = d := by
    obtain ⟨s, hs⟩ := vd
    obtain ⟨s', hs'⟩ := vd'
    have hs : (winAt (n.val : Int) *ᶠ winAt (n.val : Int) +ᶠ winAt ((n.val : Int) - 160) *ᶠ winAt ((n.val : Int) - 160) : IEEE m) = FP.fin s d := hs
    rw [hs] at hs'
    exact (FP.fin.inj hs').2.symm
  subst e
  have hD := denom_real n
  have := Near.divn (e := U / 2 ^ 16 + 1 / 2 ^ 100) a3 vd' d4 hD d5 (by positivity) (by positivity) (by norm_num) (by norm_num; linarith)
    (by norm_num at *; linarith)
  have k : Near (U / 2 ^ 16 + 1 / 2 ^ 100) (2 * U * 3) (wolaSample thePlan p c n : IEEE m) (overlapAdd (blockOf p) (blockOf c) (n.val : Int)) := by
    unfold overlapAdd
    rw [show (n.val : Int) - 160 + 128 = (n.val : Int) + 128 - 160 by ring]
    exact this
  exact k.mono le_rfl (by linarith)

/-! ## Clipping -/

theorem clipTo_lip (b x y : ℝ) : |clipTo b x - clipTo b y| ≤ |x - y| := by
  unfold clipTo
  have h1 := abs_max_sub_max_le_max (-b) (min b x) (-b) (min b y)
  have h2 := abs_min_sub_min_le_max b x b y
  have z1 : max |-b - -b| |min b x - min b y| = |min b x - min b y| := by rw [sub_self, abs_zero]; exact max_eq_right (abs_nonneg _)
  have z2 : max |b - b| |x - y| = |x - y| := by rw [sub_self, abs_zero]; exact max_eq_right (abs_nonneg _)
  rw [z1] at h1
  rw [z2] at h2
  exact h1.trans h2

theorem clipTo_edge (b b' x : ℝ) : |clipTo b x - clipTo b' x| ≤ |b - b'| := by
  unfold clipTo
  have h1 := abs_max_sub_max_le_max (-b) (min b x) (-b') (min b' x)
  refine h1.trans (max_le ?_ ?_)
  · rw [show -b - -b' = -(b - b') by ring, abs_neg]
  · exact (abs_min_sub_min_le_max _ _ _ _).trans (by simp)

theorem clip_near {e B : ℝ} {x : IEEE m} {y : ℝ} (h : Near e B x y) :
    ∃ v : ℚ, Val (clipSample x : IEEE m) v ∧ |(v : ℝ) - clipTo (32767 * (95 / 100) / 7) y| ≤ e + 1 / 5000 := by
  obtain ⟨q, vq, h1, _⟩ := h
  rw [show clipSample (F := IEEE m) x = clipR x from clipSample_ieee (m := m) x]
  obtain ⟨s, rfl⟩ := vq
  obtain ⟨u, hu⟩ := clipR_fin s q
  refine ⟨_, ⟨u, hu⟩, ?_⟩
  have e1 : ((clampQ clipQ q : ℚ) : ℝ) = clipTo (clipQ : ℝ) q := by
    unfold clampQ clipTo
    push_cast
    rfl
  rw [e1]
  have k1 := clipTo_lip (clipQ : ℝ) q y
  have k2 := clipTo_edge (clipQ : ℝ) (32767 * (95 / 100) / 7) y
  have k3 : |(clipQ : ℝ) - 32767 * (95 / 100) / 7| ≤ 1 / 5000 := by
    unfold clipQ
    rw [abs_le]
    constructor <;> norm_num
  have k4 := abs_sub_le (clipTo (clipQ : ℝ) q) (clipTo (clipQ : ℝ) y) (clipTo (32767 * (95 / 100) / 7) y)
  linarith

/-! ## A frame -/

/-- The phases of the two sets after the update. -/
theorem phases_near {nuv L : Int} {cw pw x z psi phi : IEEE m} {c p : ℚ} {l : Fin 57} (hc : Val cw c) (hp : Val pw p)
    (c0 : 0 ≤ c) (c1 : c ≤ 5 / 8) (p0 : 0 ≤ p) (p1 : p ≤ 5 / 8) (hx : Bnd x (32 + 100 * l.val)) (hz : Bnd z (2 ^ 16))
    (hL : 9 ≤ L) (hL' : L ≤ 56) (hu : 0 ≤ nuv) (hu' : nuv ≤ L + 1)
    (hpsi : psi = wrapPhase x +ᶠ ((pw +ᶠ cw) *ᶠ (ofInt ((l.val : Int) * 160) /ᶠ lit 2 1)))
    (hphi : ((l.val : Int) ≤ L.tdiv 4 ∧ phi = psi) ∨
      (¬ (l.val : Int) ≤ L.tdiv 4 ∧ phi = psi +ᶠ ((ofInt nuv *ᶠ ((whiteScalar *ᶠ z) -ᶠ fpi)) /ᶠ ofInt L))) :
    AngleWithin (2 / 1000) (number psi) (number x + l.val * ((p : ℝ) + c) * 80) ∧
    ((l.val : Int) ≤ L / 4 → phi = psi) ∧
    (¬ (l.val : Int) ≤ L / 4 → |number phi - (number psi + (nuv : ℝ) / L * (2 * Real.pi / 53125 * number z - Real.pi))| ≤ 1 / 1000) ∧
    Bnd psi (32 + 100 * l.val) ∧ Bnd phi (32 + 100 * l.val) := by
  have hl56 : (l.val : ℝ) ≤ 56 := by exact_mod_cast (by omega : l.val ≤ 56)
  have hl0 : (0 : ℝ) ≤ l.val := Nat.cast_nonneg _
  have rl : ∀ {a : ℚ}, 0 ≤ a → a ≤ 5 / 8 → |(a : ℝ)| ≤ 5 / 8 := by
    intro a h0 h1
    have h0' : ((0 : ℚ) : ℝ) ≤ a := by exact_mod_cast h0
    have h1' : (a : ℝ) ≤ ((5 / 8 : ℚ) : ℝ) := by exact_mod_cast h1
    push_cast at h0' h1'
    rw [abs_of_nonneg (by linarith)]
    exact h1'
  have nc : Near 0 (5 / 8) cw (c : ℝ) := ⟨c, hc, by simp, rl c0 c1⟩
  have np : Near 0 (5 / 8) pw (p : ℝ) := ⟨p, hp, by simp, rl p0 p1⟩
  have nx : Near 0 5632 x (number x) := near_self hx (by push_cast; linarith)
  have nz : Near 0 65536 z (number z) := near_self hz (by norm_num)
  obtain ⟨J, hJ⟩ := psi_near (show l.val ≤ 56 by omega) nx nc np
  rw [← hpsi] at hJ
  have e4 : L.tdiv 4 = L / 4 := Int.tdiv_eq_ediv_of_nonneg (by omega)
  rw [e4] at hphi
  have bpsi : Bnd psi ((6.4 : ℚ) + 100 * l.val) := hJ.bnd (by push_cast; linarith)
  have up : ∀ {a : ℚ}, a ≤ 32 → a + 100 * (l.val : ℚ) ≤ 32 + 100 * l.val := fun h => by linarith
  refine ⟨⟨-J, ?_⟩, fun h => ?_, fun h => ?_, bpsi.mono (up (by norm_num)), ?_⟩
  · have := hJ.number
    push_cast
    rw [show number x + l.val * ((p : ℝ) + c) * 80 + 2 * Real.pi * -(J : ℝ) = number x - 2 * Real.pi * J + l.val * (p + c) * 80 by ring]
    exact this
  · rcases hphi with h' | h'
    · exact h'.2
    · exact absurd h h'.1
  · rcases hphi with h' | h'
    · exact absurd h'.1 h
    · have n1 := near_self bpsi (B := 6.4 + 100 * l.val) (by push_cast; linarith)
      have n2 := Near.addr (e := 1 / 1000) (B := 19.5 + 100 * l.val) n1 (jitter_near hL hL' hu hu' nz) (by linarith) (by norm_num; linarith)
        (by norm_num; linarith)
      rw [← h'.2] at n2
      exact n2.number
  · rcases hphi with h' | h'
    · rw [h'.2]; exact bpsi.mono (up (by norm_num))
    · have n1 := near_self bpsi (B := 6.4 + 100 * l.val) (by push_cast; linarith)
      have n2 := Near.addr (e := 1 / 1000) (B := 19.5 + 100 * l.val) n1 (jitter_near hL hL' hu hu' nz) (by linarith) (by norm_num; linarith)
        (by norm_num; linarith)
      rw [← h'.2] at n2
      exact n2.bnd (by push_cast; linarith)

theorem unvoicedCount_le {L : Int} (h0 : 0 ≤ L) (Vl : Arr 57 Int) : (unvoicedCount L Vl : Int) ≤ L + 1 := by
  unfold unvoicedCount
  have : (Finset.univ.filter fun l : Fin 57 => (l.val : Int) ≤ L ∧ Vl l = 0).card ≤ (Finset.range (L.toNat + 1)).card := by
    refine Finset.card_le_card_of_injOn (fun l : Fin 57 => l.val) (fun l hl => ?_) fun a _ b _ h => Fin.ext h
    have hl := (Finset.mem_filter.1 (Finset.mem_coe.1 hl)).2
    exact Finset.mem_coe.2 (Finset.mem_range.2 (by dsimp only; omega))
  rw [Finset.card_range] at this
  omega

/-- The part of a frame before the voiced synthesis: noise, number of unvoiced bands, extension to the same number of bands, phases. -/
def Front (cur prev : Parms (IEEE m)) (t : Tls (IEEE m)) (nr : NoiseRes (IEEE m)) (nuv : Int) (cur2 prev2 : Parms (IEEE m)) (maxl : Int) : Prop :=
  noiseOverlap (Arr.const 256 (fi 0)) cur.noiseSeed cur.noiseOverlap t = .ok nr ∧ countUv cur.L cur.Vl = .ok nuv ∧
  ∃ cur1 prev1 : Parms (IEEE m),
    (if cur.L > prev.L then do .ok ({ cur with noiseSeed := nr.seed, noiseOverlap := nr.overlap }, ← extendBands prev.L cur.L prev, cur.L)
      else do .ok (← extendBands cur.L prev.L { cur with noiseSeed := nr.seed, noiseOverlap := nr.overlap }, prev, prev.L) :
        Exec (Parms (IEEE m) × Parms (IEEE m) × Int)) = .ok (cur1, prev1, maxl) ∧
    phaseUpdate nr.buf nuv cur.w0 prev.w0 cur1 prev1 = .ok (cur2, prev2)

theorem Front.unique {cur prev : Parms (IEEE m)} {t : Tls (IEEE m)} {nr nr' : NoiseRes (IEEE m)} {nuv nuv' : Int}
    {c p c' p' : Parms (IEEE m)} {k k' : Int} (h : Front cur prev t nr nuv c p k) (h' : Front cur prev t nr' nuv' c' p' k') :
    nr' = nr ∧ nuv' = nuv ∧ c' = c ∧ p' = p ∧ k' = k := by
  obtain ⟨a1, a2, x, y, a3, a4⟩ := h
  obtain ⟨b1, b2, x', y', b3, b4⟩ := h'
  rw [a1] at b1
  cases b1
  rw [a2] at b2
  cases b2
  rw [a3] at b3
  cases b3
  rw [a4] at b4
  cases b4
  exact ⟨rfl, rfl, rfl, rfl, rfl⟩

/-- A frame with a given oscillator and a given unvoiced synthesis. -/
def synthWith (osc : Nat → IEEE m → IEEE m → IEEE m → IEEE m → IEEE m → Arr 160 (IEEE m) → Exec (Arr 160 (IEEE m)))
    (uv : Plan (IEEE m) → Arr 256 (IEEE m) → Parms (IEEE m) → Parms (IEEE m) → Arr 160 (IEEE m) → Exec (Arr 160 (IEEE m) × Arr 256 (IEEE m)))
    (E : Env (IEEE m)) (cur prev : Parms (IEEE m)) (t : Tls (IEEE m)) : Exec (SynthRes (IEEE m)) := do
  let nr ← noiseOverlap (Arr.const 256 (fi 0)) cur.noiseSeed cur.noiseOverlap t
  let cur := { cur with noiseSeed := nr.seed, noiseOverlap := nr.overlap }
  let t := nr.tls
  let numUv ← countUv cur.L cur.Vl
  let cw0 := cur.w0
  let pw0 := prev.w0
  let out : Arr 160 (IEEE m) := Arr.const 160 (fi 0)
  let (cur, prev, maxl) ←
    (if cur.L > prev.L then do .ok (cur, ← extendBands prev.L cur.L prev, cur.L)
    else do .ok (← extendBands cur.L prev.L cur, prev, prev.L))
  let (cur, prev) ← phaseUpdate nr.buf numUv cw0 pw0 cur prev
  let out ← loopTo 1 maxl (voicedBandWith osc cw0 pw0 cur prev) out
  let (plan, t) ← getPlan E t
  match plan with
  | some P => do
    let r ← uv P nr.buf cur prev out
    .ok ⟨← clipBuffer r.1, { cur with previousUw := r.2 }, prev, t⟩
  | none => do .ok ⟨← clipBuffer out, cur, prev, t⟩

theorem synthUnmuted_with (E : Env (IEEE m)) (cur prev : Parms (IEEE m)) (t : Tls (IEEE m)) :
    synthUnmuted E cur prev t = synthWith windowedOsc (unvoiced E) E cur prev t := by
  unfold synthUnmuted synthWith
  rw [voicedBand_with]
  refine bind_congr fun nr => bind_congr fun nuv => bind_congr fun e => bind_congr fun q => bind_congr fun out => bind_congr fun g => ?_
  obtain ⟨plan, t1⟩ := g
  cases plan <;> rfl

/-- An unvoiced synthesis that overlap-adds its block to the samples. -/
def Overlaps (uv : Plan (IEEE m) → Arr 256 (IEEE m) → Parms (IEEE m) → Parms (IEEE m) → Arr 160 (IEEE m) → Exec (Arr 160 (IEEE m) × Arr 256 (IEEE m))) :
    Prop :=
  ∀ noise cur prev out, Post (uv thePlan noise cur prev out) fun r => wolaFast thePlan prev.previousUw r.2 out = .ok r.1

/-- What a frame leaves behind, without its samples. -/
def FrameFacts (E : Env (IEEE m)) (cur prev : Parms (IEEE m)) (t : Tls (IEEE m)) (r : SynthRes (IEEE m)) : Prop :=
      (r.cur.L = cur.L ∧ r.cur.w0 = cur.w0 ∧ r.cur.Ml = (widened cur prev).Ml ∧ r.cur.Vl = (widened cur prev).Vl) ∧
      (r.prev.L = prev.L ∧ r.prev.w0 = prev.w0 ∧ r.prev.Ml = (widened prev cur).Ml ∧ r.prev.Vl = (widened prev cur).Vl ∧
        r.prev.PHIl = prev.PHIl ∧ r.prev.previousUw = prev.previousUw) ∧
      (∃ nr, noiseOverlap (Arr.const 256 (fi 0)) cur.noiseSeed cur.noiseOverlap t = .ok nr ∧ r.cur.noiseSeed = nr.seed ∧
        r.cur.noiseOverlap = nr.overlap ∧ AllMag 16 nr.overlap ∧ ∀ l : Fin 57, 1 ≤ l.val →
        AngleWithin (2 / 1000) (number (r.cur.PSIl l)) (number (prev.PSIl l) + l.val * (number prev.w0 + number cur.w0) * 80) ∧
        ((l.val : Int) ≤ cur.L / 4 → r.cur.PHIl l = r.cur.PSIl l) ∧
        (¬ (l.val : Int) ≤ cur.L / 4 → |number (r.cur.PHIl l) - (number (r.cur.PSIl l) +
          unvoicedCount cur.L cur.Vl / cur.L * (2 * Real.pi / 53125 * number (nr.buf ⟨l.val, by omega⟩) - Real.pi))| ≤ 1 / 1000)) ∧
      PhasesOk r.cur ∧ (E.alloc = true → r.tls.plan ≠ none) ∧ (r.tls.plan ≠ none → E.alloc = true ∨ t.plan ≠ none)

/-- The samples of a frame, with the exact contributions `x` of the harmonics. -/
def FrameSamples (cur prev : Parms (IEEE m)) (x : Fin 57 → Fin 160 → ℝ) (r : SynthRes (IEEE m)) : Prop :=
        (∀ l : Fin 57, 1 ≤ l.val → (l.val : Int) ≤ max cur.L prev.L →
          ContributionWithin (1 / 2 ^ 20) (1 / 1000) (valuesOf r.cur) (valuesOf r.prev) l (x l)) ∧
        (∀ l : Fin 57, l.val < 1 ∨ max cur.L prev.L < l.val → x l = fun _ => 0) ∧
        (r.tls.plan = none → ∀ n, ∃ v : ℚ, Val (r.out n) v ∧ |(v : ℝ) - clipTo (32767 * (95 / 100) / 7) (∑ l, x l n)| ≤
          (voicedSum (max cur.L prev.L) (valuesOf r.prev) + voicedSum (max cur.L prev.L) (valuesOf r.cur)) / 140 + 1 / 4000) ∧
        (r.tls.plan ≠ none → ∀ U : ℚ, U ≤ 2 ^ 100 → (∀ i, Bnd (r.prev.previousUw i) U) → (∀ i, Bnd (r.cur.previousUw i) U) →
          ∀ n, ∃ v : ℚ, Val (r.out n) v ∧ |(v : ℝ) - clipTo (32767 * (95 / 100) / 7) (∑ l, x l n +
              overlapAdd (valuesOf r.prev).previousUw (valuesOf r.cur).previousUw (n.val : Int))| ≤
            (voicedSum (max cur.L prev.L) (valuesOf r.prev) + voicedSum (max cur.L prev.L) (valuesOf r.cur)) / 140 + U / 2 ^ 15 + 1 / 4000)

/-- A frame in binary32: the exact contributions do not depend on the oscillator and the unvoiced synthesis. -/
theorem synthWith_near (hm : TrigAcc m) {cur prev : Parms (IEEE m)} {t : Tls (IEEE m)} (hc : OrdinarySet cur) (hp : OrdinarySet prev)
    (hph : PhasesOk prev) (hL : 9 ≤ cur.L ∧ cur.L ≤ 56) (hpL : 9 ≤ prev.L ∧ prev.L ≤ 56) (ht : PlanOk t) :
    ∃ x : Fin 57 → Fin 160 → ℝ, ∀ {E : Env (IEEE m)} {osc uv}, OscNear osc → Overlaps uv →
      Post (synthWith osc uv E cur prev t) fun r => FrameFacts E cur prev t r ∧ FrameSamples cur prev x r := by
  by_cases hfr : ∃ nr nuv c p k, Front cur prev t nr nuv c p k
  swap
  · refine ⟨fun _ _ => 0, fun {E osc uv} _ _ r h => absurd ?_ hfr⟩
    unfold synthWith at h
    obtain ⟨nr, e1, h⟩ := bind_ok h
    obtain ⟨nuv, e2, h⟩ := bind_ok h
    obtain ⟨⟨cur1, prev1, maxl⟩, e3, h⟩ := bind_ok h
    obtain ⟨⟨cur2, prev2⟩, e4, h⟩ := bind_ok h
    exact ⟨nr, nuv, cur2, prev2, maxl, e1, e2, cur1, prev1, e3, e4⟩
  obtain ⟨nr, nuv, cur2, prev2, maxl, hfr⟩ := hfr
  have hfr0 := hfr
  obtain ⟨e1, e2, cur1, prev1, e3, e4⟩ := hfr0
  obtain ⟨qc, vc, c00, c1⟩ := hc.w0
  obtain ⟨qp, vp, p00, p1⟩ := hp.w0
  have c0 : 0 ≤ qc := by rcases c00 with h | h <;> linarith
  have p0 : 0 ≤ qp := by rcases p00 with h | h <;> linarith
  have ov16 : AllMag 16 cur.noiseOverlap := fun i => (hc.noise i).mono (by rw [pow2_eq]; norm_num)
  obtain ⟨nb, no⟩ := noiseOverlap_mag (AllMag.const (Mag.fi0 (m := m) _)) ov16 nr e1
  have hext : cur1 = { widened cur prev with noiseSeed := nr.seed, noiseOverlap := nr.overlap } ∧ prev1 = widened prev cur ∧
      maxl = max cur.L prev.L := by
    by_cases hl : cur.L > prev.L
    · rw [if_pos hl] at e3
      obtain ⟨q, e, e3⟩ := bind_ok e3
      have := extendBands_eq _ _ _ (by omega) hL.2 q e
      obtain ⟨rfl, rfl, rfl⟩ : _ ∧ _ ∧ _ := by simpa only [Prod.mk.injEq] using ok_inj e3
      refine ⟨?_, this, (max_eq_left hl.le).symm⟩
      rw [widened_self cur prev hl.le]
    · rw [if_neg hl] at e3
      obtain ⟨q, e, e3⟩ := bind_ok e3
      have := extendBands_eq _ _ _ (by omega) hpL.2 q e
      obtain ⟨rfl, rfl, rfl⟩ : _ ∧ _ ∧ _ := by simpa only [Prod.mk.injEq] using ok_inj e3
      refine ⟨this, ?_, (max_eq_right (by omega)).symm⟩
      rw [widened_self prev cur (by omega)]
  obtain ⟨rfl, rfl, rfl⟩ := hext
  obtain ⟨h1, h2, h3⟩ := phaseUpdate_eq _ _ _ _ _ _ _ e4
  dsimp only at h1 h2 h3
  have wc : cur2.w0 = cur.w0 := by rw [h1]; rfl
  have wp : prev2.w0 = prev.w0 := by rw [h2]; rfl
  have hcur : cur2.L = cur.L ∧ cur2.w0 = cur.w0 ∧ cur2.Ml = (widened cur prev).Ml ∧ cur2.Vl = (widened cur prev).Vl := by
    refine ⟨?_, wc, ?_, ?_⟩ <;> rw [h1] <;> rfl
  have hprev : prev2.L = prev.L ∧ prev2.w0 = prev.w0 ∧ prev2.Ml = (widened prev cur).Ml ∧ prev2.Vl = (widened prev cur).Vl ∧
        prev2.PHIl = prev.PHIl ∧ prev2.previousUw = prev.previousUw := by
    refine ⟨?_, wp, ?_, ?_, ?_, ?_⟩ <;> rw [h2] <;> rfl
  have hnuv := countUv_eq _ _ hL.2 nuv e2
  have nle := unvoicedCount_le (show 0 ≤ cur.L by omega) cur.Vl
  have hphs : ∀ l : Fin 57, 1 ≤ l.val →
      AngleWithin (2 / 1000) (number (cur2.PSIl l)) (number (prev.PSIl l) + l.val * ((qp : ℝ) + qc) * 80) ∧
      ((l.val : Int) ≤ cur.L / 4 → cur2.PHIl l = cur2.PSIl l) ∧
      (¬ (l.val : Int) ≤ cur.L / 4 → |number (cur2.PHIl l) - (number (cur2.PSIl l) +
        (nuv : ℝ) / cur.L * (2 * Real.pi / 53125 * number (nr.buf ⟨l.val, by omega⟩) - Real.pi))| ≤ 1 / 1000) ∧
      Bnd (cur2.PSIl l) (32 + 100 * l.val) ∧ Bnd (cur2.PHIl l) (32 + 100 * l.val) := fun l hl => by
    obtain ⟨_, g2, g3⟩ := h3 l hl
    exact phases_near (nuv := nuv) (L := cur.L) (z := nr.buf ⟨l.val, by omega⟩) (phi := cur2.PHIl l) vc vp c0 c1 p0 p1
      (hph l hl).2 ((nb _).mono (by rw [pow2_eq]; norm_num)) hL.1 hL.2 (by omega) (by omega) g2 g3
  have hph2 : ∃ nr, noiseOverlap (Arr.const 256 (fi 0)) cur.noiseSeed cur.noiseOverlap t = .ok nr ∧ cur2.noiseSeed = nr.seed ∧
        cur2.noiseOverlap = nr.overlap ∧ AllMag 16 nr.overlap ∧ ∀ l : Fin 57, 1 ≤ l.val →
        AngleWithin (2 / 1000) (number (cur2.PSIl l)) (number (prev.PSIl l) + l.val * (number prev.w0 + number cur.w0) * 80) ∧
        ((l.val : Int) ≤ cur.L / 4 → cur2.PHIl l = cur2.PSIl l) ∧
        (¬ (l.val : Int) ≤ cur.L / 4 → |number (cur2.PHIl l) - (number (cur2.PSIl l) +
          unvoicedCount cur.L cur.Vl / cur.L * (2 * Real.pi / 53125 * number (nr.buf ⟨l.val, by omega⟩) - Real.pi))| ≤ 1 / 1000) := by
    refine ⟨nr, e1, by rw [h1], by rw [h1], no, fun l hl => ?_⟩
    obtain ⟨g1, g2, g3, _⟩ := hphs l hl
    refine ⟨?_, g2, fun hq => ?_⟩
    · rw [Val.number vc, Val.number vp]
      exact g1
    · have := g3 hq
      rw [hnuv] at this
      push_cast at this
      exact this
  have hok : PhasesOk cur2 := fun l hl => ⟨(hphs l hl).2.2.2.2, (hphs l hl).2.2.2.1⟩
  have ext0 : Bnd (lit 0 1 : IEEE m) (2 ^ 32) := ⟨0, ⟨false, rfl⟩, by norm_num⟩
  have hbands : Bands (max cur.L prev.L) cur2 prev2 := by
    refine ⟨⟨qc, by rw [wc]; exact vc, c00, c1⟩, ⟨qp, by rw [wp]; exact vp, p0, p1⟩, fun l hl => ⟨(hok l hl).1, ?_⟩, fun l hl hl2 hv => ?_,
      fun l hl hl2 hv => ?_⟩
    · rw [hprev.2.2.2.2.1]; exact (hph l hl).1
    · rw [hcur.2.2.1]
      rw [hcur.2.2.2] at hv
      by_cases c : cur.L < l.val ∧ (l.val : Int) ≤ prev.L
      · rw [show (widened cur prev).Ml l = lit 0 1 from if_pos c]; exact ext0
      · rw [show (widened cur prev).Ml l = cur.Ml l from if_neg c]
        rw [show (widened cur prev).Vl l = cur.Vl l from if_neg c] at hv
        exact hc.ml l hl (by omega) hv
    · rw [hprev.2.2.1]
      rw [hprev.2.2.2.1] at hv
      by_cases c : prev.L < l.val ∧ (l.val : Int) ≤ cur.L
      · rw [show (widened prev cur).Ml l = lit 0 1 from if_pos c]; exact ext0
      · rw [show (widened prev cur).Ml l = prev.Ml l from if_neg c]
        rw [show (widened prev cur).Vl l = prev.Vl l from if_neg c] at hv
        exact hp.ml l hl (by omega) hv
  obtain ⟨x, hx1, hx2, hx3⟩ := voiced_sum_near hm (by omega) (by omega) hbands
  refine ⟨x, fun {E osc uv} hosc huv r h => ?_⟩
  unfold synthWith at h
  obtain ⟨nr', e1', h⟩ := bind_ok h
  obtain ⟨nuv', e2', h⟩ := bind_ok h
  obtain ⟨⟨cur1', prev1', maxl'⟩, e3', h⟩ := bind_ok h
  obtain ⟨⟨cur2', prev2'⟩, e4', h⟩ := bind_ok h
  obtain ⟨out, e5, h⟩ := bind_ok h
  obtain ⟨⟨plan, t1⟩, e6, h⟩ := bind_ok h
  obtain ⟨u1, u2, u3, u4, u5⟩ := hfr.unique ⟨e1', e2', cur1', prev1', e3', e4'⟩
  subst u1 u2 u3 u4 u5
  dsimp only at e5 e6 h
  rw [show cur.w0 = cur2'.w0 from wc.symm, show prev.w0 = prev2'.w0 from wp.symm] at e5
  have hx3 := hx3 hosc out e5
  have hW := ampBelow_le hbands (by omega)
  rw [ampBelow_eq cur2' prev2' (n := max cur.L prev.L) (by omega)] at hx3 hW
  have hW0 : 0 ≤ voicedSum (max cur.L prev.L) (valuesOf prev2') + voicedSum (max cur.L prev.L) (valuesOf cur2') := by
    rw [← ampBelow_eq cur2' prev2' (n := max cur.L prev.L) (by omega)]
    exact ampBelow_nonneg _ _ _
  cases plan with
  | none =>
    dsimp only at h
    rw [clipBuffer_eq, ok_bind] at h
    rw [← ok_inj h]
    have hpn : E.alloc = false ∧ t1.plan = none := by
      unfold getPlan at e6
      split at e6
      · cases ok_inj e6
      · rename_i hn
        split at e6
        · obtain ⟨_, _, e6⟩ := bind_ok e6
          cases ok_inj e6
        · rename_i ha
          have e := congrArg Prod.snd (ok_inj e6)
          dsimp only at e
          rw [← e]
          exact ⟨by simpa using ha, hn⟩
    refine ⟨⟨hcur, hprev, hph2, hok, fun ha => ?_, fun ha => absurd hpn.2 ha⟩, hx1, hx2, fun _ n => ?_, fun ha => absurd hpn.2 ha⟩
    · rw [hpn.1] at ha
      cases ha
    · dsimp only
      obtain ⟨v, vv, hv⟩ := clip_near (hx3 n)
      refine ⟨v, vv, hv.trans ?_⟩
      generalize voicedSum (max cur.L prev.L) (valuesOf prev2') + voicedSum (max cur.L prev.L) (valuesOf cur2') = W at *
      unfold accErr
      norm_num
      linarith
  | some P =>
    dsimp only at h
    obtain ⟨u, e7, h⟩ := bind_ok h
    rw [clipBuffer_eq, ok_bind] at h
    rw [← ok_inj h]
    have hpl : nr'.tls.plan = t.plan := by
      rw [noiseOverlap_frame _ _ _ _ _ e1]
    have hP : (E.alloc = true ∨ t.plan ≠ none) ∧ t1.plan ≠ none ∧ P = thePlan := by
      unfold getPlan at e6
      split at e6
      · rename_i p hp'
        have e := congrArg Prod.fst (ok_inj e6)
        have e' := congrArg Prod.snd (ok_inj e6)
        dsimp only at e e'
        refine ⟨.inr (by rw [← hpl, hp']; simp), by rw [← e', hp']; simp, ?_⟩
        rw [← Option.some.inj e]
        exact ht p (hpl ▸ hp')
      · split at e6
        · rename_i ha
          rw [planFill_eq, ok_bind] at e6
          have e := congrArg Prod.fst (ok_inj e6)
          have e' := congrArg Prod.snd (ok_inj e6)
          dsimp only at e e'
          exact ⟨.inl ha, by rw [← e']; simp, (Option.some.inj e).symm⟩
        · cases ok_inj e6
    refine ⟨⟨hcur, hprev, hph2, hok, fun _ => hP.2.1, fun _ => hP.1⟩, hx1, hx2, fun ha => absurd ha hP.2.1, fun _ U hU b1 b2 n => ?_⟩
    · rw [hP.2.2] at e7
      have hw : wolaFast thePlan _ u.2 out = .ok u.1 := huv _ _ _ _ u e7
      rw [wolaFast_eq] at hw
      dsimp only at b1 b2 ⊢
      rw [← ok_inj hw]
      beta_reduce
      rw [if_pos (denomTab n)]
      have hU0 : (0 : ℝ) ≤ U := by
        obtain ⟨q, _, hq⟩ := b1 0
        exact_mod_cast (abs_nonneg q).trans hq
      have hU' : (U : ℝ) ≤ 2 ^ 100 := by
        have : (U : ℝ) ≤ ((2 ^ 100 : ℚ) : ℝ) := by exact_mod_cast hU
        push_cast at this
        exact this
      have k1 := wolaSample_near hU0 hU' (fun i => near_self (b1 i) le_rfl) (fun i => near_self (b2 i) le_rfl) n
      have k0 := hx3 n
      have k2 := Near.addr (e := (voicedSum (max cur.L prev.L) (valuesOf prev2') + voicedSum (max cur.L prev.L) (valuesOf cur2')) / 145 + U / 2 ^ 15 + 1 / 2 ^ 50)
        (B := 2 * (voicedSum (max cur.L prev.L) (valuesOf prev2') + voicedSum (max cur.L prev.L) (valuesOf cur2')) + 6 * U) k0 k1 le_rfl
        (by
          generalize voicedSum (max cur.L prev.L) (valuesOf prev2') + voicedSum (max cur.L prev.L) (valuesOf cur2') = W at *
          unfold accErr
          norm_num
          linarith)
        (by
          generalize voicedSum (max cur.L prev.L) (valuesOf prev2') + voicedSum (max cur.L prev.L) (valuesOf cur2') = W at *
          unfold accErr
          norm_num at hW hU' ⊢
          linarith)
      obtain ⟨v, vv, hv⟩ := clip_near k2
      refine ⟨v, vv, hv.trans ?_⟩
      change _ ≤ (voicedSum (max cur.L prev.L) (valuesOf prev2') + voicedSum (max cur.L prev.L) (valuesOf cur2')) / 140 + (U : ℝ) / 2 ^ 15 + 1 / 4000
      generalize voicedSum (max cur.L prev.L) (valuesOf prev2') + voicedSum (max cur.L prev.L) (valuesOf cur2') = W at *
      have : (1:ℝ) / 2 ^ 50 + 1 / 5000 ≤ 1 / 4000 := by norm_num
      linarith

theorem overlaps_scalar (E : Env (IEEE m)) : Overlaps (unvoiced E) := fun noise cur prev out => unvoiced_wola E thePlan noise cur prev out

/-- A frame in binary32. -/
theorem synthUnmuted_near (hm : TrigAcc m) {E : Env (IEEE m)} {cur prev : Parms (IEEE m)} {t : Tls (IEEE m)} (hc : OrdinarySet cur) (hp : OrdinarySet prev)
    (hph : PhasesOk prev) (hL : 9 ≤ cur.L ∧ cur.L ≤ 56) (hpL : 9 ≤ prev.L ∧ prev.L ≤ 56) (ht : PlanOk t) :
    Post (synthUnmuted E cur prev t) fun r =>
      (r.cur.L = cur.L ∧ r.cur.w0 = cur.w0 ∧ r.cur.Ml = (widened cur prev).Ml ∧ r.cur.Vl = (widened cur prev).Vl) ∧
      (r.prev.L = prev.L ∧ r.prev.w0 = prev.w0 ∧ r.prev.Ml = (widened prev cur).Ml ∧ r.prev.Vl = (widened prev cur).Vl ∧
        r.prev.PHIl = prev.PHIl ∧ r.prev.previousUw = prev.previousUw) ∧
      (∃ nr, noiseOverlap (Arr.const 256 (fi 0)) cur.noiseSeed cur.noiseOverlap t = .ok nr ∧ r.cur.noiseSeed = nr.seed ∧
        r.cur.noiseOverlap = nr.overlap ∧ AllMag 16 nr.overlap ∧ ∀ l : Fin 57, 1 ≤ l.val →
        AngleWithin (2 / 1000) (number (r.cur.PSIl l)) (number (prev.PSIl l) + l.val * (number prev.w0 + number cur.w0) * 80) ∧
        ((l.val : Int) ≤ cur.L / 4 → r.cur.PHIl l = r.cur.PSIl l) ∧
        (¬ (l.val : Int) ≤ cur.L / 4 → |number (r.cur.PHIl l) - (number (r.cur.PSIl l) +
          unvoicedCount cur.L cur.Vl / cur.L * (2 * Real.pi / 53125 * number (nr.buf ⟨l.val, by omega⟩) - Real.pi))| ≤ 1 / 1000)) ∧
      PhasesOk r.cur ∧ (E.alloc = true → r.tls.plan ≠ none) ∧ (r.tls.plan ≠ none → E.alloc = true ∨ t.plan ≠ none) ∧
      ∃ x : Fin 57 → Fin 160 → ℝ,
        (∀ l : Fin 57, 1 ≤ l.val → (l.val : Int) ≤ max cur.L prev.L →
          ContributionWithin (1 / 2 ^ 20) (1 / 1000) (valuesOf r.cur) (valuesOf r.prev) l (x l)) ∧
        (∀ l : Fin 57, l.val < 1 ∨ max cur.L prev.L < l.val → x l = fun _ => 0) ∧
        (r.tls.plan = none → ∀ n, ∃ v : ℚ, Val (r.out n) v ∧ |(v : ℝ) - clipTo (32767 * (95 / 100) / 7) (∑ l, x l n)| ≤
          (voicedSum (max cur.L prev.L) (valuesOf r.prev) + voicedSum (max cur.L prev.L) (valuesOf r.cur)) / 140 + 1 / 4000) ∧
        (r.tls.plan ≠ none → ∀ U : ℚ, U ≤ 2 ^ 100 → (∀ i, Bnd (r.prev.previousUw i) U) → (∀ i, Bnd (r.cur.previousUw i) U) →
          ∀ n, ∃ v : ℚ, Val (r.out n) v ∧ |(v : ℝ) - clipTo (32767 * (95 / 100) / 7) (∑ l, x l n +
              overlapAdd (valuesOf r.prev).previousUw (valuesOf r.cur).previousUw (n.val : Int))| ≤
            (voicedSum (max cur.L prev.L) (valuesOf r.prev) + voicedSum (max cur.L prev.L) (valuesOf r.cur)) / 140 + U / 2 ^ 15 + 1 / 4000) := by
  obtain ⟨x, hx⟩ := synthWith_near hm hc hp hph hL hpL ht
  intro r h
  rw [synthUnmuted_with] at h
  obtain ⟨⟨a1, a2, a3, a4, a5, a6⟩, a7⟩ := hx (osc_near hm) (overlaps_scalar E) r h
  exact ⟨a1, a2, a3, a4, a5, a6, x, a7⟩

end Verif.Model
