import Verif.Lemmas.UnvoicedSimd
import Verif.Lemmas.SimdSafeStep
import Verif.Props.UnvoicedAcc

/-!
# C80: synthesis with vectors in binary32
-/

namespace Verif.Props
open Verif Verif.Spec Verif.Model Verif.Num Verif.Gen Arith
variable {m : Libm}

/-- **The samples of a frame of the vector build in binary32**: as `C75_frame` for the scalar build. -/
theorem C80_frame (hm : TrigAcc m) (isa : Isa) (E : Env (IEEE m)) (cur prev : Parms (IEEE m)) (t : Tls (IEEE m)) (hc : OrdinarySet cur)
    (hp : OrdinarySet prev) (hph : PhasesOk prev) (hL : 9 ≤ cur.L ∧ cur.L ≤ 56) (hpL : 9 ≤ prev.L ∧ prev.L ≤ 56) (ht : CacheOk E t)
    (r : SynthRes (IEEE m)) (h : synthUnmutedSimd isa E cur prev t = .ok r) (U : ℚ) (hU : 0 ≤ U) (hU' : U ≤ 2 ^ 100)
    (hu : E.alloc = true → ∀ i, Bnd (prev.previousUw i) U ∧ Bnd (r.cur.previousUw i) U) :
    (∃ x : Fin 57 → Fin 160 → ℝ,
      (∀ l : Fin 57, 1 ≤ l.val → (l.val : Int) ≤ max cur.L prev.L →
        ContributionWithin (1 / 2 ^ 20) (1 / 1000) (valuesOf r.cur) (valuesOf r.prev) l (x l)) ∧
      (∀ l : Fin 57, l.val < 1 ∨ max cur.L prev.L < l.val → x l = fun _ => 0) ∧
      ∀ n, ∃ v : ℚ, Val (r.out n) v ∧
        |(v : ℝ) - clipTo (32767 * (95 / 100) / 7) (∑ l, x l n + if E.alloc = true then
            overlapAdd (valuesOf prev).previousUw (valuesOf r.cur).previousUw (n.val : Int) else 0)| ≤
          (voicedSum prev.L (valuesOf prev) + voicedSum cur.L (valuesOf cur)) / 140 + U / 2 ^ 15 + 1 / 4000) ∧
    r.cur.w0 = cur.w0 ∧ r.prev.w0 = prev.w0 ∧ r.prev.PHIl = prev.PHIl ∧
    (∀ l : Fin 57, (l.val : Int) ≤ cur.L → r.cur.Ml l = cur.Ml l ∧ r.cur.Vl l = cur.Vl l) ∧
    (∀ l : Fin 57, cur.L < l.val → (l.val : Int) ≤ prev.L → number (r.cur.Ml l) = 0 ∧ r.cur.Vl l = 1) ∧
    (∀ l : Fin 57, (l.val : Int) ≤ prev.L → r.prev.Ml l = prev.Ml l ∧ r.prev.Vl l = prev.Vl l) ∧
    (∀ l : Fin 57, prev.L < l.val → (l.val : Int) ≤ cur.L → number (r.prev.Ml l) = 0 ∧ r.prev.Vl l = 1) := by
  obtain ⟨x, hx⟩ := synthWith_near hm hc hp hph hL hpL (CacheOk.planOk ht)
  rw [synthUnmutedSimd_with] at h
  obtain ⟨a, b⟩ := hx (oscSimd_near hm) (overlaps_simd isa E) r h
  obtain ⟨b1, b2⟩ := frame_full ht a b hU hU' hu
  exact ⟨⟨x, b1⟩, b2⟩

theorem synthWith_state {osc osc' uv uv'} {E E' : Env (IEEE m)} {cur prev : Parms (IEEE m)} {t : Tls (IEEE m)} {r r' : SynthRes (IEEE m)}
    (h : synthWith osc uv E cur prev t = .ok r) (h' : synthWith osc' uv' E' cur prev t = .ok r') :
    { r.cur with previousUw := r'.cur.previousUw } = r'.cur ∧ r.prev = r'.prev := by
  have front : ∀ {osc uv} {E : Env (IEEE m)} {r : SynthRes (IEEE m)}, synthWith osc uv E cur prev t = .ok r →
      ∃ nr nuv c p k u, Front cur prev t nr nuv c p k ∧ r.cur = { c with previousUw := u } ∧ r.prev = p := by
    intro osc uv E r h
    unfold synthWith at h
    obtain ⟨nr, e1, h⟩ := bind_ok h
    obtain ⟨nuv, e2, h⟩ := bind_ok h
    obtain ⟨⟨cur1, prev1, maxl⟩, e3, h⟩ := bind_ok h
    obtain ⟨⟨cur2, prev2⟩, e4, h⟩ := bind_ok h
    obtain ⟨out, _, h⟩ := bind_ok h
    obtain ⟨⟨plan, t1⟩, _, h⟩ := bind_ok h
    have hf : Front cur prev t nr nuv cur2 prev2 maxl := ⟨e1, e2, cur1, prev1, e3, e4⟩
    cases plan with
    | none =>
      obtain ⟨o, _, h⟩ := bind_ok h
      rw [← ok_inj h]
      exact ⟨nr, nuv, cur2, prev2, maxl, cur2.previousUw, hf, rfl, rfl⟩
    | some P =>
      obtain ⟨u, _, h⟩ := bind_ok h
      obtain ⟨o, _, h⟩ := bind_ok h
      rw [← ok_inj h]
      exact ⟨nr, nuv, cur2, prev2, maxl, u.2, hf, rfl, rfl⟩
  obtain ⟨_, _, c, p, _, u, f, g1, g2⟩ := front h
  obtain ⟨_, _, c', p', _, u', f', g1', g2'⟩ := front h'
  obtain ⟨_, _, rfl, rfl, _⟩ := f.unique f'
  rw [g1, g2, g1', g2']
  exact ⟨rfl, rfl⟩

/-- **Both builds, from the same parameter sets**, leave the same bits in both sets, except for the unvoiced block. -/
theorem C80_state (isa : Isa) (E E' : Env (IEEE m)) (cur prev : Parms (IEEE m)) (t : Tls (IEEE m)) (r r' : SynthRes (IEEE m))
    (h : synthUnmuted E cur prev t = .ok r) (h' : synthUnmutedSimd isa E' cur prev t = .ok r') :
    { r.cur with previousUw := r'.cur.previousUw } = r'.cur ∧ r.prev = r'.prev := by
  rw [synthUnmuted_with] at h
  rw [synthUnmutedSimd_with] at h'
  exact synthWith_state h h'

/-- **Both builds, from the same parameter sets**, give samples that differ by at most twice the bound of `C75_frame` and the
difference of the overlap-adds of their unvoiced blocks. -/
theorem C80_builds (hm : TrigAcc m) (isa : Isa) (E E' : Env (IEEE m)) (hEE : E.alloc = E'.alloc) (cur prev : Parms (IEEE m)) (t : Tls (IEEE m))
    (hc : OrdinarySet cur) (hp : OrdinarySet prev) (hph : PhasesOk prev) (hL : 9 ≤ cur.L ∧ cur.L ≤ 56) (hpL : 9 ≤ prev.L ∧ prev.L ≤ 56)
    (ht : CacheOk E t) (ht' : CacheOk E' t) (r r' : SynthRes (IEEE m))
    (h : synthUnmuted E cur prev t = .ok r) (h' : synthUnmutedSimd isa E' cur prev t = .ok r') (U : ℚ) (hU : 0 ≤ U) (hU' : U ≤ 2 ^ 100)
    (hu : E.alloc = true → ∀ i, Bnd (prev.previousUw i) U ∧ Bnd (r.cur.previousUw i) U ∧ Bnd (r'.cur.previousUw i) U) (n : Fin 160) :
    ∃ v v' : ℚ, Val (r.out n) v ∧ Val (r'.out n) v' ∧
      |(v : ℝ) - v'| ≤ (voicedSum prev.L (valuesOf prev) + voicedSum cur.L (valuesOf cur)) / 70 + U / 2 ^ 14 + 1 / 2000 +
        if E.alloc = true then |overlapAdd (valuesOf prev).previousUw (valuesOf r.cur).previousUw (n.val : Int) -
          overlapAdd (valuesOf prev).previousUw (valuesOf r'.cur).previousUw (n.val : Int)| else 0 := by
  obtain ⟨x, hx⟩ := synthWith_near hm hc hp hph hL hpL (CacheOk.planOk ht)
  rw [synthUnmuted_with] at h
  rw [synthUnmutedSimd_with] at h'
  obtain ⟨a, b⟩ := hx (osc_near hm) (overlaps_scalar E) r h
  obtain ⟨a', b'⟩ := hx (oscSimd_near hm) (overlaps_simd isa E') r' h'
  obtain ⟨v, v1, v2⟩ := (frame_full ht a b hU hU' fun c i => ⟨(hu c i).1, (hu c i).2.1⟩).1.2.2 n
  obtain ⟨w, w1, w2⟩ := (frame_full ht' a' b' hU hU' fun c i => ⟨(hu (hEE.trans c) i).1, (hu (hEE.trans c) i).2.2⟩).1.2.2 n
  refine ⟨v, w, v1, w1, ?_⟩
  rw [← hEE] at w2
  by_cases c : E.alloc = true
  · rw [if_pos c] at v2 w2 ⊢
    generalize overlapAdd (valuesOf prev).previousUw (valuesOf r.cur).previousUw (n.val : Int) = y at *
    generalize overlapAdd (valuesOf prev).previousUw (valuesOf r'.cur).previousUw (n.val : Int) = y' at *
    have l := clipTo_lip (32767 * (95 / 100) / 7) (∑ l, x l n + y) (∑ l, x l n + y')
    rw [add_sub_add_left_eq_sub] at l
    generalize clipTo (32767 * (95 / 100) / 7) (∑ l, x l n + y) = p at *
    generalize clipTo (32767 * (95 / 100) / 7) (∑ l, x l n + y') = p' at *
    have t1 := abs_sub_le (v : ℝ) p w
    have t2 := abs_sub_le p p' (w : ℝ)
    rw [abs_sub_comm p' (w : ℝ)] at t2
    norm_num at *
    linarith
  · rw [if_neg c] at v2 w2 ⊢
    generalize clipTo (32767 * (95 / 100) / 7) (∑ l, x l n + 0) = p at *
    have t1 := abs_sub_le (v : ℝ) p w
    rw [abs_sub_comm p (w : ℝ)] at t1
    norm_num at *
    linarith

/-- **The stored phases of the vector build in binary32**: as `C75_phase`. -/
theorem C80_phase (hm : TrigAcc m) (isa : Isa) (E : Env (IEEE m)) (cur prev : Parms (IEEE m)) (t : Tls (IEEE m)) (hc : OrdinarySet cur)
    (hp : OrdinarySet prev) (hph : PhasesOk prev) (hL : 9 ≤ cur.L ∧ cur.L ≤ 56) (hpL : 9 ≤ prev.L ∧ prev.L ≤ 56) (ht : CacheOk E t)
    (r : SynthRes (IEEE m)) (h : synthUnmutedSimd isa E cur prev t = .ok r) :
    ∃ nr, noiseOverlap (Arr.const 256 (fi 0)) cur.noiseSeed cur.noiseOverlap t = .ok nr ∧ r.cur.noiseSeed = nr.seed ∧
      r.cur.noiseOverlap = nr.overlap ∧ ∀ l : Fin 57, 1 ≤ l.val →
        AngleWithin (2 / 1000) (number (r.cur.PSIl l)) (number (prev.PSIl l) + l.val * (number prev.w0 + number cur.w0) * 80) ∧
        (4 * (l.val : Int) ≤ cur.L → r.cur.PHIl l = r.cur.PSIl l) ∧
        (cur.L < 4 * (l.val : Int) → |number (r.cur.PHIl l) - (number (r.cur.PSIl l) +
          unvoicedCount cur.L cur.Vl / cur.L * (2 * Real.pi / 53125 * number (nr.buf ⟨l.val, by omega⟩) - Real.pi))| ≤ 1 / 1000) := by
  obtain ⟨x, hx⟩ := synthWith_near hm hc hp hph hL hpL (CacheOk.planOk ht)
  rw [synthUnmutedSimd_with] at h
  obtain ⟨⟨_, _, ⟨nr, h1, h2, h3, _, h4⟩, _⟩, _⟩ := hx (oscSimd_near hm) (overlaps_simd isa E) r h
  refine ⟨nr, h1, h2, h3, fun l hl => ?_⟩
  obtain ⟨g1, g2, g3⟩ := h4 l hl
  exact ⟨g1, fun h => g2 (by omega), fun h => g3 (by omega)⟩

/-- The parameter sets that synthesis of the vector build leaves behind, frame after frame, from the set `p`. -/
inductive LeftBySimd (isa : Isa) (E : Env (IEEE m)) (p : Parms (IEEE m)) : Parms (IEEE m) → Prop
  | start : LeftBySimd isa E p p
  | frame (prev cur : Parms (IEEE m)) (t : Tls (IEEE m)) (r : SynthRes (IEEE m)) : LeftBySimd isa E p prev → OrdinarySet cur → 9 ≤ cur.L →
      cur.L ≤ 56 → CacheOk E t → synthUnmutedSimd isa E cur prev t = .ok r → LeftBySimd isa E p r.cur

/-- **The hypotheses of `C80_frame` on the previous set hold at every frame of every run** of the vector build. -/
theorem C80_run (hm : TrigAcc m) (isa : Isa) (E : Env (IEEE m)) (p q : Parms (IEEE m)) (hp : OrdinarySet p) (hph : PhasesOk p) (h9 : 9 ≤ p.L)
    (h56 : p.L ≤ 56) (h : LeftBySimd isa E p q) : OrdinarySet q ∧ PhasesOk q ∧ 9 ≤ q.L ∧ q.L ≤ 56 := by
  induction h with
  | start => exact ⟨hp, hph, h9, h56⟩
  | frame prev cur t r _ hc c9 c56 ht h ih =>
    obtain ⟨i1, i2, i3, i4⟩ := ih
    obtain ⟨x, hx⟩ := synthWith_near hm hc i1 i2 ⟨c9, c56⟩ ⟨i3, i4⟩ (CacheOk.planOk ht)
    rw [synthUnmutedSimd_with] at h
    obtain ⟨⟨⟨l1, w1, m1, v1⟩, _, ⟨nr, _, _, ho, no, _⟩, ok, _⟩, _⟩ := hx (oscSimd_near hm) (overlaps_simd isa E) r h
    refine ⟨⟨by rw [w1]; exact hc.w0, fun l a b c => ?_, fun i => ?_⟩, ok, by omega, by omega⟩
    · rw [m1]
      rw [v1] at c
      rw [l1] at b
      rw [show (widened cur prev).Ml l = cur.Ml l from if_neg (by omega)]
      rw [show (widened cur prev).Vl l = cur.Vl l from if_neg (by omega)] at c
      exact hc.ml l a b c
    · rw [ho]
      exact (no i).mono (by rw [pow2_eq]; norm_num)

/-- **The unvoiced block of the vector build in binary32**: as `C76_block`, with the vector transforms and the vector sum of
the powers of the bins. -/
theorem C80_block (hcos : CosAcc m) (hsin : SinAcc m) (isa : Isa) (E : Env (IEEE m)) (hE : RunsV E) (P : Plan (IEEE m)) (noise : Arr 256 (IEEE m))
    (cur prev : Parms (IEEE m)) (out : Arr 160 (IEEE m)) (hL : cur.L ≤ 56) (hw : ∃ q, Val cur.w0 q ∧ (q = 0 ∨ 1 / 64 ≤ q) ∧ q ≤ 5 / 8)
    (hn : ∀ i, Bnd (noise i) (2 ^ 16)) (A : ℚ) (hA0 : 0 ≤ A) (hA1 : A ≤ 2 ^ 32) (hA : UnvoicedBnd A cur)
    (r : Arr 160 (IEEE m) × Arr 256 (IEEE m)) (h : unvoicedSimd isa E P noise cur prev out = .ok r) :
    (∀ i, ∃ q, Val (r.2 i) q) ∧ ShapedNoise (A / 10 + 1 / 2 ^ 80) (valuesOf cur) (windowed noise) (seqOf fun n => number (r.2 n)) :=
  unvoicedSimd_shape hcos hsin isa hE hL hw hn hA0 hA1 hA r h

/-- **The block that a frame of the vector build leaves in the parameter set**: as `C76_frame`. -/
theorem C80_stored (hcos : CosAcc m) (hsin : SinAcc m) (isa : Isa) (E : Env (IEEE m)) (hE : RunsV E) (cur prev : Parms (IEEE m)) (t : Tls (IEEE m))
    (hc : OrdinarySet cur) (hL : 0 ≤ cur.L ∧ cur.L ≤ 56) (hpL : prev.L ≤ 56)
    (r : SynthRes (IEEE m)) (h : synthUnmutedSimd isa E cur prev t = .ok r) :
    ∃ nr, noiseOverlap (Arr.const 256 (fi 0)) cur.noiseSeed cur.noiseOverlap t = .ok nr ∧
      (r.tls.plan = none → r.cur.previousUw = cur.previousUw) ∧
      (r.tls.plan ≠ none → ∀ A : ℚ, 0 ≤ A → A ≤ 2 ^ 32 → UnvoicedBnd A cur → (∀ i, Bnd (r.cur.previousUw i) (148 * A + 1 / 2 ^ 78)) ∧
        ShapedNoise (A / 10 + 1 / 2 ^ 80) (valuesOf cur) (windowed nr.buf) (seqOf fun n => number (r.cur.previousUw n))) := by
  rw [synthUnmutedSimd_with] at h
  exact synthWith_block (fun a b c _ d e f => unvoicedSimd_shape hcos hsin isa hE a b c d e f) hL.2 hpL hL.1 hc.w0 hc.noise r h

/-- **The power of a band** that the vector build computes is within `2^-14` of the exact one, like that of the scalar build. -/
theorem C80_power (isa : Isa) (fft : Arr 256 (IEEE m)) (x : Fin 256 → ℚ) (hv : ∀ i, Val (fft i) (x i)) (hx : ∀ i, |(x i : ℝ)| ≤ 2 ^ 30)
    (a b : ℕ) (hb : b ≤ 128) :
    ∃ (v : IEEE m) (q : ℚ), magSumSimd isa fft (a : Int) (b : Int) = .ok v ∧ Val v q ∧
      |(q : ℝ) - powerOf (binAt fun i => (x i : ℝ)) a b| ≤ powerOf (binAt fun i => (x i : ℝ)) a b / 2 ^ 14 + 1 / 2 ^ 130 := by
  obtain ⟨q, v, h, _⟩ := powSimd_near isa hv hx (a := a) hb
  refine ⟨_, q, powSimd_eq isa fft (by omega) (by omega), v, h.trans (le_of_eq ?_)⟩
  ring

/-! ## Concrete cases -/

/-- A voiced frame meets the hypotheses of `C80_frame` and `C80_builds`: the amplitudes add up to 39 in each set, and the
samples of the two builds are within 1.2 of each other. -/
example (hm : TrigAcc m) (isa : Isa) (E : Env (IEEE m)) (ha : E.alloc = false) : ∃ r r' : SynthRes (IEEE m),
    synthUnmuted E voicedSampleF voicedSampleF Tls.start = .ok r ∧ synthUnmutedSimd isa E voicedSampleF voicedSampleF Tls.start = .ok r' ∧
    (∃ x : Fin 57 → Fin 160 → ℝ, (∀ l : Fin 57, 1 ≤ l.val → (l.val : Int) ≤ 39 →
        ContributionWithin (1 / 2 ^ 20) (1 / 1000) (valuesOf r'.cur) (valuesOf r'.prev) l (x l)) ∧
      ∀ n, ∃ v : ℚ, Val (r'.out n) v ∧ |(v : ℝ) - clipTo (32767 * (95 / 100) / 7) (∑ l, x l n)| ≤ 6 / 10) ∧
    ∀ n, ∃ v v' : ℚ, Val (r.out n) v ∧ Val (r'.out n) v' ∧ |(v : ℝ) - v'| ≤ 12 / 10 := by
  have one : Val (lit 1 1 : IEEE m) 1 := val_of_rng (show rngB (lit 1 1 : IEEE libm0) 1 1 = true by decide +kernel)
  have w8 : Val (lit 1 8 : IEEE m) (1 / 8) := val_of_rng (show rngB (lit 1 8 : IEEE libm0) (1 / 8) (1 / 8) = true by decide +kernel)
  have f0 : Bnd (fi 0 : IEEE m) 0 := ⟨0, ⟨false, rfl⟩, by norm_num⟩
  have z0 : Bnd (lit 0 1 : IEEE m) 0 := ⟨0, zero_val, by norm_num⟩
  have hM : OrdinarySet (voicedSampleF (m := m)) := ⟨⟨1 / 8, w8, .inr (by norm_num), by norm_num⟩, fun l _ _ _ => ⟨1, one, by norm_num⟩,
    fun i => f0.mono (by norm_num)⟩
  have hP : PhasesOk (voicedSampleF (m := m)) := fun l _ => ⟨f0.mono (by positivity), z0.mono (by positivity)⟩
  have ht : CacheOk E Tls.start := CacheOk.start E
  have hL : (voicedSampleF (m := m)).L = 39 := rfl
  have hseed : SeedConv (voicedSampleF (m := m)).noiseSeed := .inl
    (show lt (neg (lit 1 1) : IEEE libm0) (lit 0 1) = true by decide +kernel)
  have hedge : EdgeConv (voicedSampleF (m := m)).w0 (voicedSampleF (m := m)).L := edgeConv ⟨1 / 8, w8, by norm_num [abs_le]⟩ (by rw [hL]; decide)
  obtain ⟨r, h, _⟩ := (synthUnmuted_ok (U := fun _ => False) E (voicedSampleF (m := m)) voicedSampleF Tls.start (by rw [hL]; decide)
    (by rw [hL]; decide) (.inl hseed) (.inl hedge)).toOk
  obtain ⟨r', h', _⟩ := (synthUnmutedSimd_ok (U := fun _ => False) isa E (voicedSampleF (m := m)) voicedSampleF Tls.start (CacheOk.planOk ht)
    (by rw [hL]; decide) (by rw [hL]; decide) (.inl hseed) (.inl hedge)).toOk
  have hs : voicedSum 39 (valuesOf (voicedSampleF (m := m))) = 39 := by
    have e : ∀ l : Fin 57, (if 1 ≤ l.val ∧ (l.val : Int) ≤ 39 ∧ (valuesOf (voicedSampleF (m := m))).Vl l = 1 then
        |(valuesOf (voicedSampleF (m := m))).Ml l| else 0) = if 1 ≤ l.val ∧ l.val ≤ 39 then (1 : ℝ) else 0 := by
      intro l
      have a1 : (valuesOf (voicedSampleF (m := m))).Ml l = 1 := by
        show number (lit 1 1 : IEEE m) = 1
        rw [Val.number one]
        norm_num
      have a2 : (valuesOf (voicedSampleF (m := m))).Vl l = 1 := rfl
      rw [a1, a2, abs_one]
      congr 1
      exact propext ⟨fun ⟨p, q, _⟩ => ⟨p, by omega⟩, fun ⟨p, q⟩ => ⟨p, by omega, rfl⟩⟩
    unfold voicedSum
    rw [Finset.sum_congr rfl fun l _ => e l, Finset.sum_ite, Finset.sum_const_zero, add_zero, Finset.sum_const, nsmul_eq_mul, mul_one]
    have : (Finset.univ.filter fun l : Fin 57 => 1 ≤ l.val ∧ l.val ≤ 39).card = 39 := by decide +kernel
    rw [this]
    norm_num
  have na : ¬ E.alloc = true := by rw [ha]; exact Bool.false_ne_true
  refine ⟨r, r', h, h', ?_, fun n => ?_⟩
  · obtain ⟨⟨x, x1, _, x3⟩, _⟩ := C80_frame hm isa E _ _ _ hM hM hP (by rw [hL]; decide) (by rw [hL]; decide) ht r' h' 0 le_rfl (by norm_num)
      (fun c => absurd c na)
    refine ⟨x, fun l a b => x1 l a (by rw [hL]; simpa using b), fun n => ?_⟩
    obtain ⟨v, vv, hv⟩ := x3 n
    refine ⟨v, vv, ?_⟩
    rw [if_neg na, add_zero, hL, hs] at hv
    refine hv.trans ?_
    norm_num
  · obtain ⟨v, v', h1, h2, h3⟩ := C80_builds hm isa E E rfl _ _ _ hM hM hP (by rw [hL]; decide) (by rw [hL]; decide) ht ht r r' h h' 0 le_rfl
      (by norm_num) (fun c => absurd c na) n
    refine ⟨v, v', h1, h2, ?_⟩
    rw [if_neg na, add_zero, hL, hs] at h3
    refine h3.trans ?_
    norm_num

/-- An unvoiced frame meets the hypotheses of `C80_stored`. -/
example (hm : TrigAcc m) (hcos : CosAcc m) (hsin : SinAcc m) (isa : Isa) : ∃ (E : Env (IEEE m)) (r : SynthRes (IEEE m)) (x : ℕ → ℝ), RunsV E ∧
    synthUnmutedSimd isa E unvoicedSampleF unvoicedSampleF Tls.start = .ok r ∧
    ShapedNoise (1 / 10 + 1 / 2 ^ 80) (valuesOf (unvoicedSampleF (m := m))) x (seqOf fun n => number (r.cur.previousUw n)) := by
  obtain ⟨E, hE, ha, _⟩ := (C70_env (F := IEEE m) true true).1
  have one : Val (lit 1 1 : IEEE m) 1 := val_of_rng (show rngB (lit 1 1 : IEEE libm0) 1 1 = true by decide +kernel)
  have w8 : Val (lit 1 8 : IEEE m) (1 / 8) := val_of_rng (show rngB (lit 1 8 : IEEE libm0) (1 / 8) (1 / 8) = true by decide +kernel)
  have f0 : Bnd (fi 0 : IEEE m) 0 := ⟨0, ⟨false, rfl⟩, by norm_num⟩
  have z0 : Bnd (lit 0 1 : IEEE m) 0 := ⟨0, zero_val, by norm_num⟩
  have hM : OrdinarySet (unvoicedSampleF (m := m)) := ⟨⟨1 / 8, w8, .inr (by norm_num), by norm_num⟩, fun l _ _ _ => ⟨1, one, by norm_num⟩,
    fun i => f0.mono (by norm_num)⟩
  have hP : PhasesOk (unvoicedSampleF (m := m)) := fun l _ => ⟨f0.mono (by positivity), z0.mono (by positivity)⟩
  have ht : CacheOk E Tls.start := CacheOk.start E
  have hL : (unvoicedSampleF (m := m)).L = 39 := rfl
  have hseed : SeedConv (unvoicedSampleF (m := m)).noiseSeed := .inl
    (show lt (neg (lit 1 1) : IEEE libm0) (lit 0 1) = true by decide +kernel)
  obtain ⟨r, h, _⟩ := (synthUnmutedSimd_ok (U := fun _ => False) isa E (unvoicedSampleF (m := m)) (unvoicedSampleF (m := m)) Tls.start
      (CacheOk.planOk ht) (by rw [hL]; decide) (by rw [hL]; decide) (.inl hseed)
      (.inl (edgeConv ⟨1 / 8, w8, by norm_num [abs_le]⟩ (by rw [hL]; decide)))).toOk
  obtain ⟨nr, _, _, h2⟩ := C80_stored hcos hsin isa E hE _ _ _ hM (by rw [hL]; decide) (by rw [hL]; decide) r h
  have hp : r.tls.plan ≠ none := by
    obtain ⟨x, hx⟩ := synthWith_near hm hM hM hP (by rw [hL]; decide) (by rw [hL]; decide) (CacheOk.planOk ht)
    have h' := h
    rw [synthUnmutedSimd_with] at h'
    exact (frame_plan ht (hx (oscSimd_near hm) (overlaps_simd isa E) r h').1).2 ha
  obtain ⟨_, k⟩ := h2 hp 1 (by norm_num) (by norm_num) (.inl fun l _ _ _ => ⟨1, one, by norm_num⟩)
  rw [Rat.cast_one] at k
  exact ⟨E, r, windowed nr.buf, hE, h, k⟩

end Verif.Props
