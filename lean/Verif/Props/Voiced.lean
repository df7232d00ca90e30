import Verif.Lemmas.Voiced
import Verif.Lemmas.SafeReal
import Mathlib.Analysis.Calculus.MeanValue
import Mathlib.Analysis.Calculus.Deriv.MeanValue

/-!
# C46: voiced synthesis in exact arithmetic
-/

namespace Verif.Props
open Verif Verif.Spec Verif.Model Verif.Num Verif.Gen Arith

/-- The samples of a frame that is not muted: the sum over the harmonics `1 .. max L L'` of the contributions defined by
`Contribution`, plus the overlap-add of the unvoiced buffers (if the plan could be allocated), clipped. `r.cur` and
`r.prev` are the parameter sets as the call leaves them. Up to its own `L` each set keeps its amplitudes and voicing;
above, up to the other set's `L`, it has amplitude zero and counts as voiced. -/
theorem C46_frame (E : Env ℝ) (cur prev : Parms ℝ) (t : Tls ℝ) (hc : 0 ≤ cur.L ∧ cur.L ≤ 56) (hp : 0 ≤ prev.L ∧ prev.L ≤ 56)
    (ht : CacheOk E t) (r : SynthRes ℝ) (h : synthUnmuted E cur prev t = .ok r) :
    (∃ x : Fin 57 → Fin 160 → ℝ,
      (∀ l : Fin 57, 1 ≤ l.val → (l.val : Int) ≤ max cur.L prev.L → Contribution r.cur r.prev l (x l)) ∧
      (∀ l : Fin 57, l.val < 1 ∨ max cur.L prev.L < l.val → x l = fun _ => 0) ∧
      ∀ n, r.out n = clipTo (32767 * (95 / 100) / 7) (∑ l, x l n +
        if E.alloc = true then overlapAdd prev.previousUw r.cur.previousUw (n.val : Int) else 0)) ∧
    r.cur.w0 = cur.w0 ∧ r.prev.w0 = prev.w0 ∧ r.prev.PHIl = prev.PHIl ∧
    (∀ l : Fin 57, (l.val : Int) ≤ cur.L → r.cur.Ml l = cur.Ml l ∧ r.cur.Vl l = cur.Vl l) ∧
    (∀ l : Fin 57, cur.L < l.val → (l.val : Int) ≤ prev.L → r.cur.Ml l = 0 ∧ r.cur.Vl l = 1) ∧
    (∀ l : Fin 57, (l.val : Int) ≤ prev.L → r.prev.Ml l = prev.Ml l ∧ r.prev.Vl l = prev.Vl l) ∧
    (∀ l : Fin 57, prev.L < l.val → (l.val : Int) ≤ cur.L → r.prev.Ml l = 0 ∧ r.prev.Vl l = 1) := by
  obtain ⟨⟨_, w1, m1, v1⟩, ⟨_, w2, m2, v2, p2, u2⟩, _, x, g1, g2, g3⟩ :=
    synthUnmuted_r E cur prev t hc.1 hc.2 hp.1 hp.2 ht r h
  have hz : (lit 0 1 : ℝ) = 0 := by rw [RealArith.lit_r _ _ (by decide)]; norm_num
  rw [u2] at g3
  refine ⟨⟨x, g1, g2, g3⟩, w1, w2, p2, fun l hl => ?_, fun l hl hl' => ?_, fun l hl => ?_, fun l hl hl' => ?_⟩
  · rw [m1, v1]
    exact ⟨if_neg (by omega), if_neg (by omega)⟩
  · rw [m1, v1]
    exact ⟨(if_pos ⟨hl, hl'⟩).trans hz, if_pos ⟨hl, hl'⟩⟩
  · rw [m2, v2]
    exact ⟨if_neg (by omega), if_neg (by omega)⟩
  · rw [m2, v2]
    exact ⟨(if_pos ⟨hl, hl'⟩).trans hz, if_pos ⟨hl, hl'⟩⟩

/-- Two consecutive frames: a harmonic that is rendered by phase interpolation in both has phase and amplitude tracks
without a jump. The first track ends at the phase (up to full turns) and amplitude where the second starts. -/
theorem C46_continuous (E E' : Env ℝ) (prev mid next : Parms ℝ) (t t' : Tls ℝ) (hp : 0 ≤ prev.L ∧ prev.L ≤ 56)
    (hm : 0 ≤ mid.L ∧ mid.L ≤ 56) (hn : 0 ≤ next.L ∧ next.L ≤ 56) (ht : CacheOk E t) (ht' : CacheOk E' t')
    (r r' : SynthRes ℝ) (h : synthUnmuted E mid prev t = .ok r) (h' : synthUnmuted E' next r.cur t' = .ok r')
    (l : Fin 57) (hl : (l.val : Int) ≤ max mid.L prev.L) (hl' : (l.val : Int) ≤ max next.L mid.L)
    (x x' : Fin 160 → ℝ) (hx : Contribution r.cur r.prev l x) (hx' : Contribution r'.cur r'.prev l x')
    (hg : Glides r.cur r.prev l) (hg' : Glides r'.cur r'.prev l) :
    ∃ a θ a' θ' : ℝ → ℝ, (∀ n : Fin 160, x n = 2 * a n.val * Real.cos (θ n.val)) ∧
      (∀ n : Fin 160, x' n = 2 * a' n.val * Real.cos (θ' n.val)) ∧
      (∀ s, a s = (1 - s / 160) * a 0 + s / 160 * a 160) ∧ (∀ s, a' s = (1 - s / 160) * a' 0 + s / 160 * a' 160) ∧
      a 160 = a' 0 ∧ SameAngle (θ 160) (θ' 0) ∧ Differentiable ℝ θ ∧ Differentiable ℝ θ' ∧
      a 160 = r.cur.Ml l ∧ a 0 = r.prev.Ml l ∧ θ 0 = prev.PHIl l ∧ SameAngle (θ 160) (r.cur.PHIl l) := by
  have hL : r.cur.L = mid.L := (synthUnmuted_r E mid prev t hm.1 hm.2 hp.1 hp.2 ht r h).1.1
  obtain ⟨_, _, _, hphi, a1, a2, _, _⟩ := C46_frame E mid prev t hm hp ht r h
  obtain ⟨_, _, _, hphi', _, _, b1, b2⟩ := C46_frame E' next r.cur t' hn (by rw [hL]; exact hm) ht' r' h'
  rw [hL] at b1 b2
  rcases hx with ⟨_, θ, hθ, ex⟩ | ⟨hng, _⟩
  swap
  · exact absurd hg hng
  rcases hx' with ⟨_, θ', hθ', ex'⟩ | ⟨hng, _⟩
  swap
  · exact absurd hg' hng
  have hM : r'.prev.Ml l = r.cur.Ml l := by
    by_cases c : (l.val : Int) ≤ mid.L
    · exact (b1 l c).1
    · rw [(b2 l (by omega) (by omega)).1, (a2 l (by omega) (by omega)).1]
  refine ⟨fun s => (1 - s / 160) * r.prev.Ml l + s / 160 * r.cur.Ml l, θ,
    fun s => (1 - s / 160) * r'.prev.Ml l + s / 160 * r'.cur.Ml l, θ', ex, ex', fun s => by ring, fun s => by ring, ?_, ?_, ?_,
    ?_, by ring, by ring, ?_, hθ.stop⟩
  · rw [hM]; ring
  · rw [hθ'.start, hphi']
    exact hθ.stop
  · obtain ⟨δ, _, hd⟩ := hθ.glide
    exact fun s => (hd s).differentiableAt
  · obtain ⟨δ, _, hd⟩ := hθ'.glide
    exact fun s => (hd s).differentiableAt
  · rw [hθ.start, hphi]

/-- The stored phases: `PSIl` advances by the mean of the two frequencies; `PHIl` equals it in the lowest quarter of the
harmonics and is randomised by the noise buffer of the frame elsewhere, in proportion to the share of unvoiced bands. The
code counts band 0, which no decoder writes, among the bands. -/
theorem C46_phase (E : Env ℝ) (cur prev : Parms ℝ) (t : Tls ℝ) (hc : 0 ≤ cur.L ∧ cur.L ≤ 56) (hp : 0 ≤ prev.L ∧ prev.L ≤ 56)
    (ht : CacheOk E t) (r : SynthRes ℝ) (h : synthUnmuted E cur prev t = .ok r) :
    ∃ nr, noiseOverlap (Arr.const 256 (fi 0)) cur.noiseSeed cur.noiseOverlap t = .ok nr ∧ r.cur.noiseSeed = nr.seed ∧
      r.cur.noiseOverlap = nr.overlap ∧ ∀ l : Fin 57, 1 ≤ l.val →
        SameAngle (r.cur.PSIl l) (prev.PSIl l + l.val * (prev.w0 + cur.w0) * 80) ∧
        (4 * (l.val : Int) ≤ cur.L → r.cur.PHIl l = r.cur.PSIl l) ∧
        (cur.L < 4 * (l.val : Int) → r.cur.PHIl l = r.cur.PSIl l +
          unvoicedCount cur.L cur.Vl / cur.L * (2 * Real.pi / 53125 * nr.buf ⟨l.val, by omega⟩ - Real.pi)) := by
  obtain ⟨_, _, ⟨nr, h1, h2, h3, h4⟩, _⟩ := synthUnmuted_r E cur prev t hc.1 hc.2 hp.1 hp.2 ht r h
  refine ⟨nr, h1, h2, h3, fun l hl => ?_⟩
  obtain ⟨g1, g2, g3⟩ := h4 l hl
  exact ⟨g1, fun h => g2 (by omega), fun h => g3 (by omega)⟩

/-- Speech frames of the process functions: unless the frame is muted, the samples are those of `C46_frame` with the
enhanced and smoothed current set against `enh`, and the set that synthesis leaves becomes `enh` of the next frame. -/
theorem C46_speech (E : Env ℝ) (C : Call ℝ) (s : St ℝ) (o : Arr 160 ℝ × St ℝ) (ht : CacheOk E s.tls)
    (h : speak E C s = .ok o) (hm : synthMuted s.cur = false) :
    ∃ cur t r, synthUnmuted E cur s.enh t = .ok r ∧ CacheOk E t ∧ cur.L = s.cur.L ∧ cur.w0 = s.cur.w0 ∧
      cur.noiseSeed = s.cur.noiseSeed ∧ cur.noiseOverlap = s.cur.noiseOverlap ∧
      o.1 = r.out ∧ o.2.enh = r.cur ∧ o.2.cur = r.cur := by
  unfold speak at h
  obtain ⟨⟨c, t1⟩, e1, h⟩ := bind_ok h
  obtain ⟨r, e2, h⟩ := bind_ok h
  obtain ⟨g1, g2⟩ := spectralAmpEnhance_frame _ _ _ _ e1
  unfold synthesizeSpeechf at e2
  obtain ⟨⟨c', t2⟩, e3, e2⟩ := bind_ok e2
  obtain ⟨g3, g4⟩ := applySmoothing_frame _ _ _ _ _ e3
  dsimp only at g1 g2 g3 g4 e2
  have hm' : synthMuted c' = false := by
    rw [g3, g1]
    exact hm
  rw [if_neg (by rw [hm']; exact Bool.false_ne_true)] at e2
  rw [← ok_inj h]
  refine ⟨c', t2, r, e2, ?_, by rw [g3, g1], by rw [g3, g1], by rw [g3, g1], by rw [g3, g1], rfl, rfl, rfl⟩
  rw [g4, g2]
  exact ht

/-- A phase track is determined by its end points: if the end phase is the one that the mean of the two frequencies leads
to, the correction is zero and the phase is the integral of the linearly gliding frequency. -/
theorem C46_track_exact (φ0 φ1 ω0 ω1 : ℝ) (θ : ℝ → ℝ) (h : Track φ0 φ1 ω0 ω1 θ)
    (he : SameAngle φ1 (φ0 + 80 * (ω0 + ω1))) (s : ℝ) : θ s = φ0 + ω0 * s + (ω1 - ω0) * s ^ 2 / 320 := by
  obtain ⟨h0, ⟨k, hk⟩, δ, hδ, hd⟩ := h
  obtain ⟨j, hj⟩ := he
  have hg : ∀ s, HasDerivAt (fun s => θ s - thetaR 1 ω1 ω0 φ0 δ s) 0 s := by
    intro s
    have := (hd s).sub (thetaR_deriv 1 ω1 ω0 φ0 δ s)
    refine this.congr_deriv ?_
    push_cast
    ring
  have hc : ∀ s, θ s - thetaR 1 ω1 ω0 φ0 δ s = θ 0 - thetaR 1 ω1 ω0 φ0 δ 0 := fun s =>
    is_const_of_deriv_eq_zero (fun s => (hg s).differentiableAt) (fun s => (hg s).deriv) s 0
  have hs : ∀ s, θ s = thetaR 1 ω1 ω0 φ0 δ s := by
    intro s
    have := hc s
    rw [h0] at this
    unfold thetaR at this ⊢
    linarith
  have hpi := Real.pi_pos
  have h160 : 160 * δ = 2 * Real.pi * ((k + j : ℤ) : ℝ) := by
    have := hs 160
    unfold thetaR at this
    rw [hk, hj] at this
    push_cast at this ⊢
    linarith
  have hz : (k + j : ℤ) = 0 := by
    have hb : |2 * Real.pi * ((k + j : ℤ) : ℝ)| ≤ Real.pi := by
      rw [← h160, abs_mul, abs_of_pos (show (0 : ℝ) < 160 by norm_num)]
      linarith
    rw [abs_mul, abs_of_pos (by positivity : (0 : ℝ) < 2 * Real.pi)] at hb
    have : |((k + j : ℤ) : ℝ)| < 1 := by
      by_contra hcon
      rw [not_lt] at hcon
      nlinarith
    have : |(k + j : ℤ)| < 1 := by exact_mod_cast this
    exact Int.abs_lt_one_iff.1 this
  have hδ0 : δ = 0 := by
    rw [hz] at h160
    push_cast at h160
    linarith
  rw [hs s, hδ0]
  unfold thetaR
  push_cast
  ring

/-- The lowest quarter of the harmonics carries no random phase: there the phase is the running integral of the linearly
gliding frequency, in every frame that is rendered by phase interpolation. -/
theorem C46_low (E : Env ℝ) (cur prev : Parms ℝ) (t : Tls ℝ) (hc : 0 ≤ cur.L ∧ cur.L ≤ 56) (hp : 0 ≤ prev.L ∧ prev.L ≤ 56)
    (ht : CacheOk E t) (r : SynthRes ℝ) (h : synthUnmuted E cur prev t = .ok r) (l : Fin 57) (hl : 1 ≤ l.val)
    (hq : 4 * (l.val : Int) ≤ cur.L) (hphase : SameAngle (prev.PHIl l) (prev.PSIl l)) :
    SameAngle (r.cur.PHIl l) (r.cur.PSIl l) ∧
    ∀ x, Glides r.cur r.prev l → Contribution r.cur r.prev l x → ∀ n : Fin 160,
      x n = 2 * ((1 - (n.val : ℝ) / 160) * r.prev.Ml l + (n.val : ℝ) / 160 * cur.Ml l) *
        Real.cos (prev.PHIl l + l.val * (prev.w0 * n.val + (cur.w0 - prev.w0) * (n.val : ℝ) ^ 2 / 320)) := by
  obtain ⟨_, _, ⟨_, _, _, _, hph⟩, _⟩ := synthUnmuted_r E cur prev t hc.1 hc.2 hp.1 hp.2 ht r h
  obtain ⟨_, hwc, hwp, hphi, a1, _⟩ := C46_frame E cur prev t hc hp ht r h
  obtain ⟨g1, g2, _⟩ := hph l hl
  have g2 := g2 (by omega)
  refine ⟨⟨0, by rw [g2]; push_cast; ring⟩, fun x hg hx n => ?_⟩
  rcases hx with ⟨_, θ, hθ, ex⟩ | ⟨hng, _⟩
  swap
  · exact absurd hg hng
  rw [hphi, hwc, hwp] at hθ
  have he : SameAngle (r.cur.PHIl l) (prev.PHIl l + 80 * (l.val * prev.w0 + l.val * cur.w0)) := by
    obtain ⟨k, hk⟩ := g1
    obtain ⟨j, hj⟩ := hphase
    refine ⟨k - j, ?_⟩
    rw [g2, hk, hj]
    push_cast
    ring
  rw [ex n, C46_track_exact _ _ _ _ θ hθ he, (a1 l (by omega)).1]
  congr 2
  ring

/-- The windows of consecutive frames add up to one. -/
theorem C46_window (s : ℝ) (h0 : 0 ≤ s) (h1 : s ≤ 160) : trapezoid s + trapezoid (s + 160) = 1 := by
  unfold trapezoid
  rcases le_total s 55 with h | h
  · rw [max_eq_left ((min_le_right _ _).trans ((min_le_left _ _).trans (by linarith))),
      min_eq_left (a := (1 : ℝ)) (le_min (by linarith) (by linarith)), max_eq_right (by norm_num)]
    norm_num
  · rcases le_total s 105 with h' | h'
    · rw [min_eq_left (b := (265 - s) / 50) (by linarith), min_eq_right (by linarith), max_eq_right (by linarith),
        min_eq_right (b := (265 - (s + 160)) / 50) (by linarith), min_eq_right (by linarith), max_eq_right (by linarith)]
      ring
    · rw [min_eq_left (a := (1 : ℝ)) (le_min (by linarith) (by linarith)), max_eq_right (by norm_num),
        max_eq_left ((min_le_right _ _).trans ((min_le_right _ _).trans (by linarith)))]
      norm_num

/-- Steady voiced speech: a harmonic with the same frequency and amplitude in both frames, whose stored phase advanced by
one frame, is a pure cosine, whichever of the two oscillators renders it. -/
theorem C46_steady (cur prev : Parms ℝ) (l : Fin 57) (x : Fin 160 → ℝ) (hx : Contribution cur prev l x)
    (hv : cur.Vl l = 1 ∧ prev.Vl l = 1) (hw : cur.w0 = prev.w0) (hM : cur.Ml l = prev.Ml l)
    (hphi : SameAngle (cur.PHIl l) (prev.PHIl l + 160 * (l.val * cur.w0))) (n : Fin 160) :
    x n = 2 * cur.Ml l * Real.cos (prev.PHIl l + l.val * cur.w0 * n.val) := by
  rcases hx with ⟨_, θ, hθ, ex⟩ | ⟨_, ex⟩
  · rw [ex n, C46_track_exact _ _ _ _ θ hθ (by rw [← hw]; convert hphi using 2; ring), hw, hM]
    ring_nf
  · obtain ⟨k, hk⟩ := hphi
    have hn : (n.val : ℝ) ≤ 160 := by exact_mod_cast n.isLt.le
    have hc : Real.cos (cur.PHIl l + l.val * cur.w0 * (n.val - 160)) = Real.cos (prev.PHIl l + l.val * cur.w0 * n.val) := by
      rw [hk, show prev.PHIl l + 160 * (l.val * cur.w0) + 2 * Real.pi * k + l.val * cur.w0 * ((n.val : ℝ) - 160) =
        prev.PHIl l + l.val * cur.w0 * n.val + k * (2 * Real.pi) by ring, Real.cos_add_int_mul_two_pi]
    rw [ex n, if_pos hv.1, if_pos hv.2, hc, ← hw, ← hM]
    have := C46_window n.val (by positivity) hn
    linear_combination (2 * cur.Ml l * Real.cos (prev.PHIl l + l.val * cur.w0 * n.val)) * this

/-- A parameter set with 39 voiced harmonics of 127 Hz. -/
noncomputable def voicedSample : Parms ℝ := { imbeInit 39 with w0 := 1 / 10, Vl := Arr.const 57 1 }

/-- Three frames with these parameters meet the hypotheses of `C46_continuous` for harmonic 5, those of `C46_frame` and
`C46_low`; the contributions exist by `C46_frame`. -/
example (E : Env ℝ) : ∃ r r' x x', synthUnmuted E voicedSample voicedSample Tls.start = .ok r ∧
    synthUnmuted E voicedSample r.cur Tls.start = .ok r' ∧ CacheOk E Tls.start ∧
    Contribution r.cur r.prev 5 x ∧ Contribution r'.cur r'.prev 5 x' ∧ Glides r.cur r.prev 5 ∧ Glides r'.cur r'.prev 5 ∧
    SameAngle (voicedSample.PHIl 5) (voicedSample.PSIl 5) := by
  have hL : (voicedSample.L : Int) = 39 := rfl
  have hL' : 0 ≤ voicedSample.L ∧ voicedSample.L ≤ 56 := by rw [hL]; decide
  have ht : CacheOk E Tls.start := ⟨nofun, nofun, nofun, nofun⟩
  have hw : voicedSample.w0 = 1 / 10 := rfl
  have hseed : SeedConv voicedSample.noiseSeed := .inl (by
    show Arith.lt (neg (lit 1 1) : ℝ) (lit 0 1) = true
    rw [RealArith.lt_r, RealArith.neg_r, RealArith.lit_r _ _ (by decide), RealArith.lit_r _ _ (by decide)]
    norm_num)
  have hedge : EdgeConv voicedSample.w0 voicedSample.L := edgeConv_real (by rw [hw]; norm_num [abs_le]) hL'.2
  have run : ∀ p : Parms ℝ, p.L = 39 → ∃ r, synthUnmuted E voicedSample p Tls.start = .ok r := fun p hp => by
    obtain ⟨r, h, _⟩ := (synthUnmuted_ok (U := fun _ => False) E voicedSample p Tls.start (by rw [hL]; decide)
      (by rw [hp]; decide) (.inl hseed) (.inl hedge)).toOk
    exact ⟨r, h⟩
  obtain ⟨r, h⟩ := run voicedSample rfl
  have hrL : r.cur.L = 39 := (synthUnmuted_r E _ _ _ hL'.1 hL'.2 hL'.1 hL'.2 ht r h).1.1
  obtain ⟨r', h'⟩ := run r.cur hrL
  have hL'' : 0 ≤ r.cur.L ∧ r.cur.L ≤ 56 := by rw [hrL]; decide
  obtain ⟨⟨x, hx, _⟩, w1, w2, _, v1, _, v2, _⟩ := C46_frame E _ _ _ hL' hL' ht r h
  obtain ⟨⟨x', hx', _⟩, w1', w2', _, v1', _, v2', _⟩ := C46_frame E _ _ _ hL' hL'' ht r' h'
  have c1 := (v1 5 (by rw [hL]; decide)).2
  have c2 := (v2 5 (by rw [hL]; decide)).2
  have c1' := (v1' 5 (by rw [hL]; decide)).2
  have c2' := (v2' 5 (by rw [hrL]; decide)).2
  have one : voicedSample.Vl 5 = 1 := rfl
  have m1 : ((5 : Fin 57).val : Int) ≤ max voicedSample.L voicedSample.L := by rw [hL]; decide
  have m2 : ((5 : Fin 57).val : Int) ≤ max voicedSample.L r.cur.L := by rw [hL, hrL]; decide
  refine ⟨r, r', x 5, x' 5, h, h', ht, hx 5 (by decide) m1, hx' 5 (by decide) m2,
    ⟨c1.trans one, c2.trans one, by decide, ?_⟩, ⟨c1'.trans one, c2'.trans (c1.trans one), by decide, ?_⟩, ⟨0, ?_⟩⟩
  · rw [w1, w2, hw]; norm_num
  · rw [w1', w2', w1, hw]; norm_num
  · have e1 : voicedSample.PHIl 5 = 0 := Int.cast_zero
    have e2 : voicedSample.PSIl 5 = 0 := by
      show (lit 0 1 : ℝ) = 0
      rw [RealArith.lit_r _ _ (by decide)]
      norm_num
    rw [e1, e2]
    norm_num

end Verif.Props
