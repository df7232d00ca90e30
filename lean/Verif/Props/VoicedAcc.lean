import Verif.Lemmas.VoicedOut
import Verif.Props.Voiced
import Verif.Props.Finite
import Verif.Props.Track
import Verif.Props.AmbeFinite
import Verif.Lemmas.AmpNear

/-!
# C75: voiced synthesis in binary32
-/

namespace Verif.Props
open Verif Verif.Spec Verif.Model Verif.Num Verif.Gen Arith
variable {m : Libm}

/-- The samples of a frame, from the description of the frame. -/
theorem frame_of {E : Env (IEEE m)} {cur prev : Parms (IEEE m)} {t : Tls (IEEE m)} {x : Fin 57 → Fin 160 → ℝ} {r : SynthRes (IEEE m)}
    (hf : FrameFacts E cur prev t r) (hs : FrameSamples cur prev x r) {U : ℚ} (hU : 0 ≤ U) (hU' : U ≤ 2 ^ 100)
    (hu : r.tls.plan ≠ none → ∀ i, Bnd (prev.previousUw i) U ∧ Bnd (r.cur.previousUw i) U) :
    (∀ l : Fin 57, 1 ≤ l.val → (l.val : Int) ≤ max cur.L prev.L →
        ContributionWithin (1 / 2 ^ 20) (1 / 1000) (valuesOf r.cur) (valuesOf r.prev) l (x l)) ∧
      (∀ l : Fin 57, l.val < 1 ∨ max cur.L prev.L < l.val → x l = fun _ => 0) ∧
      ∀ n, ∃ v : ℚ, Val (r.out n) v ∧
        |(v : ℝ) - clipTo (32767 * (95 / 100) / 7) (∑ l, x l n + if r.tls.plan ≠ none then
            overlapAdd (valuesOf prev).previousUw (valuesOf r.cur).previousUw (n.val : Int) else 0)| ≤
          (voicedSum prev.L (valuesOf prev) + voicedSum cur.L (valuesOf cur)) / 140 + U / 2 ^ 15 + 1 / 4000 := by
  obtain ⟨⟨_, w1, m1, v1⟩, ⟨_, w2, m2, v2, p2, u2⟩, _, _, _, _⟩ := hf
  obtain ⟨g1, g2, g3, g4⟩ := hs
  have hz : number (lit 0 1 : IEEE m) = 0 := by rw [Val.number (zero_val (m := m))]; norm_num
  have sums : voicedSum (max cur.L prev.L) (valuesOf r.prev) + voicedSum (max cur.L prev.L) (valuesOf r.cur) =
      voicedSum prev.L (valuesOf prev) + voicedSum cur.L (valuesOf cur) := by
    have one : ∀ {a b c : Parms (IEEE m)}, c.Ml = (widened a b).Ml → c.Vl = (widened a b).Vl →
        voicedSum (max a.L b.L) (valuesOf c) = voicedSum a.L (valuesOf a) := by
      intro a b c e1 e2
      unfold voicedSum
      refine Finset.sum_congr rfl fun l _ => ?_
      show (if 1 ≤ l.val ∧ (l.val : Int) ≤ max a.L b.L ∧ c.Vl l = 1 then |number (c.Ml l)| else 0) =
        if 1 ≤ l.val ∧ (l.val : Int) ≤ a.L ∧ a.Vl l = 1 then |number (a.Ml l)| else 0
      rw [e1, e2]
      by_cases q : a.L < l.val ∧ (l.val : Int) ≤ b.L
      · rw [show (widened a b).Ml l = lit 0 1 from if_pos q, hz, abs_zero, ite_self, if_neg (by omega)]
      · rw [show (widened a b).Ml l = a.Ml l from if_neg q, show (widened a b).Vl l = a.Vl l from if_neg q]
        congr 1
        exact propext ⟨fun ⟨h1, h2, h3⟩ => ⟨h1, by omega, h3⟩, fun ⟨h1, h2, h3⟩ => ⟨h1, by omega, h3⟩⟩
    rw [one m1 v1, max_comm, one m2 v2]
  rw [sums] at g3 g4
  have hU0 : (0 : ℝ) ≤ U := by exact_mod_cast hU
  refine ⟨g1, g2, fun n => ?_⟩
  by_cases ha : r.tls.plan = none
  · obtain ⟨v, vv, hv⟩ := g3 ha n
    rw [if_neg (not_not.2 ha), add_zero]
    refine ⟨v, vv, hv.trans ?_⟩
    have : (0 : ℝ) ≤ U / 2 ^ 15 := by positivity
    linarith
  · obtain ⟨v, vv, hv⟩ := g4 ha U hU' (fun i => by rw [u2]; exact (hu ha i).1) (fun i => (hu ha i).2) n
    rw [if_pos ha]
    refine ⟨v, vv, ?_⟩
    have e : (valuesOf r.prev).previousUw = (valuesOf prev).previousUw := by
      show (fun i => number (r.prev.previousUw i)) = fun i => number (prev.previousUw i)
      rw [u2]
    rw [e] at hv
    exact hv

/-- The samples of a frame: those of `C75_frame` and `C75_history`. -/
theorem frame_near (hm : TrigAcc m) {E : Env (IEEE m)} {cur prev : Parms (IEEE m)} {t : Tls (IEEE m)} (hc : OrdinarySet cur) (hp : OrdinarySet prev)
    (hph : PhasesOk prev) (hL : 9 ≤ cur.L ∧ cur.L ≤ 56) (hpL : 9 ≤ prev.L ∧ prev.L ≤ 56) (ht : PlanOk t)
    {r : SynthRes (IEEE m)} (h : synthUnmuted E cur prev t = .ok r) {U : ℚ} (hU : 0 ≤ U) (hU' : U ≤ 2 ^ 100)
    (hu : r.tls.plan ≠ none → ∀ i, Bnd (prev.previousUw i) U ∧ Bnd (r.cur.previousUw i) U) :
    ∃ x : Fin 57 → Fin 160 → ℝ,
      (∀ l : Fin 57, 1 ≤ l.val → (l.val : Int) ≤ max cur.L prev.L →
        ContributionWithin (1 / 2 ^ 20) (1 / 1000) (valuesOf r.cur) (valuesOf r.prev) l (x l)) ∧
      (∀ l : Fin 57, l.val < 1 ∨ max cur.L prev.L < l.val → x l = fun _ => 0) ∧
      ∀ n, ∃ v : ℚ, Val (r.out n) v ∧
        |(v : ℝ) - clipTo (32767 * (95 / 100) / 7) (∑ l, x l n + if r.tls.plan ≠ none then
            overlapAdd (valuesOf prev).previousUw (valuesOf r.cur).previousUw (n.val : Int) else 0)| ≤
          (voicedSum prev.L (valuesOf prev) + voicedSum cur.L (valuesOf cur)) / 140 + U / 2 ^ 15 + 1 / 4000 := by
  obtain ⟨a1, a2, a3, a4, a5, a6, x, a7⟩ := synthUnmuted_near hm hc hp hph hL hpL ht r h
  exact ⟨x, frame_of ⟨a1, a2, a3, a4, a5, a6⟩ a7 hU hU' hu⟩

theorem CacheOk.planOk {E : Env (IEEE m)} {t : Tls (IEEE m)} (h : CacheOk E t) : PlanOk t := fun P hP => by
  have := h.2.2.2 P hP
  rw [planFill_eq] at this
  exact (ok_inj this.2).symm

theorem frame_plan {E : Env (IEEE m)} {cur prev : Parms (IEEE m)} {t : Tls (IEEE m)} {r : SynthRes (IEEE m)} (ht : CacheOk E t)
    (hf : FrameFacts E cur prev t r) : r.tls.plan ≠ none ↔ E.alloc = true := by
  obtain ⟨_, _, _, _, a1, a2⟩ := hf
  refine ⟨fun c => ?_, a1⟩
  rcases a2 c with c | c
  · exact c
  · obtain ⟨P, hP⟩ := Option.ne_none_iff_exists'.1 c
    exact (ht.2.2.2 P hP).1

/-- As `C75_frame`, from the description of the frame. -/
theorem frame_full {E : Env (IEEE m)} {cur prev : Parms (IEEE m)} {t : Tls (IEEE m)} {x : Fin 57 → Fin 160 → ℝ} {r : SynthRes (IEEE m)}
    (ht : CacheOk E t) (hf : FrameFacts E cur prev t r) (hs : FrameSamples cur prev x r) {U : ℚ} (hU : 0 ≤ U) (hU' : U ≤ 2 ^ 100)
    (hu : E.alloc = true → ∀ i, Bnd (prev.previousUw i) U ∧ Bnd (r.cur.previousUw i) U) :
    ((∀ l : Fin 57, 1 ≤ l.val → (l.val : Int) ≤ max cur.L prev.L →
        ContributionWithin (1 / 2 ^ 20) (1 / 1000) (valuesOf r.cur) (valuesOf r.prev) l (x l)) ∧
      (∀ l : Fin 57, l.val < 1 ∨ max cur.L prev.L < l.val → x l = fun _ => 0) ∧
      ∀ n, ∃ v : ℚ, Val (r.out n) v ∧
        |(v : ℝ) - clipTo (32767 * (95 / 100) / 7) (∑ l, x l n + if E.alloc = true then
            overlapAdd (valuesOf prev).previousUw (valuesOf r.cur).previousUw (n.val : Int) else 0)| ≤
          (voicedSum prev.L (valuesOf prev) + voicedSum cur.L (valuesOf cur)) / 140 + U / 2 ^ 15 + 1 / 4000) ∧
    r.cur.w0 = cur.w0 ∧ r.prev.w0 = prev.w0 ∧ r.prev.PHIl = prev.PHIl ∧
    (∀ l : Fin 57, (l.val : Int) ≤ cur.L → r.cur.Ml l = cur.Ml l ∧ r.cur.Vl l = cur.Vl l) ∧
    (∀ l : Fin 57, cur.L < l.val → (l.val : Int) ≤ prev.L → number (r.cur.Ml l) = 0 ∧ r.cur.Vl l = 1) ∧
    (∀ l : Fin 57, (l.val : Int) ≤ prev.L → r.prev.Ml l = prev.Ml l ∧ r.prev.Vl l = prev.Vl l) ∧
    (∀ l : Fin 57, prev.L < l.val → (l.val : Int) ≤ cur.L → number (r.prev.Ml l) = 0 ∧ r.prev.Vl l = 1) := by
  obtain ⟨g1, g2, g3⟩ := frame_of hf hs hU hU' (fun c => hu ((frame_plan ht hf).1 c))
  have hiff := frame_plan ht hf
  obtain ⟨⟨_, w1, m1, v1⟩, ⟨_, w2, m2, v2, p2, u2⟩, _, _, _, _⟩ := hf
  have hz : number (lit 0 1 : IEEE m) = 0 := by rw [Val.number (zero_val (m := m))]; norm_num
  refine ⟨⟨g1, g2, fun n => ?_⟩, w1, w2, p2, fun l hl => ?_, fun l hl hl' => ?_, fun l hl => ?_, fun l hl hl' => ?_⟩
  · obtain ⟨v, vv, hv⟩ := g3 n
    refine ⟨v, vv, ?_⟩
    have e : ∀ y : ℝ, (if r.tls.plan ≠ none then y else 0) = if E.alloc = true then y else 0 := fun y => by
      by_cases c : E.alloc = true
      · rw [if_pos c, if_pos (hiff.2 c)]
      · rw [if_neg c, if_neg (fun d => c (hiff.1 d))]
    rw [e] at hv
    exact hv
  · rw [m1, v1]
    exact ⟨if_neg (by omega), if_neg (by omega)⟩
  · rw [m1, v1]
    exact ⟨(congrArg number (if_pos ⟨hl, hl'⟩)).trans hz, if_pos ⟨hl, hl'⟩⟩
  · rw [m2, v2]
    exact ⟨if_neg (by omega), if_neg (by omega)⟩
  · rw [m2, v2]
    exact ⟨(congrArg number (if_pos ⟨hl, hl'⟩)).trans hz, if_pos ⟨hl, hl'⟩⟩

/-- **The samples of a frame in binary32.** They are within 1/140 of the sum of the amplitudes of the voiced harmonics of
the clipped sum of the exact contributions of the harmonics, which are as in exact arithmetic (`C46_frame`) except at two
thresholds. `U` bounds the samples of the two unvoiced buffers. -/
theorem C75_frame (hm : TrigAcc m) (E : Env (IEEE m)) (cur prev : Parms (IEEE m)) (t : Tls (IEEE m)) (hc : OrdinarySet cur) (hp : OrdinarySet prev)
    (hph : PhasesOk prev) (hL : 9 ≤ cur.L ∧ cur.L ≤ 56) (hpL : 9 ≤ prev.L ∧ prev.L ≤ 56) (ht : CacheOk E t)
    (r : SynthRes (IEEE m)) (h : synthUnmuted E cur prev t = .ok r) (U : ℚ) (hU : 0 ≤ U) (hU' : U ≤ 2 ^ 100)
    (hu : E.alloc = true → ∀ i, Bnd (prev.previousUw i) U ∧ Bnd (r.cur.previousUw i) U) :
    (∃ x : Fin 57 → Fin 160 → ℝ,
      (∀ l : Fin 57, 1 ≤ l.val → (l.val : Int) ≤ max cur.L prev.L →
        ContributionWithin (1 / 2 ^ 20) (1 / 1000) (valuesOf r.cur) (valuesOf r.prev) l (x l)) ∧
      (∀ l : Fin 57, l.val < 1 ∨ max cur.L prev.L < l.val → x l = fun _ => 0) ∧
      ∀ n, ∃ v : ℚ, Val (r.out n) v ∧
        |(v : ℝ) - clipTo (32767 * (95 / 100) / 7) (∑ l, x l n + if E.alloc = true then
            overlapAdd (valuesOf prev).previousUw (valuesOf r.cur).previousUw (n.val : Int) else 0)| ≤
          (voicedSum prev.L (valuesOf prev) + voicedSum cur.L (valuesOf cur)) / 140 + U / 2 ^ 15 + 1 / 4000) ∧
    r.cur.w0 = cur.w0 ∧ r.prev.w0 = prev.w0 ∧ r.prev.PHIl = prev.PHIl ∧
    (∀ l : Fin 57, (l.val : Int) ≤ cur.L → r.cur.Ml l = cur.Ml l ∧ r.cur.Vl l = cur.Vl l) ∧
    (∀ l : Fin 57, cur.L < l.val → (l.val : Int) ≤ prev.L → number (r.cur.Ml l) = 0 ∧ r.cur.Vl l = 1) ∧
    (∀ l : Fin 57, (l.val : Int) ≤ prev.L → r.prev.Ml l = prev.Ml l ∧ r.prev.Vl l = prev.Vl l) ∧
    (∀ l : Fin 57, prev.L < l.val → (l.val : Int) ≤ cur.L → number (r.prev.Ml l) = 0 ∧ r.prev.Vl l = 1) := by
  obtain ⟨a1, a2, a3, a4, a5, a6, x, a7⟩ := synthUnmuted_near hm hc hp hph hL hpL (CacheOk.planOk ht) r h
  obtain ⟨b1, b2⟩ := frame_full ht ⟨a1, a2, a3, a4, a5, a6⟩ a7 hU hU' hu
  exact ⟨⟨x, b1⟩, b2⟩

/-- **The stored phases in binary32.** `PSIl` advances by the mean of the two frequencies up to 1/500 of a radian; `PHIl`
equals it in the lowest quarter of the harmonics and is randomised elsewhere as in exact arithmetic up to 1/1000 of a
radian. -/
theorem C75_phase (hm : TrigAcc m) (E : Env (IEEE m)) (cur prev : Parms (IEEE m)) (t : Tls (IEEE m)) (hc : OrdinarySet cur) (hp : OrdinarySet prev)
    (hph : PhasesOk prev) (hL : 9 ≤ cur.L ∧ cur.L ≤ 56) (hpL : 9 ≤ prev.L ∧ prev.L ≤ 56) (ht : CacheOk E t)
    (r : SynthRes (IEEE m)) (h : synthUnmuted E cur prev t = .ok r) :
    ∃ nr, noiseOverlap (Arr.const 256 (fi 0)) cur.noiseSeed cur.noiseOverlap t = .ok nr ∧ r.cur.noiseSeed = nr.seed ∧
      r.cur.noiseOverlap = nr.overlap ∧ ∀ l : Fin 57, 1 ≤ l.val →
        AngleWithin (2 / 1000) (number (r.cur.PSIl l)) (number (prev.PSIl l) + l.val * (number prev.w0 + number cur.w0) * 80) ∧
        (4 * (l.val : Int) ≤ cur.L → r.cur.PHIl l = r.cur.PSIl l) ∧
        (cur.L < 4 * (l.val : Int) → |number (r.cur.PHIl l) - (number (r.cur.PSIl l) +
          unvoicedCount cur.L cur.Vl / cur.L * (2 * Real.pi / 53125 * number (nr.buf ⟨l.val, by omega⟩) - Real.pi))| ≤ 1 / 1000) := by
  obtain ⟨_, _, ⟨nr, h1, h2, h3, _, h4⟩, _⟩ := synthUnmuted_near hm hc hp hph hL hpL (CacheOk.planOk ht) r h
  refine ⟨nr, h1, h2, h3, fun l hl => ?_⟩
  obtain ⟨g1, g2, g3⟩ := h4 l hl
  exact ⟨g1, fun h => g2 (by omega), fun h => g3 (by omega)⟩

/-- The parameter sets that synthesis leaves behind, frame after frame, from the set `p`: each frame is rendered against
the set that the frame before left. -/
inductive LeftBy (E : Env (IEEE m)) (p : Parms (IEEE m)) : Parms (IEEE m) → Prop
  | start : LeftBy E p p
  | frame (prev cur : Parms (IEEE m)) (t : Tls (IEEE m)) (r : SynthRes (IEEE m)) : LeftBy E p prev → OrdinarySet cur → 9 ≤ cur.L →
      cur.L ≤ 56 → CacheOk E t → synthUnmuted E cur prev t = .ok r → LeftBy E p r.cur

/-- **The hypotheses of `C75_frame` on the previous set hold at every frame of every run**, however long: rounding errors
do not let the phases grow. -/
theorem C75_run (hm : TrigAcc m) (E : Env (IEEE m)) (p q : Parms (IEEE m)) (hp : OrdinarySet p) (hph : PhasesOk p) (h9 : 9 ≤ p.L) (h56 : p.L ≤ 56)
    (h : LeftBy E p q) : OrdinarySet q ∧ PhasesOk q ∧ 9 ≤ q.L ∧ q.L ≤ 56 := by
  induction h with
  | start => exact ⟨hp, hph, h9, h56⟩
  | frame prev cur t r _ hc c9 c56 ht h ih =>
    obtain ⟨i1, i2, i3, i4⟩ := ih
    obtain ⟨⟨l1, w1, m1, v1⟩, _, ⟨nr, _, _, ho, no, _⟩, ok, _⟩ := synthUnmuted_near hm hc i1 i2 ⟨c9, c56⟩ ⟨i3, i4⟩ (CacheOk.planOk ht) r h
    refine ⟨⟨by rw [w1]; exact hc.w0, fun l a b c => ?_, fun i => ?_⟩, ok, by omega, by omega⟩
    · rw [m1]
      rw [v1] at c
      rw [l1] at b
      rw [show (widened cur prev).Ml l = cur.Ml l from if_neg (by omega)]
      rw [show (widened cur prev).Vl l = cur.Vl l from if_neg (by omega)] at c
      exact hc.ml l a b c
    · rw [ho]
      exact (no i).mono (by rw [pow2_eq]; norm_num)

/-- Speech frames of the process functions: unless the frame is muted, the samples are those of `C75_frame` with the
enhanced and smoothed current set against `enh`, and the set that synthesis leaves becomes `enh` of the next frame: `LeftBy`
describes `enh`. -/
theorem C75_speech (E : Env (IEEE m)) (C : Call (IEEE m)) (s : St (IEEE m)) (o : Arr 160 (IEEE m) × St (IEEE m)) (ht : CacheOk E s.tls)
    (h : speak E C s = .ok o) (hm : synthMuted s.cur = false) :
    ∃ cur t r, synthUnmuted E cur s.enh t = .ok r ∧ CacheOk E t ∧ cur.L = s.cur.L ∧ cur.w0 = s.cur.w0 ∧
      cur.noiseSeed = s.cur.noiseSeed ∧ cur.noiseOverlap = s.cur.noiseOverlap ∧
      o.1 = r.out ∧ o.2.enh = r.cur ∧ o.2.cur = r.cur := by
  unfold speak at h
  obtain ⟨⟨c, t1⟩, e1, h⟩ := bind_ok h
  obtain ⟨r, e2, h⟩ := bind_ok h
  obtain ⟨g1, g2⟩ := spectralAmpEnhance_frame _ _ _ _ e1
  unfold synthesizeSpeechf at e2
  obtain ⟨⟨c', t2⟩, e3, e2⟩ := bind_ok e2
  obtain ⟨g3, g4⟩ := applySmoothing_frame _ _ _ _ _ e3
  dsimp only at g1 g2 g3 g4 e2
  have hm' : synthMuted c' = false := by
    rw [g3, g1]
    exact hm
  rw [if_neg (by rw [hm']; exact Bool.false_ne_true)] at e2
  rw [← ok_inj h]
  refine ⟨c', t2, r, e2, ?_, by rw [g3, g1], by rw [g3, g1], by rw [g3, g1], by rw [g3, g1], rfl, rfl, rfl⟩
  rw [g4, g2]
  exact ht

/-- The block is the output of the synthesis for some pair of parameter sets, and its samples are those of `C75_frame`. -/
def RenderedWithin (E : Env (IEEE m)) (pcm : Arr 160 (IEEE m)) : Prop :=
  ∃ cur prev t r, synthUnmuted E cur prev t = .ok r ∧ pcm = r.out ∧ (9 ≤ cur.L ∧ cur.L ≤ 56) ∧ (9 ≤ prev.L ∧ prev.L ≤ 56) ∧
    (∀ i, Bnd (prev.previousUw i) (2 ^ 93) ∧ Bnd (r.cur.previousUw i) (2 ^ 93)) ∧
    ∀ U : ℚ, 0 ≤ U → U ≤ 2 ^ 100 → (∀ i, Bnd (prev.previousUw i) U ∧ Bnd (r.cur.previousUw i) U) →
      ∃ x : Fin 57 → Fin 160 → ℝ,
        (∀ l : Fin 57, 1 ≤ l.val → (l.val : Int) ≤ max cur.L prev.L →
          ContributionWithin (1 / 2 ^ 20) (1 / 1000) (valuesOf r.cur) (valuesOf r.prev) l (x l)) ∧
        (∀ l : Fin 57, l.val < 1 ∨ max cur.L prev.L < l.val → x l = fun _ => 0) ∧
        ∀ n, ∃ v : ℚ, Val (pcm n) v ∧
          |(v : ℝ) - clipTo (32767 * (95 / 100) / 7) (∑ l, x l n + if r.tls.plan ≠ none then
              overlapAdd (valuesOf prev).previousUw (valuesOf r.cur).previousUw (n.val : Int) else 0)| ≤
            (voicedSum prev.L (valuesOf prev) + voicedSum cur.L (valuesOf cur)) / 140 + U / 2 ^ 15 + 1 / 4000

theorem rendered_of {E : Env (IEEE m)} {pcm : Arr 160 (IEEE m)} (hm : TrigAcc m) (h : Voice E pcm) :
    (∃ buf t r, comfortNoisef (F := IEEE m) buf t = .ok r ∧ pcm = r.1) ∨ RenderedWithin E pcm := by
  rcases h.2 with ⟨cur, prev, t, r, h1, h2, h3, h4, h5, h6, h7, h8, h9, h10, _⟩ | hk
  · refine .inr ⟨cur, prev, t, r, h1, h2, h6, h7, fun i => ⟨?_, ?_⟩, fun U hU hU' hb => ?_⟩
    · exact (h9 i).mono (by rw [pow2_eq]; norm_num)
    · exact (h10 i).mono (by rw [pow2_eq]; norm_num)
    · rw [h2]
      exact frame_near hm h3 h4 h5 h6 h7 h8 h1 hU hU' fun _ => hb
  · exact .inl hk

/-- **Every block of samples that a program delivers**, under the hypotheses of `C65_finite_partial`: comfort noise, a tone,
or a frame whose samples are those of `C75_frame`. The hypotheses of `C75_frame` hold at each frame of each history. -/
theorem C75_history (hm : TrigAcc m) (he : Exp2Acc m) (E : Env (IEEE m)) (hE : Runs E) (as : List (Api (IEEE m)))
    (hv : ∀ a ∈ as, a.Valid) (h20 : ∀ a ∈ as, a.ErrsLe 20) (s : St (IEEE m)) (hs : Fresh s)
    (ha : ∀ bs, bs <+: as → ∀ s', runApi E bs s = .ok s' → AmpsOk s'.prev)
    (l : List (Option (Arr 160 (IEEE m) × List Char))) (s' : St (IEEE m)) (h : deliveries (Api.call E) as s = .ok (l, s')) :
    ∀ b ∈ l, ∀ pcm str, b = some (pcm, str) →
      (∃ buf t r, comfortNoisef (F := IEEE m) buf t = .ok r ∧ pcm = r.1) ∨
      (∃ buf d cur r, synthesizeTonef (F := IEEE m) buf d cur = .ok r ∧ pcm = r.1) ∨ RenderedWithin E pcm := by
  intro b hb pcm str e
  rcases runApi_fin hm he hE hv h20 (fresh_ok hs).1 (fresh_fin hs) ha h b hb _ e with hk | hk
  · rcases rendered_of hm hk with k | k
    · exact .inl k
    · exact .inr (.inr k)
  · exact .inr (.inl hk.2)

/-- **IMBE: as long as the exact log amplitudes of the received frames stay moderate**, each frame is comfort noise or
rendered within the bounds of `C75_frame`. The condition does not mention floating-point numbers. -/
theorem C75_imbe (hm : LibmAcc m) (htr : TrigAcc m) (E : Env (IEEE m)) (hE : Runs E) (s0 s s' : St (IEEE m))
    (ht : s0.tls = Tls.start) (hi : initMbeState s0 = .ok s) (ops : List (ImbeOp (IEEE m)))
    (hd : ∀ op ∈ ops, Bits 88 op.d ∧ op.errs2 ≤ 20) (p : Parms ℝ) (hx : ∀ bs, bs <+: ops → Moderate (track p bs))
    (bs : List (ImbeOp (IEEE m))) (op : ImbeOp (IEEE m)) (hb : bs ++ [op] <+: ops) (h : runOps (ImbeOp.run E) bs s = .ok s')
    (o : Out (IEEE m)) (ho : op.run E s' = .ok o) :
    (∃ buf t r, comfortNoisef (F := IEEE m) buf t = .ok r ∧ o.pcm = r.1) ∨ RenderedWithin E o.pcm :=
  rendered_of htr (imbe_voice hm htr E hE s0 s s' ht hi ops hd p hx bs op hb h o ho)

/-- **AMBE: as long as the exact amplitudes of the received frames stay moderate**, each frame is comfort noise, a tone or
rendered within the bounds of `C75_frame`. -/
theorem C75_ambe (hm : LibmAcc m) (hl : Log2Acc m) (htr : TrigAcc m) (E : Env (IEEE m)) (hE : Runs E) (s0 s s' : St (IEEE m))
    (ht : s0.tls = Tls.start) (hi : initAmbeState s0 = .ok s ∨ initMbeState s0 = .ok s) (ops : List (AmbeOp (IEEE m)))
    (hd : ∀ op ∈ ops, Bits 49 op.payload ∧ op.errs2 ≤ 20) (p : Parms ℝ) (hx : ∀ bs, bs <+: ops → ModerateA (ambeTrack p bs))
    (bs : List (AmbeOp (IEEE m))) (op : AmbeOp (IEEE m)) (hb : bs ++ [op] <+: ops) (h : runOps (AmbeOp.run E) bs s = .ok s')
    (o : Out (IEEE m)) (ho : op.run E s' = .ok o) :
    (∃ buf t r, comfortNoisef (F := IEEE m) buf t = .ok r ∧ o.pcm = r.1) ∨
    (∃ buf d cur r, synthesizeTonef (F := IEEE m) buf d cur = .ok r ∧ o.pcm = r.1) ∨ RenderedWithin E o.pcm := by
  rcases ambe_made hm hl htr E hE s0 s s' ht hi ops hd p hx bs op hb h o ho with hk | hk
  · rcases rendered_of htr hk with k | k
    · exact .inl k
    · exact .inr (.inr k)
  · exact .inr (.inl hk.2)

/-- 39 voiced harmonics of 159 Hz with amplitude 1. -/
def voicedSampleF : Parms (IEEE m) := { imbeInit 39 with w0 := lit 1 8, Vl := Arr.const 57 1 }

/-- Two frames of this sample meet the hypotheses. The amplitudes add up to 39 in each set. -/
example (hm : TrigAcc m) (E : Env (IEEE m)) (ha : E.alloc = false) : ∃ r r' : SynthRes (IEEE m),
    synthUnmuted E voicedSampleF voicedSampleF Tls.start = .ok r ∧ synthUnmuted E voicedSampleF r.cur Tls.start = .ok r' ∧
    OrdinarySet (voicedSampleF (m := m)) ∧ PhasesOk (voicedSampleF (m := m)) ∧ OrdinarySet r.cur ∧ PhasesOk r.cur ∧
    ∃ x : Fin 57 → Fin 160 → ℝ, (∀ l : Fin 57, 1 ≤ l.val → (l.val : Int) ≤ 39 →
        ContributionWithin (1 / 2 ^ 20) (1 / 1000) (valuesOf r.cur) (valuesOf r.prev) l (x l)) ∧
      ∀ n, ∃ v : ℚ, Val (r.out n) v ∧ |(v : ℝ) - clipTo (32767 * (95 / 100) / 7) (∑ l, x l n)| ≤ 6 / 10 := by
  have one : Val (lit 1 1 : IEEE m) 1 := val_of_rng (show rngB (lit 1 1 : IEEE libm0) 1 1 = true by decide +kernel)
  have w8 : Val (lit 1 8 : IEEE m) (1 / 8) := val_of_rng (show rngB (lit 1 8 : IEEE libm0) (1 / 8) (1 / 8) = true by decide +kernel)
  have f0 : Bnd (fi 0 : IEEE m) 0 := ⟨0, ⟨false, rfl⟩, by norm_num⟩
  have z0 : Bnd (lit 0 1 : IEEE m) 0 := ⟨0, zero_val, by norm_num⟩
  have hM : OrdinarySet (voicedSampleF (m := m)) := ⟨⟨1 / 8, w8, .inr (by norm_num), by norm_num⟩, fun l _ _ _ => ⟨1, one, by norm_num⟩,
    fun i => f0.mono (by norm_num)⟩
  have hP : PhasesOk (voicedSampleF (m := m)) := fun l _ => ⟨f0.mono (by positivity), z0.mono (by positivity)⟩
  have ht : CacheOk E Tls.start := CacheOk.start E
  have hL : (voicedSampleF (m := m)).L = 39 := rfl
  have hseed : SeedConv (voicedSampleF (m := m)).noiseSeed := .inl
    (show lt (neg (lit 1 1) : IEEE libm0) (lit 0 1) = true by decide +kernel)
  have run : ∀ p : Parms (IEEE m), p.L = 39 → ∃ r, synthUnmuted E voicedSampleF p Tls.start = .ok r := fun p hp => by
    obtain ⟨r, h, _⟩ := (synthUnmuted_ok (U := fun _ => False) E (voicedSampleF (m := m)) p Tls.start (by rw [hL]; decide)
      (by rw [hp]; decide) (.inl hseed) (.inl (edgeConv ⟨1 / 8, w8, by norm_num [abs_le]⟩ (by rw [hL]; decide)))).toOk
    exact ⟨r, h⟩
  obtain ⟨r, h⟩ := run voicedSampleF rfl
  have h1 := C75_run hm E _ _ hM hP (by rw [hL]; decide) (by rw [hL]; decide)
    (.frame voicedSampleF voicedSampleF Tls.start r .start hM (by rw [hL]; decide) (by rw [hL]; decide) ht h)
  have l1 : r.cur.L = 39 := (synthUnmuted_near hm hM hM hP (by rw [hL]; decide) (by rw [hL]; decide) (CacheOk.planOk ht) r h).1.1
  obtain ⟨r', h'⟩ := run r.cur l1
  obtain ⟨⟨x, x1, _, x3⟩, _⟩ := C75_frame hm E _ _ _ hM hM hP (by rw [hL]; decide) (by rw [hL]; decide) ht r h 0 le_rfl (by norm_num)
    (fun c => by rw [ha] at c; cases c)
  refine ⟨r, r', h, h', hM, hP, h1.1, h1.2.1, x, fun l a b => x1 l a (by rw [hL]; simpa using b), fun n => ?_⟩
  obtain ⟨v, vv, hv⟩ := x3 n
  refine ⟨v, vv, ?_⟩
  have hs : voicedSum 39 (valuesOf (voicedSampleF (m := m))) = 39 := by
    have e : ∀ l : Fin 57, (if 1 ≤ l.val ∧ (l.val : Int) ≤ 39 ∧ (valuesOf (voicedSampleF (m := m))).Vl l = 1 then
        |(valuesOf (voicedSampleF (m := m))).Ml l| else 0) = if 1 ≤ l.val ∧ l.val ≤ 39 then (1 : ℝ) else 0 := by
      intro l
      have a1 : (valuesOf (voicedSampleF (m := m))).Ml l = 1 := by
        show number (lit 1 1 : IEEE m) = 1
        rw [Val.number one]
        norm_num
      have a2 : (valuesOf (voicedSampleF (m := m))).Vl l = 1 := rfl
      rw [a1, a2, abs_one]
      congr 1
      exact propext ⟨fun ⟨p, q, _⟩ => ⟨p, by omega⟩, fun ⟨p, q⟩ => ⟨p, by omega, rfl⟩⟩
    unfold voicedSum
    rw [Finset.sum_congr rfl fun l _ => e l, Finset.sum_ite, Finset.sum_const_zero, add_zero, Finset.sum_const, nsmul_eq_mul, mul_one]
    have : (Finset.univ.filter fun l : Fin 57 => 1 ≤ l.val ∧ l.val ≤ 39).card = 39 := by decide +kernel
    rw [this]
    norm_num
  rw [if_neg (by rw [ha]; exact Bool.false_ne_true), add_zero, hL, hs] at hv
  refine hv.trans ?_
  norm_num

end Verif.Props
