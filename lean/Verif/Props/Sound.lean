import Verif.Lemmas.Tones
import Verif.Model.Version
import Verif.Lemmas.SynthFrame

/-!
# C28-C31, C33, C49, C50: samples, noise and tones
-/

namespace Verif.Props
open Verif Verif.Spec Verif.Model Verif.Num Verif.Gen Arith

variable {m : Libm}

/-! ## C28 -/

/-- The conversion of every sample that is not NaN is defined; its value is the product with 7, rounded to binary32,
limited to ±31128.65 and truncated towards zero; it fits ±31128. -/
theorem C28_value (x : FP) (hx : x ≠ .nan) : ∃ n : Int, shortSample (F := IEEE m) x = .ok n ∧ |n| ≤ 31128 ∧
    ∀ s q, x = .fin s q → n = FP.truncQ (max (-(15937869 / 512)) (min (15937869 / 512) (rnd F32 (7 * q)))) := by
  refine ⟨_, shortSample_eq x hx, ?_, ?_⟩
  · have := truncQ_abs (scaled_abs x)
    rwa [show ⌊maxQ⌋ = 31128 by unfold maxQ; rw [Int.floor_eq_iff]; norm_num] at this
  · rintro s q rfl
    rfl

/-- Infinities give the extreme values. -/
theorem C28_infinite : shortSample (F := IEEE m) (FP.inf false) = .ok 31128 ∧ shortSample (F := IEEE m) (FP.inf true) = .ok (-31128) := by
  constructor
  · rw [shortSample_eq _ (by simp)]
    exact congrArg Except.ok (by decide +kernel)
  · rw [shortSample_eq _ (by simp)]
    exact congrArg Except.ok (by decide +kernel)

/-- Larger samples never give smaller values. -/
theorem C28_monotone (x y : FP) (h : FP.leB x y = true) (a b : Int) (ha : shortSample (F := IEEE m) x = .ok a)
    (hb : shortSample (F := IEEE m) y = .ok b) : a ≤ b := by
  have hx : x ≠ .nan := by rintro rfl; cases h
  have hy : y ≠ .nan := by rintro rfl; cases x <;> cases h
  rw [shortSample_eq x hx] at ha
  rw [shortSample_eq y hy] at hb
  rw [← ok_inj ha, ← ok_inj hb]
  exact truncQ_mono (scaled_mono h)

/-- The conversion is odd. -/
theorem C28_odd (x : FP) (a : Int) (ha : shortSample (F := IEEE m) x = .ok a) :
    shortSample (F := IEEE m) (FP.neg x) = .ok (-a) := by
  have hx : x ≠ .nan := by
    rintro rfl
    rw [shortSample_nan] at ha
    cases ha
  have hn : FP.neg x ≠ .nan := by cases x <;> simp_all [FP.neg]
  rw [shortSample_eq x hx] at ha
  rw [shortSample_eq _ hn, scaled_neg x, truncQ_neg, ok_inj ha]

/-- The SSE2 conversion gives the same value. -/
theorem C28_sse2 (x : FP) (a : Int) (ha : shortSample (F := IEEE m) x = .ok a) : shortSampleSse2 (F := IEEE m) x = a := by
  have hx : x ≠ .nan := by
    rintro rfl
    rw [shortSample_nan] at ha
    cases ha
  rw [shortSample_eq x hx] at ha
  rw [shortSampleSse2_eq x hx, ok_inj ha]

/-- The scalar conversion of NaN is undefined; the SSE2 conversion gives -31128. -/
theorem C28_nan : shortSample (F := IEEE m) FP.nan = .error .floatToInt ∧ shortSampleSse2 (F := IEEE m) FP.nan = -31128 :=
  ⟨shortSample_nan, shortSampleSse2_nan⟩

/-- Whole buffers: both implementations agree on every buffer without NaN. -/
theorem C28_buffers (inp : Arr 160 (IEEE m)) (h : ∀ i, inp i ≠ FP.nan) (out : Arr 160 Int) :
    ∃ r, floatToShort inp out = .ok r ∧ floatToShortSse2 inp out = .ok r ∧ ∀ i, |r i| ≤ 31128 := by
  have key : ∀ i, ∃ n : Int, shortSample (inp i) = .ok n ∧ |n| ≤ 31128 := fun i => by
    obtain ⟨n, h1, h2, _⟩ := C28_value (m := m) (inp i) (h i)
    exact ⟨n, h1, h2⟩
  choose r h1 h2 using key
  refine ⟨r, (floatToShort_iff inp out r).2 h1, ?_, h2⟩
  unfold floatToShortSse2
  have e : loop 160 (fun i (out : Arr 160 Int) => do out.wr i (shortSampleSse2 (← inp.rd i))) out =
      loop 160 (fun i (out : Arr 160 Int) => do out.wr i (← (do .ok (shortSampleSse2 (← inp.rd i)) : Exec Int))) out :=
    loop_congr fun i hi => funext fun s => by rw [Arr.rd_nat hi, ok_bind, ok_bind, ok_bind]
  rw [e, copy_loop (fun i => if c : i < 160 then r ⟨i, c⟩ else 0) (fun i => do .ok (shortSampleSse2 (← inp.rd i)))
    (fun i hi => by rw [Arr.rd_nat hi, ok_bind, dif_pos hi]; exact congrArg Except.ok (C28_sse2 _ _ (h1 _))) out (le_refl _)]
  refine congrArg Except.ok (funext fun j => ?_)
  rw [if_pos j.isLt, dif_pos j.isLt]

/-- A buffer to which the theorem applies, with values far out of range. -/
example : ∃ inp : Arr 160 (IEEE m), (∀ i, inp i ≠ FP.nan) ∧ inp 0 = FP.inf true ∧ inp 1 = FP.fin false 1000000 :=
  ⟨fun i => if i.val = 0 then FP.inf true else FP.fin false 1000000, fun i => by
    by_cases h : i.val = 0
    · exact (if_pos h).trans_ne (show FP.inf true ≠ FP.nan by simp)
    · exact (if_neg h).trans_ne (show FP.fin false 1000000 ≠ FP.nan by simp), rfl, rfl⟩

/-! ## C29 -/

theorem comfortNoisef_bnd (buf : Arr 160 (IEEE m)) (t : Tls (IEEE m)) :
    Post (comfortNoisef buf t) fun r => ∀ i, ∃ v, v < 2 ^ 24 ∧ r.1 i = comfortSample v := by
  unfold comfortNoisef
  refine (loop_post (Inv := fun k (s : Arr 160 (IEEE m) × Tls (IEEE m)) => ∀ i : Fin 160, i.val < k →
    ∃ v, v < 2 ^ 24 ∧ s.1 i = comfortSample v) (fun i h => absurd h (Nat.not_lt_zero _)) ?_).mono fun r h i => h i i.isLt
  intro k hk s hs
  dsimp only
  rw [Arr.wr_nat hk]
  refine Post.pure fun i hi => ?_
  by_cases e : i.val = k
  · refine ⟨(javaNext24 s.2).1, ?_, Arr.set_same e⟩
    unfold javaNext24
    dsimp only
    rw [Nat.shiftRight_eq_div_pow, javaStep_eq, Nat.div_lt_iff_lt_mul (by decide)]
    exact Nat.mod_lt _ (by decide)
  · obtain ⟨v, h1, h2⟩ := hs i (by omega)
    exact ⟨v, h1, (Arr.set_ne e).trans h2⟩

theorem synthUnmuted_clip (E : Env (IEEE m)) (cur prev : Parms (IEEE m)) (t : Tls (IEEE m)) :
    Post (synthUnmuted E cur prev t) fun r => ∃ raw : Arr 160 (IEEE m), ∀ i, r.out i = clipSample (raw i) := by
  unfold synthUnmuted
  iterate 5 refine Post.bind Post.true fun _ _ => ?_
  refine Post.bind Post.true fun pt _ => ?_
  obtain ⟨pl, t'⟩ := pt
  dsimp only
  cases pl with
  | none =>
    dsimp only
    rw [clipBuffer_eq]
    exact Post.pure ⟨_, fun _ => rfl⟩
  | some P =>
    refine Post.bind Post.true fun r _ => ?_
    rw [clipBuffer_eq]
    exact Post.pure ⟨_, fun _ => rfl⟩

/-- Every sample of synthesised speech, muted or not, is NaN or within ±4446.95 = ±32767·0.95/7. -/
theorem C29_bound (E : Env (IEEE m)) (a : Nat) (out : Arr 160 (IEEE m)) (cur prev : Parms (IEEE m)) (t : Tls (IEEE m))
    (uvq : Int) (r : SynthRes (IEEE m)) (h : synthesizeSpeechf E a out cur prev t uvq = .ok r) (i : Fin 160) :
    r.out i = FP.nan ∨ ∃ q : ℚ, Val (r.out i) q ∧ |q| ≤ 4553677 / 1024 := by
  unfold synthesizeSpeechf at h
  obtain ⟨⟨cur', t'⟩, _, h⟩ := bind_ok h
  dsimp only at h
  by_cases hm : synthMuted cur' = true
  · rw [if_pos hm] at h
    obtain ⟨x, hx, h⟩ := bind_ok h
    rw [← ok_inj h]
    obtain ⟨v, hv, e⟩ := comfortNoisef_bnd _ _ _ hx i
    right
    dsimp only
    rw [e]
    obtain ⟨h1, h2⟩ := comfortQ_range hv
    refine ⟨_, comfortSample_val hv, ?_⟩
    unfold gainQ at h1 h2
    rw [abs_le]
    unfold gainQ
    constructor <;> linarith
  · rw [if_neg hm] at h
    obtain ⟨raw, hr⟩ := synthUnmuted_clip E cur' prev t' r h
    rw [hr i, clipSample_ieee]
    rcases clipR_cases (raw i) with ⟨_, e⟩ | ⟨_, q, hq, hb⟩
    · exact .inl e
    · exact .inr ⟨q, hq, hb⟩

/-- The 16-bit samples are defined exactly when no float sample is NaN, and then they are within ±31128. -/
theorem C29_short_defined (E : Env (IEEE m)) (a : Nat) (sout : Arr 160 Int) (cur prev : Parms (IEEE m)) (t : Tls (IEEE m))
    (uvq : Int) (r : SynthRes (IEEE m))
    (h : synthesizeSpeechf E a (Arr.const 160 (fi 0)) cur prev t uvq = .ok r) :
    ((∃ s, synthesizeSpeech E a sout cur prev t uvq = .ok (s, r)) ↔ ∀ i, r.out i ≠ FP.nan) ∧
    ∀ s, synthesizeSpeech E a sout cur prev t uvq = .ok (s, r) → ∀ i, |s i| ≤ 31128 := by
  unfold synthesizeSpeech
  rw [h, ok_bind]
  refine ⟨⟨?_, fun hn => ?_⟩, ?_⟩
  · rintro ⟨s, hs⟩ i hi
    obtain ⟨s', h1, _⟩ := bind_ok hs
    have := (floatToShort_iff _ _ _).1 h1 i
    rw [hi] at this
    rw [show shortSample (F := IEEE m) FP.nan = .error .floatToInt from shortSample_nan] at this
    cases this
  · obtain ⟨s, h1, _⟩ := C28_buffers r.out hn sout
    exact ⟨s, by rw [h1, ok_bind]⟩
  · intro s hs i
    obtain ⟨s', h1, h2⟩ := bind_ok hs
    rw [← (Prod.mk.inj (ok_inj h2)).1]
    have := (floatToShort_iff _ _ _).1 h1 i
    have hn : r.out i ≠ FP.nan := by
      intro e
      rw [e, show shortSample (F := IEEE m) FP.nan = .error .floatToInt from shortSample_nan] at this
      cases this
    obtain ⟨n, g1, g2, _⟩ := C28_value (m := m) (r.out i) hn
    rw [g1] at this
    rw [← ok_inj this]
    exact g2

/-- Clipping keeps NaN and creates none. -/
theorem C29_clip_nan (x : FP) : clipSample (F := IEEE m) x = FP.nan ↔ x = FP.nan := by
  rw [show clipSample (F := IEEE m) x = clipR x from clipSample_ieee (m := m) x]
  rcases clipR_cases x with ⟨h, e⟩ | ⟨h, q, ⟨s, e⟩, _⟩
  · exact ⟨fun _ => h, fun _ => e⟩
  · rw [e]
    exact ⟨fun h' => (by cases h'), fun h' => absurd h' h⟩

/-- Samples within the limit are not changed; others move to the limit. -/
theorem C29_clip_value (s : Bool) (q : ℚ) :
    Val (clipSample (F := IEEE m) (FP.fin s q)) (max (-(4553677 / 1024)) (min (4553677 / 1024) q)) := by
  rw [show clipSample (F := IEEE m) (FP.fin s q) = clipR (FP.fin s q) from clipSample_ieee (m := m) _]
  exact clipR_fin s q

/-! ## C30 -/

/-- The generator of `java.util.Random`: sample `i` of comfort-noise frame `j` after seeding with `s` is computed from
result number `160 j + i` of `next(24)`; `v` becomes `(2 v / 2^24 - 1) · g`, rounded once to binary32, with
`g` the binary32 value of `0.003 · 32767 / 7`. -/
theorem C30_stream (s : Nat) (t : Tls (IEEE m)) (j : Nat) (buf : Arr 160 (IEEE m)) :
    ∃ tj, afterComfort j (setThreadRngSeed s t) = .ok tj ∧ ∃ r, comfortNoisef buf tj = .ok r ∧ ∀ i : Fin 160,
      Val (r.1 i) (rnd F32 ((2 * (javaNext (effectiveSeed s) 24 (160 * j + i.val) : ℚ) / 2 ^ 24 - 1) * (14725153 / 1048576))) := by
  obtain ⟨tj, h1, h2⟩ := afterComfort_at (seeded_at s t) j
  refine ⟨tj, h1, _, comfortNoisef_at h2 buf, fun i => ?_⟩
  rw [Nat.zero_add]
  have := comfortSample_val (m := m) (javaNext24_lt (effectiveSeed s) (160 * j + i.val))
  rw [show ((2 : ℚ) ^ 24) = 16777216 by norm_num]
  exact this

/-- A thread that never calls `mbe_setThreadRngSeed` gets the stream of seed 0x12345678. -/
theorem C30_unseeded (j : Nat) (buf : Arr 160 (IEEE m)) :
    ∃ tj, afterComfort j (Tls.start : Tls (IEEE m)) = .ok tj ∧ ∃ r, comfortNoisef buf tj = .ok r ∧ ∀ i : Fin 160,
      Val (r.1 i) (rnd F32 ((2 * (javaNext 0x12345678 24 (160 * j + i.val) : ℚ) / 2 ^ 24 - 1) * (14725153 / 1048576))) := by
  have h0 : ComfortAt 0x12345678 0 { (Tls.start : Tls (IEEE m)) with comfortSeed48 := javaState 0x12345678 0, comfortSeeded := true } :=
    ⟨rfl, rfl⟩
  have fin : ∀ k, Val (comfortSample (javaNext 0x12345678 24 k) : IEEE m)
      (rnd F32 ((2 * (javaNext 0x12345678 24 k : ℚ) / 2 ^ 24 - 1) * (14725153 / 1048576))) := fun k => by
    rw [show ((2 : ℚ) ^ 24) = 16777216 by norm_num]
    exact comfortSample_val (m := m) (javaNext24_lt 0x12345678 k)
  obtain ⟨tj, h1, h2⟩ := afterComfort_at h0 j
  cases j with
  | zero =>
    refine ⟨_, rfl, _, (comfortNoisef_unseeded buf).trans (comfortNoisef_at h0 buf), fun i => ?_⟩
    dsimp only
    rw [Nat.zero_add]
    exact fin _
  | succ j =>
    refine ⟨tj, ?_, _, comfortNoisef_at h2 buf, fun i => ?_⟩
    · unfold afterComfort at h1 ⊢
      rw [comfortNoisef_unseeded]
      exact h1
    · rw [Nat.zero_add]
      exact fin _

/-- Every frame of comfort noise consumes exactly 160 results of the generator. -/
theorem C30_draws (s : Nat) (t : Tls (IEEE m)) (j : Nat) :
    ∃ tj, afterComfort j (setThreadRngSeed s t) = .ok tj ∧ tj.comfortSeed48 = javaState (effectiveSeed s) (160 * j) := by
  obtain ⟨tj, h1, h2⟩ := afterComfort_at (seeded_at s t) j
  exact ⟨tj, h1, by rw [h2.2, Nat.zero_add]⟩

/-- Samples are at least `-g` and less than `g`, whatever the thread-local state; the 16-bit version is defined and within
±98. -/
theorem C30_bound (buf : Arr 160 (IEEE m)) (out : Arr 160 Int) (t : Tls (IEEE m)) :
    ∃ r, comfortNoisef buf t = .ok r ∧
      (∀ i, ∃ q : ℚ, Val (r.1 i) q ∧ -(14725153 / 1048576) ≤ q ∧ q < 14725153 / 1048576) ∧
      ∃ s, comfortNoise out t = .ok (s, r.2) ∧ ∀ i, |s i| ≤ 98 := by
  have fine : ∀ b : Arr 160 (IEEE m), ∃ r, comfortNoisef b t = .ok r := fun b => by
    unfold comfortNoisef
    have := loop_inv (n := 160) (f := fun i (s : Arr 160 (IEEE m) × Tls (IEEE m)) => (do
      let (v, t) := javaNext24 s.2
      .ok (← s.1.wr i (comfortSample v), t) : Exec (Arr 160 (IEEE m) × Tls (IEEE m)))) (s := (b, t)) (fun _ _ => True) trivial
      (fun i hi s _ => by
        dsimp only
        rw [Arr.wr_nat hi]
        exact Ok.ok trivial)
    obtain ⟨r, hr, _⟩ := this
    exact ⟨r, hr⟩
  obtain ⟨r, hr⟩ := fine buf
  have hb := comfortNoisef_bnd buf t r hr
  refine ⟨r, hr, fun i => ?_, ?_⟩
  · obtain ⟨v, hv, e⟩ := hb i
    rw [e]
    obtain ⟨h1, h2⟩ := comfortQ_range hv
    exact ⟨_, comfortSample_val hv, h1, h2⟩
  · have key : ∀ i, ∃ n : Int, shortSample (r.1 i) = .ok n ∧ |n| ≤ 98 := fun i => by
      obtain ⟨v, hv, e⟩ := hb i
      rw [e]
      exact short_comfort hv
    choose s h1 h2 using key
    refine ⟨s, ?_, h2⟩
    unfold comfortNoise
    rw [comfortNoisef_indep _ buf, hr, ok_bind, (floatToShort_iff r.1 out s).2 h1, ok_bind]

/-- The first results for seed 42 are those of the Java implementation (`new Random(42).nextInt()` is -1170105035, whose
top 24 bits as an unsigned number are 12206493). -/
example : javaNext 42 24 0 = 12206493 ∧ javaNext 42 32 0 = 2 ^ 32 - 1170105035 ∧ javaNext 42 32 1 = 234785527 := by decide

/-! ## C31 -/

/-- One call on a running stream: the buffer is the saved overlap followed by 160 new members of the sequence that starts
with the seed, the saved overlap becomes the last 96 members, and the seed continues the sequence. Every member is
represented exactly. -/
theorem C31_step (x : Nat) (hx : x < 53125) (buf : Arr 256 (IEEE m)) (ov : Arr 96 (IEEE m)) (t : Tls (IEEE m)) :
    ∃ r, noiseOverlap buf (ofInt (x : Int)) ov t = .ok r ∧
      (∀ i : Fin 256, (h : i.val < 96) → r.buf i = ov ⟨i.val, h⟩) ∧
      (∀ i : Fin 256, 96 ≤ i.val → Val (r.buf i) (lcgSeq x (i.val - 96))) ∧
      (∀ i : Fin 96, r.overlap i = r.buf ⟨160 + i.val, by omega⟩) ∧ Val r.seed (lcgSeq x 160) ∧ r.tls = t := by
  obtain ⟨g0, g1⟩ := ofNat_seed_ok (m := m) (x := x) (by omega)
  refine ⟨_, noiseOverlap_eq buf ov t g0 g1, fun i h => dif_pos h, fun i h => ?_, fun i => ?_, ?_, rfl⟩
  · dsimp only
    rw [dif_neg (by omega)]
    exact seed_val (by have := lcgSeq_lt x (i.val - 96); omega)
  · dsimp only
    rw [dif_neg (by omega), show 160 + i.val - 96 = i.val + 64 by omega]
  · exact seed_val (by have := lcgSeq_lt x 160; omega)

/-- From the initial state (seed -1) on: the first call gives silence, and buffer `k` holds the members
`160 k - 256 .. 160 k - 1` of the noise signal, which is silent before its member 0. The sequence starts with the thread's
seed if one was set and not yet used, with 3147 otherwise. -/
theorem C31_windows (ov : Arr 96 (IEEE m)) (t : Tls (IEEE m)) (ht : t.uvSeedState < 53125) (k : Nat) :
    ∃ r, noiseCalls k (neg (lit 1 1)) ov t = .ok r ∧
      ∀ i : Fin 256, Val (r.buf i) (noiseSignal (if t.uvSeedOverride then t.uvSeedState else 3147) (160 * (k : Int) + i.val - 256)) := by
  have neg1 : lt (neg (lit 1 1) : IEEE m) (lit 0 1) = true := by
    have h : lt (neg (lit 1 1) : IEEE libm0) (lit 0 1) = true := by decide +kernel
    exact h
  have z : Val (fi 0 : IEEE m) 0 := ⟨false, ofInt0_eq⟩
  have l3147 : (lit 3147 1 : IEEE m) = ofInt ((3147 : Nat) : Int) := by
    have h : (lit 3147 1 : IEEE libm0) = ofInt ((3147 : Nat) : Int) := by decide +kernel
    exact h
  generalize hx : (if t.uvSeedOverride then t.uvSeedState else 3147) = x
  have hx' : x < 53125 := by rw [← hx]; split <;> omega
  have first : ∀ b, ∃ t', noiseOverlap b (neg (lit 1 1)) ov t =
      .ok ⟨Arr.const 256 (fi 0), ofInt (x : Int), Arr.const 96 (fi 0), t'⟩ := by
    intro b
    unfold noiseOverlap
    rw [neg1, if_pos rfl]
    by_cases h : t.uvSeedOverride = true
    · rw [if_pos h]
      rw [if_pos h] at hx
      exact ⟨_, by rw [hx]⟩
    · rw [if_neg h]
      rw [if_neg h] at hx
      exact ⟨_, by rw [l3147, hx]⟩
  obtain ⟨t', ht'⟩ := first (Arr.const 256 (fi 0))
  obtain ⟨g0, g1⟩ := ofNat_seed_ok (m := m) (x := x) (by omega)
  have shift : ∀ k, noiseCalls (k + 1) (neg (lit 1 1)) ov t = noiseCalls k (ofInt (x : Int) : IEEE m) (Arr.const 96 (fi 0)) t' := by
    intro k
    induction k with
    | zero =>
      show (noiseCalls 0 (neg (lit 1 1)) ov t >>= fun r => noiseOverlap (Arr.const 256 (fi 0)) r.seed r.overlap r.tls) = _
      unfold noiseCalls
      rw [ht', ok_bind]
    | succ k ih =>
      show (noiseCalls (k + 1) (neg (lit 1 1)) ov t >>= fun r => noiseOverlap (Arr.const 256 (fi 0)) r.seed r.overlap r.tls) = _
      rw [ih]
      rfl
  cases k with
  | zero =>
    refine ⟨_, ht', fun i => ?_⟩
    unfold noiseSignal
    rw [if_pos (by omega)]
    exact_mod_cast z
  | succ k =>
    rw [shift k]
    refine ⟨_, noiseCalls_eq (Arr.const 96 (fi 0)) t' g0 g1 k, fun i => ?_⟩
    unfold noiseSignal
    dsimp only
    by_cases c : i.val < 96
    · rw [dif_pos c]
      by_cases hk : k = 0
      · rw [if_pos hk, if_pos (by subst hk; omega)]
        exact_mod_cast z
      · rw [if_neg hk, if_neg (by push_cast; omega),
          show (160 * ((k + 1 : Nat) : Int) + i.val - 256).toNat = 160 * k + i.val - 96 by push_cast; omega]
        exact seed_val (by have := lcgSeq_lt x (160 * k + i.val - 96); omega)
    · rw [dif_neg c, if_neg (by push_cast; omega),
        show (160 * ((k + 1 : Nat) : Int) + i.val - 256).toNat = 160 * k + i.val - 96 by push_cast; omega]
      exact seed_val (by have := lcgSeq_lt x (160 * k + i.val - 96); omega)

/-- The plain generator writes the same sequence. -/
theorem C31_plain (n x : Nat) (hx : x < 53125) (buf : Arr n (IEEE m)) :
    ∃ r, noiseLcg n buf (ofInt (x : Int)) = .ok r ∧ (∀ i : Fin n, Val (r.1 i) (lcgSeq x i.val)) ∧ Val r.2 (lcgSeq x n) := by
  obtain ⟨_, g1⟩ := ofNat_seed_ok (m := m) (x := x) (by omega)
  refine ⟨_, noiseLcg_eq buf g1, fun i => ?_, ?_⟩
  · exact seed_val (by have := lcgSeq_lt x i.val; omega)
  · exact seed_val (by have := lcgSeq_lt x n; omega)

/-- Members of the sequence stay below 53125, and the seed set by the caller selects the start. -/
theorem C31_seed (s : Nat) (t : Tls (IEEE m)) : (setThreadRngSeed s t).uvSeedOverride = true ∧
    (setThreadRngSeed s t).uvSeedState = effectiveSeed s % 53125 ∧ ∀ x k, lcgSeq x k < 53125 := by
  refine ⟨rfl, ?_, lcgSeq_lt⟩
  unfold setThreadRngSeed seedUnvoicedNoise effectiveSeed
  show (if (if s = 0 then zeroSeed else s) = 0 then zeroSeed else if s = 0 then zeroSeed else s) % 53125 = _
  by_cases h : s = 0
  · subst h; rfl
  · simp only [if_neg h]

example : lcgSeq 3147 1 = 18100 ∧ lcgSeq 3147 2 = 25063 := by decide

/-! ## C33 -/

/-- The frequency table has an entry exactly for the documented indices. -/
theorem C33_table (id : Nat) : (lookupToneFreqs id : IEEE m × IEEE m × Bool).2.2 = (toneHz id).isSome := by
  cases h : toneHz id with
  | none => exact lookup_none h
  | some p =>
    have hid : id < 256 := by
      by_contra hc
      rw [toneHz_ge (by omega)] at h
      cases h
    exact (tone_some (m := m) hid (a := p.1) (b := p.2) h).1

/-- Frame `k` of a sequence of AMBE 2450 tone frames with the same payload: sample `n` uses the phases reached
`160 k + n + 1` steps after the phases `swn`, `un` at the start, where the steps are the frequencies of the tone at 8 kHz
in units of `2^-32` turns. -/
theorem C33_phase (d : Nat → Int) (hd : Bits 49 d) (a b : ℚ) (h : toneHz (toneIdx2450 d) = some (a, b)) (p : Parms (IEEE m))
    (k : Nat) (buf : Arr 160 (IEEE m)) :
    ∃ q, afterTone d k p = .ok q ∧ ∃ r, synthesizeTonef buf d q = .ok r ∧ ∀ n : Fin 160,
      r.1 n = if a = b then toneGain (toneAmp2450 d) *ᶠ toneSample (phaseAt (toUns32 p.swn) (stepHz a) (160 * k + n.val + 1))
        else ((lit 5 10 *ᶠ toneGain (toneAmp2450 d)) *ᶠ toneSample (phaseAt (toUns32 p.swn) (stepHz a) (160 * k + n.val + 1)))
          +ᶠ ((lit 5 10 *ᶠ toneGain (toneAmp2450 d)) *ᶠ toneSample (phaseAt (toUns32 p.un) (stepHz b) (160 * k + n.val + 1))) := by
  obtain ⟨q, h1, h2, h3⟩ := afterTone_eq hd h k p
  refine ⟨q, h1, _, synthesizeTonef_some hd h buf q, fun n => ?_⟩
  dsimp only
  rw [h2, h3, phaseAt_add, phaseAt_add, show 160 * k + (n.val + 1) = 160 * k + n.val + 1 by omega]
  by_cases e : a = b
  · rw [if_pos e, if_pos e, decide_eq_true e]; rfl
  · rw [if_neg e, decide_eq_false e, if_neg e]; rfl

/-- An index outside the table: silence, and nothing else changes. -/
theorem C33_silence (d : Nat → Int) (hd : Bits 49 d) (h : toneHz (toneIdx2450 d) = none) (p : Parms (IEEE m))
    (buf : Arr 160 (IEEE m)) : synthesizeTonef buf d p = .ok (fun _ => fi 0, p) := synthesizeTonef_none hd h buf p

/-- The same for D-STAR tones, which are single tones with a fixed amplitude. -/
theorem C33_dstar (id : Int) (p : Parms (IEEE m)) (k : Nat) (buf : Arr 160 (IEEE m)) (d : Nat → Int) :
    (5 ≤ id ∧ id ≤ 122 → ∃ q, afterToneDstar id k p = .ok q ∧ ∃ r, synthesizeTonefdstar buf d q id = .ok r ∧ ∀ n : Fin 160,
      r.1 n = toneGain 103 *ᶠ toneSample (phaseAt (toUns32 p.swn) (stepHz (125 / 4 * id)) (160 * k + n.val + 1))) ∧
    (¬ (5 ≤ id ∧ id ≤ 122) → synthesizeTonefdstar buf d p id = .ok (fun _ => fi 0, p)) := by
  refine ⟨fun hid => ?_, fun hid => synthesizeTonefdstar_out hid buf d p⟩
  obtain ⟨j, rfl⟩ : ∃ j : Nat, id = j := ⟨id.toNat, by omega⟩
  obtain ⟨q, h1, h2⟩ := afterToneDstar_eq (m := m) (id := j) (by omega) (by omega) k p
  refine ⟨q, h1, _, synthesizeTonefdstar_in (by omega) (by omega) buf d q, fun n => ?_⟩
  dsimp only
  rw [h2, phaseAt_add, show 160 * k + (n.val + 1) = 160 * k + n.val + 1 by omega]
  push_cast
  rfl

/-- A tone frame (DTMF key 5, index 133) that meets the hypotheses. -/
example : ∃ d, Bits 49 d ∧ toneHz (toneIdx2450 d) = some (1336, 770) :=
  ⟨fun i => if i = 12 ∨ i = 17 ∨ i = 19 then 1 else 0, fun i _ => by by_cases h : i = 12 ∨ i = 17 ∨ i = 19 <;> simp [h], by decide⟩

/-! ## C49 -/

/-- The generator state is nonzero after seeding with any seed, and the generator maps the nonzero 32-bit values one-to-one
onto themselves, so that its replacement of zero is never used. -/
theorem C49_bijective : Set.BijOn xorshiftStep {x | 0 < x ∧ x < 2 ^ 32} {x | 0 < x ∧ x < 2 ^ 32} := by
  have maps : Set.MapsTo xorshiftStep {x | 0 < x ∧ x < 2 ^ 32} {x | 0 < x ∧ x < 2 ^ 32} :=
    fun x hx => ⟨Nat.pos_of_ne_zero (xorshiftStep_pos hx.2 (by have := hx.1; omega)), xorshiftStep_lt hx.2⟩
  have inj : Set.InjOn xorshiftStep {x | 0 < x ∧ x < 2 ^ 32} := fun x hx y hy h => xorshiftStep_inj hx.2 hy.2 h
  have fin : {x : Nat | 0 < x ∧ x < 2 ^ 32}.Finite := (Set.finite_lt_nat (2 ^ 32)).subset fun x hx => hx.2
  exact ⟨maps, inj, ((fin.injOn_iff_bijOn_of_mapsTo maps).1 inj).surjOn⟩

/-- `k` draws. -/
def draws {F : Type} [Arith F] : Nat → Tls F → Tls F
  | 0, t => t
  | k + 1, t => draws k (xorshift32 t).2

theorem C49_never_zero {F : Type} [Arith F] (seed : Nat) (hs : seed < 2 ^ 32) (t : Tls F) (k : Nat) :
    0 < (draws k (setThreadRngSeed seed t)).rngState ∧ (draws k (setThreadRngSeed seed t)).rngState < 2 ^ 32 ∧
    (xorshift32 (draws k (setThreadRngSeed seed t))).1 = xorshiftStep (draws k (setThreadRngSeed seed t)).rngState := by
  have key : ∀ k (t : Tls F), 0 < t.rngState ∧ t.rngState < 2 ^ 32 → 0 < (draws k t).rngState ∧ (draws k t).rngState < 2 ^ 32 := by
    intro k
    induction k with
    | zero => exact fun t h => h
    | succ k ih =>
      intro t h
      refine ih _ ?_
      have hz := xorshiftStep_pos h.2 (by omega)
      show 0 < (if xorshiftStep t.rngState = 0 then zeroSeed else xorshiftStep t.rngState) ∧
        (if xorshiftStep t.rngState = 0 then zeroSeed else xorshiftStep t.rngState) < 2 ^ 32
      rw [if_neg hz]
      exact ⟨Nat.pos_of_ne_zero hz, xorshiftStep_lt h.2⟩
  have h0 : 0 < (setThreadRngSeed seed t).rngState ∧ (setThreadRngSeed seed t).rngState < 2 ^ 32 := by
    show 0 < (if seed = 0 then zeroSeed else seed) ∧ (if seed = 0 then zeroSeed else seed) < 2 ^ 32
    split
    · unfold zeroSeed; omega
    · omega
  have h := key k _ h0
  refine ⟨h.1, h.2, ?_⟩
  unfold xorshift32
  dsimp only
  rw [if_neg (xorshiftStep_pos h.2 (by omega))]

/-- The state recurs: the sequence of states is periodic from its start. -/
theorem C49_periodic (x : Nat) (hx : 0 < x ∧ x < 2 ^ 32) : ∃ p, 0 < p ∧ xorshiftStep^[p] x = x := by
  have hb := C49_bijective
  have fin : Finite {x : Nat | 0 < x ∧ x < 2 ^ 32} := ((Set.finite_lt_nat (2 ^ 32)).subset fun x hx => hx.2).to_subtype
  have hi : Function.Injective (hb.mapsTo.restrict xorshiftStep _ _) := (Set.MapsTo.restrict_inj hb.mapsTo).2 hb.injOn
  obtain ⟨p, hp, hper⟩ := Function.Injective.mem_periodicPts hi ⟨x, hx⟩
  refine ⟨p, hp, ?_⟩
  have val : ∀ k (y : {x : Nat | 0 < x ∧ x < 2 ^ 32}),
      ((hb.mapsTo.restrict xorshiftStep _ _)^[k] y).val = xorshiftStep^[k] y.val := by
    intro k
    induction k with
    | zero => exact fun _ => rfl
    | succ k ih =>
      intro y
      rw [Function.iterate_succ_apply, Function.iterate_succ_apply, ih]
      rfl
  have h := congrArg Subtype.val hper
  rw [val] at h
  exact h

example : xorshiftStep 1 = 270369 := by decide

/-! ## C50 -/

/-- For every version string and every buffer of at least 32 bytes: the first 31 characters at most, then a NUL; the rest
of the buffer keeps its contents. -/
theorem C50_copy (version : List Int) (n : Nat) (hn : 32 ≤ n) (buf : Arr n Int) :
    ∃ r, printVersion version (some buf) = .ok (some r) ∧
      (∀ i : Fin n, i.val < min (cstr version).length 31 → some (r i) = (cstr version)[i.val]?) ∧
      (∀ i : Fin n, i.val = min (cstr version).length 31 → r i = 0) ∧
      (∀ i : Fin n, min (cstr version).length 31 < i.val → r i = buf i) := by
  unfold printVersion snprintfS
  have hk : min (cstr version).length (32 - 1) ≤ 31 := Nat.min_le_right _ _
  generalize hkk : min (cstr version).length (32 - 1) = k at hk
  dsimp only
  have hl : k ≤ (cstr version).length := by rw [← hkk]; exact Nat.min_le_left _ _
  have c := copy_loop (fun i => (cstr version).getD i 0) (fun i => .ok ((cstr version).getD i 0)) (fun _ _ => rfl) buf
    (show k ≤ n by omega)
  simp only [ok_bind] at c
  rw [c, ok_bind, Arr.wr_nat (show k < n by omega), ok_bind]
  refine ⟨_, rfl, fun i hi => ?_, fun i hi => Arr.set_same hi, fun i hi => ?_⟩
  · rw [Arr.set_ne (by omega), if_pos hi, List.getD_eq_getElem?_getD, List.getElem?_eq_getElem (by omega)]
    rfl
  · rw [Arr.set_ne (by omega), if_neg (by omega)]

/-- A null pointer is ignored. -/
theorem C50_null (version : List Int) (n : Nat) : printVersion (n := n) version none = .ok none := rfl

/-- The function touches no byte beyond the 32nd: it is defined for a buffer of 32 bytes whatever the version string. A
shorter buffer is overrun by a long version string. -/
theorem C50_size : (∀ version (buf : Arr 32 Int), ∃ r, printVersion version (some buf) = .ok (some r)) ∧
    ∃ version, ∀ buf : Arr 31 Int, printVersion version (some buf) = .error .oobWrite := by
  refine ⟨fun v buf => ?_, List.replicate 40 65, fun buf => ?_⟩
  · obtain ⟨r, hr, _⟩ := C50_copy v 32 (le_refl _) buf
    exact ⟨r, hr⟩
  · unfold printVersion snprintfS
    have e : min (cstr (List.replicate 40 65)).length (32 - 1) = 31 := by decide
    dsimp only
    rw [e]
    have c := copy_loop (fun i => (cstr (List.replicate 40 65)).getD i 0) (fun i => .ok ((cstr (List.replicate 40 65)).getD i 0))
      (fun _ _ => rfl) buf (le_refl _)
    simp only [ok_bind] at c
    rw [c, ok_bind, Arr.wr_error (by omega)]
    rfl

example : ∃ r, printVersion [50, 46, 48] (some (Arr.const 32 7)) = .ok (some r) ∧ r 0 = 50 ∧ r 2 = 48 ∧ r 3 = 0 ∧ r 4 = 7 := by
  obtain ⟨r, h1, h2, h3, h4⟩ := C50_copy [50, 46, 48] 32 (le_refl _) (Arr.const 32 7)
  refine ⟨r, h1, ?_, ?_, h3 3 (by decide), h4 4 (by decide)⟩
  · exact Option.some.inj (h2 0 (by decide))
  · exact Option.some.inj (h2 2 (by decide))

end Verif.Props
