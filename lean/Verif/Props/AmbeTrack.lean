import Verif.Lemmas.AmbeTrack
import Verif.Props.Track

/-!
# C72: the binary32 parameters of AMBE frames track those of exact arithmetic
-/

namespace Verif.Props
open Verif Verif.Spec Verif.Model Verif.Num Verif.Gen Arith
variable {m : Libm}

/-- The state from which an AMBE decoder starts: as the library's own AMBE initialisation leaves it, or, if there is a first frame,
as the public `mbe_initMbeParms` does
(src/ambe/ambe_common.c:106-146, src/core/mbelib.c:223-). -/
def AmbeStart (s0 s : St (IEEE m)) (ops : List (AmbeOp (IEEE m))) : Prop :=
  s0.tls = Tls.start ∧ (initAmbeState s0 = .ok s ∨ initMbeState s0 = .ok s ∧ ops ≠ [])

/-- Either start gives the same run. -/
theorem ambeStart_run {E : Env (IEEE m)} {s0 s s' : St (IEEE m)} {ops : List (AmbeOp (IEEE m))} (hi : AmbeStart s0 s ops)
    (h : runOps (AmbeOp.run E) ops s = .ok s') : runOps (AmbeOp.run E) ops ⟨ambeInit, ambeInit, ambeInit, Tls.start⟩ = .ok s' := by
  obtain ⟨ht, hi | ⟨hi, hn⟩⟩ := hi
  · rw [initAmbeState_eq] at hi
    cases hi
    rw [← ht]
    exact h
  · rw [initMbeState_ieee] at hi
    cases hi
    cases ops with
    | nil => exact absurd rfl hn
    | cons op ops =>
      obtain ⟨o, h1, h2⟩ := bind_ok h
      have e : op.run E ⟨ambeInit, ambeInit, ambeInit, Tls.start⟩ = .ok o := by
        have sw : ∀ e, ambePrepare e ⟨imbeInit 39, imbeInit 39, imbeInit 39, s0.tls⟩ =
            ambePrepare e (⟨ambeInit, ambeInit, ambeInit, s0.tls⟩ : St (IEEE m)) := fun e => ambePrepare_switch thr_imbe
        rw [← ht, ← h1]
        cases op with
        | v2450 C c0 e d =>
          show processAmbe2450 E C c0 e d _ = processAmbe2450 E C c0 e d _
          unfold processAmbe2450
          rw [sw]
        | v2400 C e e2 d =>
          show processAmbe2400 E C e e2 d _ = processAmbe2400 E C e e2 d _
          unfold processAmbe2400
          rw [sw]
      show (op.run E _ >>= fun o => runOps (AmbeOp.run E) ops o.st) = _
      rw [e]
      exact h2

theorem ambe_atrack (hm : LibmAcc m) (hl : Log2Acc m) {E : Env (IEEE m)} {s0 s s' : St (IEEE m)}
    {ops : List (AmbeOp (IEEE m))} (hi : AmbeStart s0 s ops) (hd : ∀ op ∈ ops, Bits 49 op.payload)
    (h : runOps (AmbeOp.run E) ops s = .ok s') (p : Parms ℝ) :
    ATrack E s' (ops.foldl ambeTrackNext (0, flat 15 (Real.pi ^ 2 / 16) p)).1 (ambeTrack p ops) := by
  have hc : CacheOk E (freshAmbe (m := m)).tls := fresh_cacheOk freshAmbe_fresh
  exact atrack_run hm hl hd (x := (0, flat 15 (Real.pi ^ 2 / 16) p)) (atrack_init hc p) (ambeStart_run hi h)

/-- After any number of frames the number of bands is that of the exact decoder and every log amplitude is a number within
0.058 of the exact one: the rounding errors do not accumulate. -/
theorem C72_log_amplitudes (hm : LibmAcc m) (hl : Log2Acc m) (E : Env (IEEE m)) (s0 s s' : St (IEEE m)) (ops : List (AmbeOp (IEEE m)))
    (hi : AmbeStart s0 s ops) (hd : ∀ op ∈ ops, Bits 49 op.payload)
    (h : runOps (AmbeOp.run E) ops s = .ok s') (p : Parms ℝ) :
    s'.prev.L = (ambeTrack p ops).L ∧ ∀ l : Fin 57, 1 ≤ l.val → (l.val : Int) ≤ (ambeTrack p ops).L →
      ∃ q : ℚ, Val (s'.prev.log2Ml l) q ∧ |(q : ℝ) - (ambeTrack p ops).log2Ml l| ≤ 58 / 1000 ∧ |(ambeTrack p ops).log2Ml l| ≤ 264 := by
  have T := ambe_atrack hm hl hi hd h p
  exact ⟨T.close.L_eq, fun l l1 l2 => ⟨_, (T.close.ok.num l).1, T.close.band l l1 l2, T.close.set.band l l1 l2⟩⟩

/-- Differences between bands are accurate to 0.07. -/
theorem C72_differences (hm : LibmAcc m) (hl : Log2Acc m) (E : Env (IEEE m)) (s0 s s' : St (IEEE m)) (ops : List (AmbeOp (IEEE m)))
    (hi : AmbeStart s0 s ops) (hd : ∀ op ∈ ops, Bits 49 op.payload)
    (h : runOps (AmbeOp.run E) ops s = .ok s') (p : Parms ℝ) (l k : Fin 57) (l1 : 1 ≤ l.val) (l2 : (l.val : Int) ≤ (ambeTrack p ops).L)
    (k1 : 1 ≤ k.val) (k2 : (k.val : Int) ≤ (ambeTrack p ops).L) (a b : ℚ) (ha : Val (s'.prev.log2Ml l) a) (hb : Val (s'.prev.log2Ml k) b) :
    |((a : ℝ) - b) - ((ambeTrack p ops).log2Ml l - (ambeTrack p ops).log2Ml k)| ≤ 7 / 100 := by
  have T := ambe_atrack hm hl hi hd h p
  have i1 := T.close.diff l k l1 l2 k1 k2
  have i2 := T.close.diff k l k1 k2 l1 l2
  unfold lerr at i1 i2
  rw [Val.fq_eq ha, Val.fq_eq hb] at i1 i2
  rw [abs_le]
  constructor <;> linarith

/-- The gain is a number within 0.00001 of the exact one. -/
theorem C72_gain (hm : LibmAcc m) (hl : Log2Acc m) (E : Env (IEEE m)) (s0 s s' : St (IEEE m)) (ops : List (AmbeOp (IEEE m)))
    (hi : AmbeStart s0 s ops) (hd : ∀ op ∈ ops, Bits 49 op.payload)
    (h : runOps (AmbeOp.run E) ops s = .ok s') (p : Parms ℝ) :
    ∃ q : ℚ, Val s'.prev.gamma q ∧ |(q : ℝ) - (ambeTrack p ops).gamma| ≤ 1 / 100000 := by
  obtain ⟨q, v, e, _⟩ := (ambe_atrack hm hl hi hd h p).close.gamma
  exact ⟨q, v, e⟩

theorem two_pow_small' : (2 : ℝ) ^ ((58 : ℝ) / 1000) ≤ 1.042 := by
  have h1 : (2 : ℝ) ^ ((58 : ℝ) / 1000) ≤ (2 : ℝ) ^ ((1 : ℝ) / 17) := Real.rpow_le_rpow_of_exponent_le (by norm_num) (by norm_num)
  have h2 : (2 : ℝ) ^ ((1 : ℝ) / 17) ≤ ((1.042 : ℝ) ^ (17 : ℕ)) ^ ((1 : ℝ) / 17) :=
    Real.rpow_le_rpow (by norm_num) (by norm_num) (by norm_num)
  have h3 : ((1.042 : ℝ) ^ (17 : ℕ)) ^ ((1 : ℝ) / 17) = 1.042 := by
    have := Real.pow_rpow_inv_natCast (show (0 : ℝ) ≤ 1.042 by norm_num) (show (17 : ℕ) ≠ 0 by decide)
    rw [← this]
    norm_num
  linarith

theorem two_pow_near' {q x r : ℝ} (h : |q - x| ≤ 58 / 1000) (hr : |r - (2 : ℝ) ^ q| ≤ (2 : ℝ) ^ q / 65536) :
    |r - (2 : ℝ) ^ x| ≤ 45 / 1000 * (2 : ℝ) ^ x := by
  have h0 : 0 < (2 : ℝ) ^ x := by positivity
  have hq : (2 : ℝ) ^ q = (2 : ℝ) ^ x * (2 : ℝ) ^ (q - x) := by rw [← Real.rpow_add (by norm_num)]; congr 1; ring
  rw [abs_le] at h
  have u1 : (2 : ℝ) ^ (q - x) ≤ 1.042 := (Real.rpow_le_rpow_of_exponent_le (by norm_num) h.2).trans two_pow_small'
  have u2 : (2 : ℝ) ^ (x - q) ≤ 1.042 := (Real.rpow_le_rpow_of_exponent_le (by norm_num) (by linarith [h.1])).trans two_pow_small'
  have u3 : (2 : ℝ) ^ (q - x) * (2 : ℝ) ^ (x - q) = 1 := by
    rw [← Real.rpow_add (by norm_num)]; simp
  have u4 : 0 < (2 : ℝ) ^ (q - x) := by positivity
  have u5 : 0.9596 ≤ (2 : ℝ) ^ (q - x) := by nlinarith
  rw [hq, abs_le] at hr
  generalize (2 : ℝ) ^ (q - x) = y at hr u1 u5
  rw [abs_le]
  constructor <;> nlinarith [hr.1, hr.2]

/-- The fundamental is a number within 0.00004 of the exact one. -/
theorem C72_fundamental (hm : LibmAcc m) (hl : Log2Acc m) (E : Env (IEEE m)) (s0 s s' : St (IEEE m)) (ops : List (AmbeOp (IEEE m)))
    (hi : AmbeStart s0 s ops) (hd : ∀ op ∈ ops, Bits 49 op.payload)
    (h : runOps (AmbeOp.run E) ops s = .ok s') (p : Parms ℝ) :
    ∃ q : ℚ, Val s'.prev.w0 q ∧ |(q : ℝ) - (ambeTrack p ops).w0| ≤ 1 / 25000 :=
  (ambe_atrack hm hl hi hd h p).amp.fund

/-- The voicing decisions are those of exact arithmetic. -/
theorem C72_voicing (hm : LibmAcc m) (hl : Log2Acc m) (E : Env (IEEE m)) (s0 s s' : St (IEEE m)) (ops : List (AmbeOp (IEEE m)))
    (hi : AmbeStart s0 s ops) (hd : ∀ op ∈ ops, Bits 49 op.payload)
    (h : runOps (AmbeOp.run E) ops s = .ok s') (p : Parms ℝ) (l : Fin 57) (l1 : 1 ≤ l.val) (l2 : (l.val : Int) ≤ (ambeTrack p ops).L) :
    s'.prev.Vl l = (ambeTrack p ops).Vl l := by
  have T := ambe_atrack hm hl hi hd h p
  exact T.amp.vl l l1 (by rw [T.close.L_eq]; exact l2)

/-- Where the exact log amplitude lies between -15.9 and 63.9, the amplitude of a band is a number within 5 percent of the exact
amplitude. -/
theorem C72_amplitudes (hm : LibmAcc m) (hl : Log2Acc m) (E : Env (IEEE m)) (s0 s s' : St (IEEE m)) (ops : List (AmbeOp (IEEE m)))
    (hi : AmbeStart s0 s ops) (hd : ∀ op ∈ ops, Bits 49 op.payload)
    (h : runOps (AmbeOp.run E) ops s = .ok s') (p : Parms ℝ) (l : Fin 57) (l1 : 1 ≤ l.val) (l2 : (l.val : Int) ≤ (ambeTrack p ops).L)
    (lo : -15.9 ≤ (ambeTrack p ops).log2Ml l) (hi' : (ambeTrack p ops).log2Ml l ≤ 63.9) :
    ∃ r : ℚ, Val (s'.prev.Ml l) r ∧ |(r : ℝ) - (ambeTrack p ops).Ml l| ≤ 5 / 100 * (ambeTrack p ops).Ml l ∧ 0 < (ambeTrack p ops).Ml l := by
  have T := ambe_atrack hm hl hi hd h p
  have eV := C72_voicing hm hl E s0 s s' ops hi hd h p l l1 l2
  obtain ⟨eL, key⟩ := C72_log_amplitudes hm hl E s0 s s' ops hi hd h p
  obtain ⟨q, vq, e, _⟩ := key l l1 l2
  rcases T.amp.band with ⟨hf, hb⟩ | hb
  rotate_left
  · obtain ⟨⟨_, b1, _⟩, _, b3, _⟩ := hb l l1 (by rw [eL]; exact l2)
    exact ⟨1, b1, by rw [b3]; norm_num, by rw [b3]; norm_num⟩
  obtain ⟨b1, b2⟩ := hb l l1 (by rw [eL]; exact l2)
  rw [eV] at b1
  have e' := abs_le.mp e
  have q1 : (-16 : ℚ) ≤ q := by
    have : (-16 : ℝ) ≤ q := by linarith
    exact_mod_cast this
  have q2 : q ≤ 64 := by
    have : (q : ℝ) ≤ 64 := by linarith
    exact_mod_cast this
  obtain ⟨r, vr, er⟩ := hm.exp2 _ q vq q1 q2
  have near := two_pow_near' e er
  have pos : 0 < (2 : ℝ) ^ ((ambeTrack p ops).log2Ml l) := by positivity
  by_cases hv : (ambeTrack p ops).Vl l = 1
  · rw [if_pos hv] at b1 b2
    rw [one_mul] at b2
    exact ⟨r, by rw [b1]; exact vr, by rw [b2]; linarith, by rw [b2]; exact pos⟩
  · rw [if_neg hv] at b1 b2
    obtain ⟨u, hu, u1, u2, uk⟩ := ambeUnvc_near hf
    have h64 : (2 : ℝ) ^ ((ambeTrack p ops).log2Ml l) ≤ (2 : ℝ) ^ 64 := by
      rw [← Real.rpow_natCast]
      exact Real.rpow_le_rpow_of_exponent_le (by norm_num) (by push_cast; linarith)
    have h16 : (2 : ℝ) ^ (-16 : ℝ) ≤ (2 : ℝ) ^ ((ambeTrack p ops).log2Ml l) :=
      Real.rpow_le_rpow_of_exponent_le (by norm_num) (by linarith)
    have e16 : (2 : ℝ) ^ (-16 : ℝ) = 1 / 65536 := by rw [Real.rpow_neg (by norm_num)]; norm_num
    rw [e16] at h16
    rw [b2]
    have w0 : 0 < (ambeTrack p ops).w0 := by
      obtain ⟨w, _, w1, _, w3⟩ := hf
      have : ((3 / 64 : ℚ) : ℝ) ≤ w := by exact_mod_cast w1
      push_cast at this
      linarith [(abs_le.mp w3).2]
    have k0 : 0 < 0.2046 / Real.sqrt (ambeTrack p ops).w0 := div_pos (by norm_num) (Real.sqrt_pos.2 w0)
    generalize (2 : ℝ) ^ ((ambeTrack p ops).log2Ml l) = X at near pos h64 h16
    generalize 0.2046 / Real.sqrt (ambeTrack p ops).w0 = k at uk k0
    have n' := abs_le.mp near
    have ru : (u : ℝ) ≤ 1 := by exact_mod_cast u2
    have rl : (1 / 8 : ℝ) ≤ u := by
      have : ((1 / 8 : ℚ) : ℝ) ≤ u := by exact_mod_cast u1
      push_cast at this
      linarith
    have r0 : (0 : ℝ) < r := by linarith [n'.1]
    have r0' : (0 : ℚ) < r := by exact_mod_cast r0
    have u0 : (0 : ℚ) < u := by linarith
    have rb : r ≤ 2 ^ 65 := by
      have : (r : ℝ) ≤ 2 ^ 65 := by
        have : (2 : ℝ) ^ 65 = 2 * 2 ^ 64 := by norm_num
        linarith [n'.2]
      exact_mod_cast this
    have hur : |u * r| ≤ Val.big := by
      rw [abs_of_pos (by positivity)]
      have : u * r ≤ 2 ^ 65 := by nlinarith
      refine this.trans ?_
      rw [Val.big_eq]
      norm_num
    obtain ⟨z, vz, ez⟩ := Val.mulE (m := m) hu vr hur
    have vz' : Val (s'.prev.Ml l) z := by rw [b1]; exact vz
    refine ⟨z, vz', ?_, by positivity⟩
    rw [abs_of_pos (show 0 < u * r by positivity)] at ez
    have ez' : |(z : ℝ) - u * r| ≤ 1 / 16777216 * (u * r) + 1 / 2 ^ 30 / 65536 := by
      have p24 : pow2 (-24) = 1 / 16777216 := by rw [pow2_eq]; norm_num
      have p150 : pow2 (-150) ≤ 1 / 2 ^ 30 / 65536 := by rw [pow2_eq]; norm_num
      rw [p24] at ez
      have : |z - u * r| ≤ 1 / 16777216 * (u * r) + 1 / 2 ^ 30 / 65536 := by linarith
      have : ((|z - u * r| : ℚ) : ℝ) ≤ ((1 / 16777216 * (u * r) + 1 / 2 ^ 30 / 65536 : ℚ) : ℝ) := by exact_mod_cast this
      push_cast at this
      exact this
    have m1 : |(u : ℝ) * r - u * X| ≤ 45 / 1000 * (u * X) := by
      rw [← mul_sub, abs_mul, abs_of_pos (by linarith)]
      have : (u : ℝ) * |(r : ℝ) - X| ≤ u * (45 / 1000 * X) := mul_le_mul_of_nonneg_left near (by linarith)
      linarith
    have m2 : (1 / 8 : ℝ) * (1 / 65536) ≤ u * X := mul_le_mul rl h16 (by norm_num) (by linarith)
    have m3 : |(u : ℝ) * X - k * X| ≤ 1 / 1000 * (k * X) := by
      rw [← sub_mul, abs_mul, abs_of_pos pos]
      have : |(u : ℝ) - k| * X ≤ 1 / 1000 * k * X := mul_le_mul_of_nonneg_right uk pos.le
      linarith
    have kX : 0 < k * X := by positivity
    have z1 := abs_le.mp ez'
    have z2 := abs_le.mp m1
    have z3 := abs_le.mp m3
    generalize k * X = K at *
    generalize (u : ℝ) * X = U at *
    generalize (u : ℝ) * r = R at *
    rw [abs_le]
    constructor <;> linarith [z1.1, z1.2, z2.1, z2.2, z3.1, z3.2]

theorem ambeTrack_snoc (p : Parms ℝ) (ops : List (AmbeOp (IEEE m))) (op : AmbeOp (IEEE m)) :
    ambeTrack p (ops ++ [op]) = (ambeTrackNext ((ops.map AmbeOp.kind).foldl ambeNext 0, ambeTrack p ops) op).2 := by
  have e1 : ∀ (ops : List (AmbeOp (IEEE m))) (x : Nat × Parms ℝ), (ops.foldl ambeTrackNext x).1 = (ops.map AmbeOp.kind).foldl ambeNext x.1 := by
    intro ops
    induction ops with
    | nil => intro x; rfl
    | cons o ops ih => intro x; exact ih _
  have e2 := e1 ops (0, flat 15 (Real.pi ^ 2 / 16) p)
  unfold ambeTrack
  rw [List.foldl_append, ← e2]
  rfl

/-- The reference is what it is meant to be: a voice frame is decoded in exact arithmetic, without undefined behaviour, from the
exact parameters of the frame before; a repeat or a tone keeps them; the other frames, and the fourth repeat, replace them by flat
bands. -/
theorem C72_reference (hm : LibmAcc m) (hl : Log2Acc m) (E : Env (IEEE m)) (s0 s s' : St (IEEE m)) (ops : List (AmbeOp (IEEE m)))
    (hi : AmbeStart s0 s ops) (hd : ∀ op ∈ ops, Bits 49 op.payload)
    (h : runOps (AmbeOp.run E) ops s = .ok s') (p : Parms ℝ) (op : AmbeOp (IEEE m)) (hop : Bits 49 op.payload) :
    (op.kind = .voice → ∃ r, (match op with
        | .v2450 _ _ e d => decodeAmbe2450 true d e (ambeTrack p ops) (ambeTrack p ops) Tls.start
        | .v2400 _ _ _ d => decodeAmbe2400 true d (ambeTrack p ops) (ambeTrack p ops) Tls.start) = .ok r ∧ r.bad = 0 ∧
      ambeTrack p (ops ++ [op]) = r.cur) ∧
    (op.kind = .tone ∨ op.kind = .repeat_ ∧ s'.prev.repeatCount ≠ 3 → ambeTrack p (ops ++ [op]) = ambeTrack p ops) ∧
    (op.kind = .noise ∨ op.kind = .repeat_ ∧ s'.prev.repeatCount = 3 → (ambeTrack p (ops ++ [op])).L = 15 ∧
      (ambeTrack p (ops ++ [op])).w0 = Real.pi ^ 2 / 16 ∧ (ambeTrack p (ops ++ [op])).gamma = 0 ∧
      ∀ l, (ambeTrack p (ops ++ [op])).Vl l = 0 ∧ (ambeTrack p (ops ++ [op])).Ml l = 1 ∧ (ambeTrack p (ops ++ [op])).log2Ml l = 0) ∧
    (op.kind = .erasure → (ambeTrack p (ops ++ [op])).L = 9 ∧
      (ambeTrack p (ops ++ [op])).w0 = 0 ∧ (ambeTrack p (ops ++ [op])).gamma = 0 ∧
      ∀ l, (ambeTrack p (ops ++ [op])).Vl l = 0 ∧ (ambeTrack p (ops ++ [op])).Ml l = 1 ∧ (ambeTrack p (ops ++ [op])).log2Ml l = 0) := by
  have T := ambe_atrack hm hl hi hd h p
  have hI := ambeInv_run hd (n := 0) (ambeInit_inv _) (ambeStart_run hi h)
  have hc := hI.count
  rw [ambeTrack_snoc]
  unfold ambeTrackNext
  dsimp only
  refine ⟨fun hk => ?_, fun hk => ?_, fun hk => ?_, fun hk => ?_⟩
  · rw [hk]
    cases op with
    | v2450 C c0 e d =>
      unfold AmbeOp.kind at hk
      dsimp only at hk
      split at hk
      · cases hk
      rename_i c1
      split at hk
      · cases hk
      rename_i c2
      obtain ⟨r', e1, _, e3, _⟩ := exact2450 (d := d) hop c1 (by omega) T.close.set
      refine ⟨r', e1, e3, ?_⟩
      show (match decodeAmbe2450 true d e (ambeTrack p ops) (ambeTrack p ops) Tls.start with | .ok r => r.cur | .error _ => ambeTrack p ops) = _
      rw [e1]
    | v2400 C e e2 d =>
      unfold AmbeOp.kind at hk
      dsimp only at hk
      split at hk
      · cases hk
      rename_i c1
      obtain ⟨r', e1, _, e3, _⟩ := exact2400 (d := d) hop (by omega) T.close.set
      refine ⟨r', e1, e3, ?_⟩
      show (match decodeAmbe2400 true d (ambeTrack p ops) (ambeTrack p ops) Tls.start with | .ok r => r.cur | .error _ => ambeTrack p ops) = _
      rw [e1]
  · rcases hk with hk | ⟨hk, hn⟩
    · rw [hk]
    · rw [hk]
      dsimp only
      rw [if_neg (by omega)]
  · rcases hk with hk | ⟨hk, hn⟩
    · rw [hk]
      exact ⟨rfl, rfl, rfl, fun _ => ⟨rfl, rfl, rfl⟩⟩
    · rw [hk]
      dsimp only
      rw [if_pos (by omega)]
      exact ⟨rfl, rfl, rfl, fun _ => ⟨rfl, rfl, rfl⟩⟩
  · rw [hk]
    exact ⟨rfl, rfl, rfl, fun _ => ⟨rfl, rfl, rfl⟩⟩

/-- A voice frame without errors. -/
def voiceAmbe : AmbeOp (IEEE m) := .v2450 sampleCall none 0 sampleAmbe

/-- A voice frame of the other codec. -/
def voiceAmbe' : AmbeOp (IEEE m) := .v2400 sampleCall 0 0 sampleAmbe

/-- Histories to which the theorems apply exist: two voice frames, a repeat and a voice frame of the other codec, after which the
number of bands and the gain are those of exact arithmetic, the latter up to 0.00001. -/
example (hm : LibmAcc m) (hl : Log2Acc m) (p : Parms ℝ) :
    (voiceAmbe (m := m)).kind = .voice ∧ (voiceAmbe' (m := m)).kind = .voice ∧
    ∃ s : St (IEEE m), runOps (AmbeOp.run sampleEnv) [voiceAmbe, voiceAmbe, badAmbe, voiceAmbe'] freshAmbe = .ok s ∧
      s.prev.L = (ambeTrack p [voiceAmbe (m := m), voiceAmbe, badAmbe, voiceAmbe']).L ∧
      ∃ q : ℚ, Val s.prev.gamma q ∧ |(q : ℝ) - (ambeTrack p [voiceAmbe (m := m), voiceAmbe, badAmbe, voiceAmbe']).gamma| ≤ 1 / 100000 := by
  have hd : ∀ op ∈ [voiceAmbe (m := m), voiceAmbe, badAmbe, voiceAmbe'], Bits 49 op.payload ∧ (Op.ambe op).Counts 7000000 := by
    intro op hop
    have c0 : (0 : Int) ≤ 0 ∧ (0 : Int) ≤ 7000000 ∧ 0 + 3 ≤ 16 := by decide
    have c4 : (0 : Int) ≤ 4 ∧ (4 : Int) ≤ 7000000 ∧ 4 + 3 ≤ 16 := by decide
    simp only [List.mem_cons, List.not_mem_nil, or_false] at hop
    rcases hop with rfl | rfl | rfl | rfl
    · exact ⟨sampleAmbe_bits, c0⟩
    · exact ⟨sampleAmbe_bits, c0⟩
    · exact ⟨sampleAmbe_bits, c4⟩
    · exact ⟨sampleAmbe_bits, c0⟩
  obtain ⟨h1, h2⟩ := fresh_ok (freshAmbe_fresh (m := m))
  have := hist_u (exp2Acc_of hm) (U := fun _ => False) (E := sampleEnv) (.inl rfl)
    (ops := [voiceAmbe (m := m), voiceAmbe, badAmbe, voiceAmbe'].map Op.ambe)
    (by
      intro op hop
      obtain ⟨x, hx, rfl⟩ := List.mem_map.1 hop
      exact hd x hx) h1 (le_refl _) h2 (by rw [List.length_map]; simp)
  rw [runHist_ambe] at this
  obtain ⟨s, hs, _⟩ := this.toOk
  refine ⟨?_, ?_, s, hs, ?_, ?_⟩
  · unfold voiceAmbe AmbeOp.kind
    dsimp only
    decide
  · unfold voiceAmbe' AmbeOp.kind
    dsimp only
    decide
  · exact (C72_log_amplitudes hm hl sampleEnv freshAmbe freshAmbe s _ ⟨rfl, .inl (initAmbeState_eq _)⟩ (fun op h => (hd op h).1) hs p).1
  · exact C72_gain hm hl sampleEnv freshAmbe freshAmbe s _ ⟨rfl, .inl (initAmbeState_eq _)⟩ (fun op h => (hd op h).1) hs p

/-- And one where the amplitudes are compared: a voice frame, then an erasure, whose bands have amplitude 1. -/
example (hm : LibmAcc m) (hl : Log2Acc m) (p : Parms ℝ) (s : St (IEEE m)) (op : AmbeOp (IEEE m)) (ho : Bits 49 op.payload) (hk : op.kind = .erasure)
    (h : runOps (AmbeOp.run sampleEnv) [voiceAmbe, op] freshAmbe = .ok s) :
    ∃ r : ℚ, Val (s.prev.Ml 5) r ∧ |(r : ℝ) - 1| ≤ 5 / 100 := by
  have hd : ∀ x ∈ [voiceAmbe (m := m), op], Bits 49 x.payload := by
    intro x hx
    simp only [List.mem_cons, List.not_mem_nil, or_false] at hx
    rcases hx with rfl | rfl
    · exact sampleAmbe_bits
    · exact ho
  have e : ambeTrack p [voiceAmbe, op] = flat 9 0 (ambeTrack p [voiceAmbe (m := m)]) := by
    show ambeTrack p ([voiceAmbe] ++ [op]) = _
    rw [ambeTrack_snoc]
    unfold ambeTrackNext
    dsimp only
    rw [hk]
  obtain ⟨r, h1, h2, _⟩ := C72_amplitudes hm hl sampleEnv freshAmbe freshAmbe s _ ⟨rfl, .inl (initAmbeState_eq _)⟩ hd h p 5 (by decide)
    (by rw [e]; show (5 : Int) ≤ 9; decide) (by rw [e]; show (-15.9 : ℝ) ≤ 0; norm_num) (by rw [e]; show (0 : ℝ) ≤ 63.9; norm_num)
  rw [e] at h2
  refine ⟨r, h1, ?_⟩
  have : |(r : ℝ) - 1| ≤ 5 / 100 * 1 := h2
  linarith

end Verif.Props
