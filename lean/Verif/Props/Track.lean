import Verif.Lemmas.TrackAmp
import Verif.Props.Repeat
import Verif.Props.Finite
import Verif.Lemmas.LoudNan

/-!
# C69: the binary32 amplitudes of IMBE frames track those of exact arithmetic
-/

namespace Verif.Props
open Verif Verif.Spec Verif.Model Verif.Num Verif.Gen Arith
variable {m : Libm}

/-- After any number of frames the number of bands is that of the exact decoder and every log amplitude is a number within
0.051 of the exact one: the rounding errors do not accumulate. -/
theorem C69_log_amplitudes (hm : LibmAcc m) (E : Env (IEEE m)) (s0 s s' : St (IEEE m)) (ht : s0.tls = Tls.start)
    (hi : initMbeState s0 = .ok s) (ops : List (ImbeOp (IEEE m))) (hd : ∀ op ∈ ops, Bits 88 op.d)
    (h : runOps (ImbeOp.run E) ops s = .ok s') (p : Parms ℝ) :
    s'.prev.L = (track p ops).L ∧ ∀ l : Fin 57, 1 ≤ l.val → (l.val : Int) ≤ (track p ops).L →
      ∃ q : ℚ, Val (s'.prev.log2Ml l) q ∧ |(q : ℝ) - (track p ops).log2Ml l| ≤ 51 / 1000 ∧ |(track p ops).log2Ml l| ≤ 211 := by
  have hc : CacheOk E s.tls := fresh_cacheOk ⟨s0, ht, .inl hi⟩
  rw [initMbeState_ieee] at hi
  cases hi
  have T := track_run hm hd (x := (ImbeAbs.init, { p with L := 39, log2Ml := Arr.const 57 0 })) (track_init hc p) h
  exact ⟨T.close.L_eq, fun l l1 l2 => ⟨_, (T.close.ok.num l).1, T.close.band l l2, T.close.set.band l l1 l2⟩⟩

/-- Differences between bands are accurate to 0.06. -/
theorem C69_differences (hm : LibmAcc m) (E : Env (IEEE m)) (s0 s s' : St (IEEE m)) (ht : s0.tls = Tls.start)
    (hi : initMbeState s0 = .ok s) (ops : List (ImbeOp (IEEE m))) (hd : ∀ op ∈ ops, Bits 88 op.d)
    (h : runOps (ImbeOp.run E) ops s = .ok s') (p : Parms ℝ) (l k : Fin 57) (hl : (l.val : Int) ≤ (track p ops).L)
    (hk : (k.val : Int) ≤ (track p ops).L) (a b : ℚ) (ha : Val (s'.prev.log2Ml l) a) (hb : Val (s'.prev.log2Ml k) b) :
    |((a : ℝ) - b) - ((track p ops).log2Ml l - (track p ops).log2Ml k)| ≤ 6 / 100 := by
  have hc : CacheOk E s.tls := fresh_cacheOk ⟨s0, ht, .inl hi⟩
  rw [initMbeState_ieee] at hi
  cases hi
  have T := track_run hm hd (x := (ImbeAbs.init, { p with L := 39, log2Ml := Arr.const 57 0 })) (track_init hc p) h
  have k1 := T.close.diff l k hl hk
  have k2 := T.close.diff k l hk hl
  unfold lerr at k1 k2
  rw [Val.fq_eq ha, Val.fq_eq hb] at k1 k2
  rw [abs_le]
  unfold track
  constructor <;> linarith

/-- Where the exact log amplitude lies between -15.9 and 63.9, the amplitude is a number within 4 percent of the power of
two of the exact log amplitude. -/
theorem C69_amplitudes (hm : LibmAcc m) (E : Env (IEEE m)) (s0 s s' : St (IEEE m)) (ht : s0.tls = Tls.start)
    (hi : initMbeState s0 = .ok s) (ops : List (ImbeOp (IEEE m))) (hd : ∀ op ∈ ops, Bits 88 op.d)
    (h : runOps (ImbeOp.run E) ops s = .ok s') (p : Parms ℝ) (l : Fin 57) (l1 : 1 ≤ l.val) (l2 : (l.val : Int) ≤ (track p ops).L)
    (lo : -15.9 ≤ (track p ops).log2Ml l) (hi' : (track p ops).log2Ml l ≤ 63.9) :
    ∃ r : ℚ, Val (s'.prev.Ml l) r ∧
      |(r : ℝ) - (2 : ℝ) ^ ((track p ops).log2Ml l)| ≤ 4 / 100 * (2 : ℝ) ^ ((track p ops).log2Ml l) := by
  obtain ⟨eL, key⟩ := C69_log_amplitudes hm E s0 s s' ht hi ops hd h p
  obtain ⟨q, vq, e, _⟩ := key l l1 l2
  rw [initMbeState_ieee] at hi
  cases hi
  have e' := abs_le.mp e
  rcases amp_run hd amp_init h l l1 (by rw [eL]; exact l2) with ha | ⟨ha, hb⟩
  · have q1 : (-16 : ℚ) ≤ q := by
      have : (-16 : ℝ) ≤ q := by linarith
      exact_mod_cast this
    have q2 : q ≤ 64 := by
      have : (q : ℝ) ≤ 64 := by linarith
      exact_mod_cast this
    obtain ⟨r, vr, er⟩ := hm.exp2 _ q vq q1 q2
    exact ⟨r, by rw [ha]; exact vr, two_pow_near e er⟩
  · have q0 : q = 0 := (Val.fq_eq vq).symm.trans (Val.fq_eq hb)
    refine ⟨1, ha, two_pow_near e ?_⟩
    rw [q0]
    norm_num

/-- The reference is what it is meant to be: a frame that is not a repeat is decoded in exact arithmetic, without undefined
behaviour, from the exact parameters of the frame before. -/
theorem C69_reference (hm : LibmAcc m) (E : Env (IEEE m)) (s0 s s' : St (IEEE m)) (ht : s0.tls = Tls.start)
    (hi : initMbeState s0 = .ok s) (ops : List (ImbeOp (IEEE m))) (hd : ∀ op ∈ ops, Bits 88 op.d)
    (h : runOps (ImbeOp.run E) ops s = .ok s') (p : Parms ℝ) (op : ImbeOp (IEEE m)) (hop : Bits 88 op.d) :
    ((ops.foldl ImbeAbs.next ImbeAbs.init).isRepeat op = false →
      ∃ r, decodeImbe4400 true op.d (track p ops) (track p ops) Tls.start = .ok r ∧ r.bad = 0 ∧ track p (ops ++ [op]) = r.cur) ∧
    ((ops.foldl ImbeAbs.next ImbeAbs.init).isRepeat op = true → s'.prev.repeatCount ≠ 4 → track p (ops ++ [op]) = track p ops) ∧
    ((ops.foldl ImbeAbs.next ImbeAbs.init).isRepeat op = true → s'.prev.repeatCount = 4 →
      (track p (ops ++ [op])).L = 39 ∧ ∀ l, (track p (ops ++ [op])).log2Ml l = 0) := by
  have hc : CacheOk E s.tls := fresh_cacheOk ⟨s0, ht, .inl hi⟩
  rw [initMbeState_ieee] at hi
  cases hi
  have T := track_run hm hd (x := (ImbeAbs.init, { p with L := 39, log2Ml := Arr.const 57 0 })) (track_init hc p) h
  have e1 : ∀ (ops : List (ImbeOp (IEEE m))) (x : ImbeAbs (IEEE m) × Parms ℝ), (ops.foldl trackNext x).1 = ops.foldl ImbeAbs.next x.1 := by
    intro ops
    induction ops with
    | nil => intro x; rfl
    | cons o ops ih => intro x; exact ih _
  have hcount := T.inv.count
  have hset := T.close.set
  rw [e1] at hcount
  dsimp only at hcount
  have e2 : track p (ops ++ [op]) = if (ops.foldl ImbeAbs.next ImbeAbs.init).isRepeat op then
      (if (ops.foldl ImbeAbs.next ImbeAbs.init).streak % 5 = 4 then { track p ops with L := 39, log2Ml := Arr.const 57 0 } else track p ops)
      else exactFrame op.d (track p ops) := by
    have e3 : ∀ x : ImbeAbs (IEEE m) × Parms ℝ, (trackNext x op).2 = if x.1.isRepeat op then
        (if x.1.streak % 5 = 4 then { x.2 with L := 39, log2Ml := Arr.const 57 0 } else x.2) else exactFrame op.d x.2 := fun _ => rfl
    unfold track
    rw [List.foldl_append]
    show (trackNext _ op).2 = _
    rw [e3, e1]
  refine ⟨fun hr => ?_, fun hr hn => ?_, fun hr hn => ?_⟩
  · have hf : imbeFund op.d ≤ 207 := by
      by_contra c
      unfold ImbeAbs.isRepeat imbeIsRepeat at hr
      rw [decide_eq_true (by omega : 207 < imbeFund op.d)] at hr
      simp at hr
    obtain ⟨r, h1, h2, h3, _⟩ := exactFrame_pset hop hf hset
    refine ⟨r, h1, ?_, ?_⟩
    · have := hset.lo
      have := hset.hi
      obtain ⟨P, hP⟩ := Int.eq_ofNat_of_zero_le (show 0 ≤ (track p ops).L by unfold track; omega)
      obtain ⟨r', hr', _, _, hg⟩ := decodeImbe4400_total_r hop (track p ops) (track p ops) Tls.start hP (by unfold track at hP; omega)
      have : r = r' := ok_inj (h1.symm.trans hr')
      rw [this]
      exact (hg hf).1
    · rw [e2, if_neg (by rw [hr]; decide)]
      exact h2
  · rw [e2, if_pos hr, if_neg (by omega)]
  · rw [e2, if_pos hr, if_pos (by omega)]
    exact ⟨rfl, fun _ => rfl⟩

/-! ## C65: finite samples, with a condition on the received bits alone -/

theorem exp2Acc_of (hm : LibmAcc m) : Exp2Acc m := by
  intro x y v h1 h2
  obtain ⟨r, vr, er⟩ := hm.exp2 x y v (by linarith) (by linarith)
  have : 0 < (2 : ℝ) ^ (y : ℝ) := by positivity
  exact ⟨r, vr, by linarith⟩

/-- Moderate exact log amplitudes give moderate amplitudes. -/
theorem ampsOk_track (hm : LibmAcc m) (E : Env (IEEE m)) (s0 s s' : St (IEEE m)) (ht : s0.tls = Tls.start)
    (hi : initMbeState s0 = .ok s) (ops : List (ImbeOp (IEEE m))) (hd : ∀ op ∈ ops, Bits 88 op.d)
    (h : runOps (ImbeOp.run E) ops s = .ok s') (p : Parms ℝ) (hx : Moderate (track p ops)) : AmpsOk s'.prev := by
  have eL := (C69_log_amplitudes hm E s0 s s' ht hi ops hd h p).1
  have key : ∀ l : Fin 57, ∃ r : ℚ, 1 ≤ l.val → (l.val : Int) ≤ (track p ops).L → Val (s'.prev.Ml l) r ∧
      |(r : ℝ) - (2 : ℝ) ^ ((track p ops).log2Ml l)| ≤ 4 / 100 * (2 : ℝ) ^ ((track p ops).log2Ml l) := by
    intro l
    by_cases c : 1 ≤ l.val ∧ (l.val : Int) ≤ (track p ops).L
    · obtain ⟨b1, b2⟩ := hx.1 l c.1 c.2
      obtain ⟨r, v, e⟩ := C69_amplitudes hm E s0 s s' ht hi ops hd h p l c.1 c.2 b1 (by linarith)
      exact ⟨r, fun _ _ => ⟨v, e⟩⟩
    · exact ⟨0, fun a b => absurd ⟨a, b⟩ c⟩
  choose a ha using key
  have up : (2 : ℝ) ^ (26.9 : ℝ) ≤ 2 ^ 27 * 0.95 := by
    have h1 : (2 : ℝ) ^ (26.9 : ℝ) = (2 : ℝ) ^ (27 : ℝ) * (2 : ℝ) ^ (-(0.1 : ℝ)) := by
      rw [← Real.rpow_add (by norm_num)]; norm_num
    have h2 : (2 : ℝ) ^ (27 : ℝ) = 2 ^ 27 := by rw [← Real.rpow_natCast]; norm_num
    have h3 : (2 : ℝ) ^ (-(0.1 : ℝ)) ≤ 0.95 := by
      rw [Real.rpow_neg (by norm_num)]
      have h4 : ((1.06 : ℝ) ^ (10 : ℕ)) ^ ((1 : ℝ) / 10) ≤ (2 : ℝ) ^ ((1 : ℝ) / 10) :=
        Real.rpow_le_rpow (by norm_num) (by norm_num) (by norm_num)
      have h5 : ((1.06 : ℝ) ^ (10 : ℕ)) ^ ((1 : ℝ) / 10) = 1.06 := by
        have := Real.pow_rpow_inv_natCast (show (0 : ℝ) ≤ 1.06 by norm_num) (show (10 : ℕ) ≠ 0 by decide)
        rw [← this]
        norm_num
      have h6 : (1.06 : ℝ) ≤ (2 : ℝ) ^ (0.1 : ℝ) := by
        rw [h5] at h4
        rw [show (0.1 : ℝ) = 1 / 10 by norm_num]
        exact h4
      rw [inv_le_comm₀ (by positivity) (by norm_num)]
      linarith
    rw [h1, h2]
    nlinarith
  have dn : (1 / 1024 : ℝ) / 0.95 ≤ (2 : ℝ) ^ (-9.9 : ℝ) := by
    have h1 : (2 : ℝ) ^ (-9.9 : ℝ) = (2 : ℝ) ^ (-10 : ℝ) * (2 : ℝ) ^ (0.1 : ℝ) := by
      rw [← Real.rpow_add (by norm_num)]; norm_num
    have h2 : (2 : ℝ) ^ (-10 : ℝ) = 1 / 1024 := by rw [Real.rpow_neg (by norm_num)]; norm_num
    have h4 : ((1.06 : ℝ) ^ (10 : ℕ)) ^ ((1 : ℝ) / 10) ≤ (2 : ℝ) ^ ((1 : ℝ) / 10) :=
      Real.rpow_le_rpow (by norm_num) (by norm_num) (by norm_num)
    have h5 : ((1.06 : ℝ) ^ (10 : ℕ)) ^ ((1 : ℝ) / 10) = 1.06 := by
      have := Real.pow_rpow_inv_natCast (show (0 : ℝ) ≤ 1.06 by norm_num) (show (10 : ℕ) ≠ 0 by decide)
      rw [← this]
      norm_num
    rw [h5, show (1 : ℝ) / 10 = 0.1 by norm_num] at h4
    rw [h1, h2]
    linarith
  refine ⟨fun n => if c : n < 57 then a ⟨n, c⟩ else 0, fun l l1 l2 => ?_, .inr ?_⟩
  · rw [eL] at l2
    obtain ⟨v, e⟩ := ha l l1 l2
    dsimp only
    rw [dif_pos l.isLt]
    have e' := abs_le.mp e
    have b : (2 : ℝ) ^ ((track p ops).log2Ml l) ≤ (2 : ℝ) ^ (26.9 : ℝ) :=
      Real.rpow_le_rpow_of_exponent_le (by norm_num) (hx.1 l l1 l2).2
    have b0 : 0 < (2 : ℝ) ^ ((track p ops).log2Ml l) := by positivity
    refine ⟨v, ?_, ?_⟩
    · have : (0 : ℝ) ≤ a l := by linarith [e'.1]
      exact_mod_cast this
    · have : (a l : ℝ) ≤ 2 ^ 27 := by linarith [e'.2]
      exact_mod_cast this
  · obtain ⟨l, l1, l2, l3⟩ := hx.2
    refine ⟨l.val, l1, by rw [eL]; exact l2, ?_⟩
    dsimp only
    rw [dif_pos l.isLt]
    obtain ⟨v, e⟩ := ha l l1 l2
    have e' := abs_le.mp e
    have b : (2 : ℝ) ^ (-9.9 : ℝ) ≤ (2 : ℝ) ^ ((track p ops).log2Ml l) :=
      Real.rpow_le_rpow_of_exponent_le (by norm_num) l3
    have : (1 / 1024 : ℝ) ≤ a l := by
      have : (1 / 1024 : ℝ) / 0.95 = 1 / 972.8 := by norm_num
      have : (1 / 1024 : ℝ) ≤ 0.96 * (1 / 972.8) := by norm_num
      linarith [e'.1]
    have h' : ((1 / 1024 : ℚ) : ℝ) ≤ a l := by push_cast; exact this
    exact_mod_cast h'

theorem imbe_voice (hm : LibmAcc m) (htr : TrigAcc m) (E : Env (IEEE m)) (hE : Runs E) (s0 s s' : St (IEEE m))
    (ht : s0.tls = Tls.start) (hi : initMbeState s0 = .ok s) (ops : List (ImbeOp (IEEE m)))
    (hd : ∀ op ∈ ops, Bits 88 op.d ∧ op.errs2 ≤ 20) (p : Parms ℝ) (hx : ∀ bs, bs <+: ops → Moderate (track p bs))
    (bs : List (ImbeOp (IEEE m))) (op : ImbeOp (IEEE m)) (hb : bs ++ [op] <+: ops) (h : runOps (ImbeOp.run E) bs s = .ok s')
    (o : Out (IEEE m)) (ho : op.run E s' = .ok o) : Voice E o.pcm := by
  have he := exp2Acc_of hm
  have hfr : Fresh s := ⟨s0, ht, .inl hi⟩
  have one : ∀ (bs : List (ImbeOp (IEEE m))) (op : ImbeOp (IEEE m)) (s' : St (IEEE m)) (o : Out (IEEE m)), bs ++ [op] <+: ops →
      runOps (ImbeOp.run E) bs s = .ok s' → op.run E s' = .ok o → StOk s' → FinSt s' → Voice E o.pcm ∧ StOk o.st ∧ FinSt o.st := by
    intro bs op s' o hb h ho hs hf
    have hsub : ∀ x ∈ bs ++ [op], x ∈ ops := fun x hx => hb.subset hx
    have hdo := hd op (hsub op (by simp))
    have hrun : runOps (ImbeOp.run E) (bs ++ [op]) s = .ok o.st := by
      rw [runOps_append, h, ok_bind]
      show (op.run E s' >>= fun o => runOps (ImbeOp.run E) [] o.st) = _
      rw [ho]
      rfl
    have ha := ampsOk_track hm E s0 s o.st ht hi (bs ++ [op]) (fun x hx => (hd x (hsub x hx)).1) hrun p (hx _ hb)
    have hst : StOk o.st := ((op_u (F := IEEE m) he (U := fun _ => True) (E := E) (.inr trivial) (op := Op.imbe op) hdo.1 hs (le_refl 20480)
      (.inr ⟨trivial, trivial⟩)).toPost _ (by show (op.run E s' >>= fun o => Except.ok o.st) = _; rw [ho]; rfl)).1
    obtain ⟨C, cs, e, d⟩ := op
    have key : Voice E o.pcm ∧ FinSt o.st := by
      cases cs with
      | none => exact imbe_fin htr hE hdo.1 hdo.2 hs hf o ho ha
      | some c => exact imbe_fin htr hE hdo.1 hdo.2 (hs.err4 c.2) (hf.err4 c.2) o ho ha
    exact ⟨key.1, hst, key.2⟩
  have inv : ∀ (bs : List (ImbeOp (IEEE m))), bs <+: ops → ∀ s', runOps (ImbeOp.run E) bs s = .ok s' → StOk s' ∧ FinSt s' := by
    intro bs
    induction bs using List.reverseRecOn with
    | nil =>
      intro _ s' h
      cases h
      exact ⟨(fresh_ok hfr).1, fresh_fin hfr⟩
    | append_singleton bs op ih =>
      intro hb s' h
      rw [runOps_append] at h
      obtain ⟨s1, h1, h2⟩ := bind_ok h
      obtain ⟨o, h3, h4⟩ := bind_ok h2
      cases h4
      obtain ⟨i1, i2⟩ := ih ((List.prefix_append _ _).trans hb) s1 h1
      exact (one bs op s1 o hb h1 h3 i1 i2).2
  obtain ⟨i1, i2⟩ := inv bs ((List.prefix_append _ _).trans hb) s' h
  exact (one bs op s' o hb h ho i1 i2).1

/-- **IMBE samples are finite as long as the exact log amplitudes stay moderate.** The condition does not mention
floating-point numbers: it concerns the sequence of received frames.

Partial: C65 has no such condition, and is false without one (`C65_witness`). -/
theorem C65_finite_imbe_partial (hm : LibmAcc m) (htr : TrigAcc m) (E : Env (IEEE m)) (hE : Runs E) (s0 s s' : St (IEEE m))
    (ht : s0.tls = Tls.start) (hi : initMbeState s0 = .ok s) (ops : List (ImbeOp (IEEE m)))
    (hd : ∀ op ∈ ops, Bits 88 op.d ∧ op.errs2 ≤ 20) (p : Parms ℝ) (hx : ∀ bs, bs <+: ops → Moderate (track p bs))
    (bs : List (ImbeOp (IEEE m))) (op : ImbeOp (IEEE m)) (hb : bs ++ [op] <+: ops) (h : runOps (ImbeOp.run E) bs s = .ok s')
    (o : Out (IEEE m)) (ho : op.run E s' = .ok o) : AllFin o.pcm :=
  (imbe_voice hm htr E hE s0 s s' ht hi ops hd p hx bs op hb h o ho).1

/-- The condition holds for a decoder that has not received anything, and while frames are repeated. -/
example (p : Parms ℝ) : Moderate (track p ([] : List (ImbeOp (IEEE m)))) ∧ Moderate (track p [badImbe (m := m), badImbe]) := by
  have z : ∀ q : Parms ℝ, Moderate { q with L := 39, log2Ml := Arr.const 57 0 } := fun q =>
    ⟨fun l _ _ => by show (-15.9 : ℝ) ≤ 0 ∧ (0 : ℝ) ≤ 26.9; norm_num,
      ⟨1, by decide⟩, le_refl 1, by show (1 : Int) ≤ 39; decide, by show (-9.9 : ℝ) ≤ 0; norm_num⟩
  have b : ∀ a : ImbeAbs (IEEE m), a.isRepeat badImbe = true := fun a => badImbe_repeat a.rate a.streak
  refine ⟨z p, ?_⟩
  have : track p [badImbe (m := m), badImbe] = { p with L := 39, log2Ml := Arr.const 57 0 } := by
    simp [track, trackNext, b, ImbeAbs.next, ImbeAbs.init]
  rw [this]
  exact z p

/-- A reception of the payload of `C65_witness`. -/
def loudOp : ImbeOp (IEEE m) := ⟨sampleCall, some (0, 0), 0, loud⟩

/-- A table of log amplitudes with the bounds of `Moderate`, less 0.051. -/
def modChk (L : Int) (l : List (Int × Int)) : Bool :=
  (List.finRange 57).all fun i => i.val = 0 || decide (L < i.val) ||
    (decide (-8192 ≤ (l.getD (i.val - 1) (0, 0)).1) && decide ((l.getD (i.val - 1) (0, 0)).2 ≤ 27000))

theorem moderate_of (hm : LibmAcc m) (E : Env (IEEE m)) (ops : List (ImbeOp (IEEE m))) (hd : ∀ op ∈ ops, Bits 88 op.d) (p : Parms ℝ)
    {s' : St (IEEE m)} (h : runOps (ImbeOp.run E) ops freshImbe = .ok s') {L : Int} {l : List (Int × Int)} (hs : LoudSt E L l s') (hL : 1 ≤ L)
    (hc : modChk L l = true) : Moderate (track p ops) := by
  obtain ⟨eL, key⟩ := C69_log_amplitudes hm E freshImbe freshImbe s' rfl (initMbeState_ieee _) ops hd h p
  have e : (track p ops).L = L := eL.symm.trans hs.L
  have b : ∀ i : Fin 57, 1 ≤ i.val → (i.val : Int) ≤ L → -8.1 ≤ (track p ops).log2Ml i ∧ (track p ops).log2Ml i ≤ 26.8 := by
    intro i i1 i2
    obtain ⟨q, vq, dq, _⟩ := key i i1 (by rw [e]; exact i2)
    have hk := List.all_eq_true.mp hc i (List.mem_finRange i)
    have n0 : i.val ≠ 0 := by omega
    have n1 : ¬ L < i.val := by omega
    simp only [n0, n1, decide_false, Bool.false_or, Bool.and_eq_true, decide_eq_true_eq] at hk
    have hr := hs.prev i
    unfold milliArr at hr
    rw [if_neg n0] at hr
    obtain ⟨q', vq', l1, l2⟩ := hr
    have : q' = q := (Val.fq_eq vq').symm.trans (Val.fq_eq vq)
    subst this
    rw [Rat.mkRat_eq_div] at l1 l2
    have c1 : (((l.getD (i.val - 1) (0, 0)).1 : ℚ)) ≥ -8192 := by exact_mod_cast hk.1
    have c2 : (((l.getD (i.val - 1) (0, 0)).2 : ℚ)) ≤ 27000 := by exact_mod_cast hk.2
    have q1 : (-8 : ℚ) ≤ q' := by
      refine le_trans ?_ l1
      rw [le_div_iff₀ (by norm_num)]
      push_cast
      linarith
    have q2 : q' ≤ 27000 / 1024 := by
      refine le_trans l2 ?_
      rw [div_le_iff₀ (by norm_num)]
      push_cast
      linarith
    have r1 : (-8 : ℝ) ≤ q' := by exact_mod_cast q1
    have r2 : (q' : ℝ) ≤ ((27000 / 1024 : ℚ) : ℝ) := by exact_mod_cast q2
    have := abs_le.mp dq
    constructor <;> norm_num <;> norm_num at r2 <;> linarith [this.1, this.2]
  refine ⟨fun i i1 i2 => ?_, ⟨1, by decide⟩, le_refl 1, by rw [e]; exact hL, ?_⟩
  · have := b i i1 (by rw [← e]; exact i2)
    constructor <;> linarith [this.1, this.2]
  · have := (b ⟨1, by decide⟩ (le_refl 1) hL).1
    linarith

theorem runOps_one {E : Env (IEEE m)} {op : ImbeOp (IEEE m)} {s s' : St (IEEE m)} (h : runOps (ImbeOp.run E) [op] s = .ok s') :
    ∃ o, op.run E s = .ok o ∧ o.st = s' := by
  obtain ⟨o, h1, h2⟩ := bind_ok (show (op.run E s >>= fun o => runOps (ImbeOp.run E) [] o.st) = .ok s' from h)
  exact ⟨o, h1, ok_inj h2⟩

/-- The condition holds for three receptions of the payload of `C65_witness`, of which all samples are finite (those of the
eighth are not). -/
example (hm : LibmAcc m) (htr : TrigAcc m) (E : Env (IEEE m)) (hE : Runs E) (hl : E.lax = true) (p : Parms ℝ) :
    (∀ bs, bs <+: [loudOp (m := m), loudOp, loudOp] → Moderate (track p bs)) ∧
    ∃ (s : St (IEEE m)) (o : Out (IEEE m)), runOps (ImbeOp.run E) [loudOp, loudOp] freshImbe = .ok s ∧ loudOp.run E s = .ok o ∧
      AllFin o.pcm := by
  have hrx : LoudRx (loudOp (m := m)) := ⟨rfl, rfl, fun c h => by cases h; rfl⟩
  have ex : ∀ n ≤ 3, ∃ s, runOps (ImbeOp.run E) (List.replicate n (loudOp (m := m))) freshImbe = .ok s := by
    intro n hn
    obtain ⟨h1, h2⟩ := fresh_ok (freshImbe_fresh (m := m))
    have := hist_u (exp2Acc_of hm) (U := fun _ => False) (E := E) (.inl hl) (ops := (List.replicate n loudOp).map Op.imbe)
      (by
        intro op hop
        obtain ⟨x, hx, rfl⟩ := List.mem_map.1 hop
        rw [List.eq_of_mem_replicate hx]
        exact ⟨loud_bits, show (0 : Int) ≤ 0 ∧ (0 : Int) ≤ 7000000 ∧ 0 + 3 ≤ 16 by decide⟩) h1 (le_refl _) h2
      (by rw [List.length_map, List.length_replicate]; omega)
    rw [runHist_imbe] at this
    obtain ⟨s, hs, _⟩ := this.toOk
    exact ⟨s, hs⟩
  have hb : ∀ n, ∀ op ∈ List.replicate n (loudOp (m := m)), Bits 88 op.d := by
    intro n op h
    rw [List.eq_of_mem_replicate h]
    exact loud_bits
  have i0 : LoudSt E 39 [] (freshImbe (m := m)) := loud_init E (fresh_cacheOk freshImbe_fresh)
  have st : ∀ (n : Nat) (s : St (IEEE m)), runOps (ImbeOp.run E) (List.replicate (n + 1) (loudOp (m := m))) freshImbe = .ok s →
      ∃ t o, runOps (ImbeOp.run E) (List.replicate n (loudOp (m := m))) freshImbe = .ok t ∧ loudOp.run E t = .ok o ∧ o.st = s := by
    intro n s h
    rw [List.replicate_succ', runOps_append] at h
    obtain ⟨t, h1, h2⟩ := bind_ok h
    obtain ⟨o, h3, h4⟩ := runOps_one h2
    exact ⟨t, o, h1, h3, h4⟩
  obtain ⟨s3, e3⟩ := ex 3 (le_refl 3)
  obtain ⟨s2, o3, e2, r3, rfl⟩ := st 2 s3 e3
  obtain ⟨s1, o2, e1, r2, rfl⟩ := st 1 s2 e2
  obtain ⟨s0, o1, e0, r1, rfl⟩ := st 0 s1 e1
  cases e0
  have i1 := loud_next hm hrx (by decide) step1_ok i0 r1
  have i2 := loud_next hm hrx (by decide) step2_ok i1 r2
  have i3 := loud_next hm hrx (by decide) step3_ok i2 r3
  have hx : ∀ bs, bs <+: [loudOp (m := m), loudOp, loudOp] → Moderate (track p bs) := by
    intro bs hbs
    have e : bs = List.replicate bs.length loudOp := List.eq_replicate_iff.mpr ⟨rfl, fun b k => by
      have := hbs.subset k; simpa using this⟩
    have hn : bs.length ≤ 3 := hbs.length_le
    rw [e]
    generalize bs.length = n at hn
    interval_cases n
    · exact moderate_of hm E _ (hb 0) p rfl i0 (by decide) (by decide)
    · exact moderate_of hm E _ (hb 1) p e1 i1 (by decide) (by decide)
    · exact moderate_of hm E _ (hb 2) p e2 i2 (by decide) (by decide)
    · exact moderate_of hm E _ (hb 3) p e3 i3 (by decide) (by decide)
  exact ⟨hx, o2.st, o3, e2, r3, C65_finite_imbe_partial hm htr E hE freshImbe freshImbe o2.st rfl (initMbeState_ieee _)
    [loudOp, loudOp, loudOp] (fun op h => by
      have : op = loudOp := by simpa using h
      rw [this]; exact ⟨loud_bits, by show (0 : Int) ≤ 20; decide⟩) p hx [loudOp, loudOp] loudOp (List.prefix_refl _) e2 o3 r3⟩

/-- Histories to which the theorems apply exist: a decoded frame and two repeats, in which no error exceeds 0.051. -/
example (hm : LibmAcc m) (p : Parms ℝ) :
    ∃ s : St (IEEE m), runOps (ImbeOp.run sampleEnv) [goodImbe, badImbe, badImbe] freshImbe = .ok s ∧
      s.prev.L = (track p [goodImbe (m := m), badImbe, badImbe]).L := by
  obtain ⟨s, hs⟩ := imbe_runs (exp2Acc_of hm) [goodImbe, badImbe, badImbe] (by simp) (by simp)
  exact ⟨s, hs, (C69_log_amplitudes hm sampleEnv freshImbe freshImbe s rfl (initMbeState_ieee _) _
    (fun op h => (sampleImbe_ok op (by revert h; simp; tauto)).1) hs p).1⟩

end Verif.Props
