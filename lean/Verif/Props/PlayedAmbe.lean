import Verif.Lemmas.AmbePlay
import Verif.Spec.PlayedAmbe
import Verif.Props.BuildsAcc
import Verif.Props.AmbeFinite

/-!
# C83: from the received bits to the amplitudes that are played, AMBE
-/

namespace Verif.Props
open Verif Verif.Spec Verif.Model Verif.Num Verif.Gen Arith
variable {m : Libm}

/-- The decoded amplitudes as multiples `2 ^ x` of the exact ones. -/
theorem ambe_decoded_near (hm : LibmAcc m) (hl : Log2Acc m) (E : Env (IEEE m)) (s0 s s' : St (IEEE m)) (ops : List (AmbeOp (IEEE m)))
    (hi : AmbeStart s0 s ops) (hd : ∀ op ∈ ops, Bits 49 op.payload) (h : runOps (AmbeOp.run E) ops s = .ok s') (p : Parms ℝ)
    (hx : QuietA (ambeTrack p ops)) : s'.prev.L = (ambeTrack p ops).L ∧ ∃ x : Nat → ℝ,
    (∀ l : Fin 57, 1 ≤ l.val → (l.val : Int) ≤ s'.prev.L → ∃ r : ℚ, Val (s'.prev.Ml l) r ∧ |x l| ≤ 58 / 1000 ∧ 0 < (ambeTrack p ops).Ml l ∧
      (ambeTrack p ops).Ml l ≤ 1.002 * (2 : ℝ) ^ (ambeTrack p ops).log2Ml l ∧
      |(r : ℝ) - (2 : ℝ) ^ x l * (ambeTrack p ops).Ml l| ≤ (2 : ℝ) ^ x l * (ambeTrack p ops).Ml l * (11 / 10000)) ∧
    ∀ l k : Fin 57, 1 ≤ l.val → (l.val : Int) ≤ s'.prev.L → 1 ≤ k.val → (k.val : Int) ≤ s'.prev.L → x l - x k ≤ 7 / 100 := by
  have T := ambe_atrack hm hl hi hd h p
  obtain ⟨eL, key⟩ := C72_log_amplitudes hm hl E s0 s s' ops hi hd h p
  have dif := C72_differences hm hl E s0 s s' ops hi hd h p
  have ex : ∀ (l : Fin 57) (q : ℚ), Val (s'.prev.log2Ml l) q →
      amps (valuesOf s'.prev).log2Ml l - amps (ambeTrack p ops).log2Ml l = q - (ambeTrack p ops).log2Ml l := fun l q vq => by
    rw [amps_fin, amps_fin, show (valuesOf s'.prev).log2Ml l = _ from Val.number vq]
  refine ⟨eL, fun l => amps (valuesOf s'.prev).log2Ml l - amps (ambeTrack p ops).log2Ml l, fun l l1 l2 => ?_, fun l k l1 l2 k1 k2 => ?_⟩
  rotate_left
  · rw [eL] at l2 k2
    obtain ⟨a, va, _⟩ := key l l1 l2
    obtain ⟨b, vb, _⟩ := key k k1 k2
    have := (abs_le.1 (dif l k l1 l2 k1 k2 a b va vb)).2
    dsimp only
    rw [ex l a va, ex k b vb]
    linarith
  have l3 : (l.val : Int) ≤ (ambeTrack p ops).L := by rw [← eL]; exact l2
  obtain ⟨lo, hi'⟩ := hx.1 l l1 l3
  have eV := C72_voicing hm hl E s0 s s' ops hi hd h p l l1 l3
  obtain ⟨q, vq, e, _⟩ := key l l1 l3
  dsimp only
  rw [ex l q vq]
  rcases T.amp.band with ⟨hf, hb⟩ | hb
  rotate_left
  · obtain ⟨⟨_, b1, b0⟩, _, b3, b4⟩ := hb l l1 l2
    have q0 : q = 0 := (Val.fq_eq vq).symm.trans (Val.fq_eq b0)
    refine ⟨1, b1, e, by rw [b3]; norm_num, by rw [b3, b4]; norm_num, ?_⟩
    rw [b3, b4, q0]
    norm_num
  obtain ⟨b1, b2⟩ := hb l l1 l2
  rw [eV] at b1
  have e' := abs_le.mp e
  have q1 : (-16 : ℚ) ≤ q := by
    have : (-16 : ℝ) ≤ q := by linarith
    exact_mod_cast this
  have q2 : q ≤ 64 := by
    have : (q : ℝ) ≤ 64 := by linarith
    exact_mod_cast this
  obtain ⟨r, vr, er⟩ := hm.exp2 _ q vq q1 q2
  have pos : 0 < (2 : ℝ) ^ ((ambeTrack p ops).log2Ml l) := by positivity
  have eY : (2 : ℝ) ^ ((q : ℝ) - (ambeTrack p ops).log2Ml l) * (2 : ℝ) ^ ((ambeTrack p ops).log2Ml l) = (2 : ℝ) ^ (q : ℝ) := by
    rw [← Real.rpow_add (by norm_num), sub_add_cancel]
  have Y0 : 0 < (2 : ℝ) ^ (q : ℝ) := by positivity
  by_cases hv : (ambeTrack p ops).Vl l = 1
  · rw [if_pos hv] at b1 b2
    rw [one_mul] at b2
    refine ⟨r, by rw [b1]; exact vr, e, by rw [b2]; exact pos, by rw [b2]; linarith, ?_⟩
    rw [b2, eY]
    linarith
  · rw [if_neg hv] at b1 b2
    obtain ⟨u, hu, u1, u2, uk⟩ := ambeUnvc_near hf
    have h18 : (2 : ℝ) ^ (q : ℝ) ≤ (2 : ℝ) ^ 18 := by
      rw [← Real.rpow_natCast]
      exact Real.rpow_le_rpow_of_exponent_le (by norm_num) (by push_cast; linarith)
    have h16 : (2 : ℝ) ^ (-16 : ℝ) ≤ (2 : ℝ) ^ (q : ℝ) :=
      Real.rpow_le_rpow_of_exponent_le (by norm_num) (by linarith)
    have e16 : (2 : ℝ) ^ (-16 : ℝ) = 1 / 65536 := by rw [Real.rpow_neg (by norm_num)]; norm_num
    rw [e16] at h16
    have w0 : 0 < (ambeTrack p ops).w0 := by
      obtain ⟨w, _, w1, _, w3⟩ := hf
      have : ((3 / 64 : ℚ) : ℝ) ≤ w := by exact_mod_cast w1
      push_cast at this
      linarith [(abs_le.mp w3).2]
    have k0 : 0 < 0.2046 / Real.sqrt (ambeTrack p ops).w0 := div_pos (by norm_num) (Real.sqrt_pos.2 w0)
    rw [b2]
    rw [show (2 : ℝ) ^ ((q : ℝ) - (ambeTrack p ops).log2Ml l) * (0.2046 / Real.sqrt (ambeTrack p ops).w0 * (2 : ℝ) ^ (ambeTrack p ops).log2Ml l) =
      0.2046 / Real.sqrt (ambeTrack p ops).w0 * (2 : ℝ) ^ (q : ℝ) by rw [← eY]; ring]
    generalize (2 : ℝ) ^ ((ambeTrack p ops).log2Ml l) = X at pos
    generalize (2 : ℝ) ^ (q : ℝ) = Y at *
    generalize 0.2046 / Real.sqrt (ambeTrack p ops).w0 = k at uk k0
    have n' := abs_le.mp er
    have ru : (u : ℝ) ≤ 1 := by exact_mod_cast u2
    have rl : (1 / 8 : ℝ) ≤ u := by
      have : ((1 / 8 : ℚ) : ℝ) ≤ u := by exact_mod_cast u1
      push_cast at this
      linarith
    have r0 : (0 : ℝ) < r := by linarith [n'.1]
    have r0' : (0 : ℚ) < r := by exact_mod_cast r0
    have u0 : (0 : ℚ) < u := by linarith
    have rb : r ≤ 2 ^ 19 := by
      have : (r : ℝ) ≤ 2 ^ 19 := by
        have : (2 : ℝ) ^ 19 = 2 * 2 ^ 18 := by norm_num
        linarith [n'.2]
      exact_mod_cast this
    have hur : |u * r| ≤ Val.big := by
      rw [abs_of_pos (by positivity)]
      have : u * r ≤ 2 ^ 19 := by nlinarith
      refine this.trans ?_
      rw [Val.big_eq]
      norm_num
    obtain ⟨z, vz, ez⟩ := Val.mulE (m := m) hu vr hur
    have uk' := abs_le.1 uk
    refine ⟨z, by rw [b1]; exact vz, e, by positivity, mul_le_mul_of_nonneg_right (by linarith) pos.le, ?_⟩
    rw [abs_of_pos (show 0 < u * r by positivity)] at ez
    have ez' : |(z : ℝ) - u * r| ≤ 1 / 16777216 * (u * r) + 1 / 2 ^ 30 / 65536 := by
      have p24 : pow2 (-24) = 1 / 16777216 := by rw [pow2_eq]; norm_num
      have p150 : pow2 (-150) ≤ 1 / 2 ^ 30 / 65536 := by rw [pow2_eq]; norm_num
      rw [p24] at ez
      have : |z - u * r| ≤ 1 / 16777216 * (u * r) + 1 / 2 ^ 30 / 65536 := by linarith
      have : ((|z - u * r| : ℚ) : ℝ) ≤ ((1 / 16777216 * (u * r) + 1 / 2 ^ 30 / 65536 : ℚ) : ℝ) := by exact_mod_cast this
      push_cast at this
      exact this
    have m1 : |(u : ℝ) * r - u * Y| ≤ 1 / 65536 * (u * Y) := by
      rw [← mul_sub, abs_mul, abs_of_pos (by linarith)]
      have : (u : ℝ) * |(r : ℝ) - Y| ≤ u * (Y / 65536) := mul_le_mul_of_nonneg_left er (by linarith)
      linarith
    have m2 : (1 / 8 : ℝ) * (1 / 65536) ≤ u * Y := mul_le_mul rl h16 (by norm_num) (by linarith)
    have m3 : |(u : ℝ) * Y - k * Y| ≤ 1 / 1000 * (k * Y) := by
      rw [← sub_mul, abs_mul, abs_of_pos Y0]
      have : |(u : ℝ) - k| * Y ≤ 1 / 1000 * k * Y := mul_le_mul_of_nonneg_right uk Y0.le
      linarith
    have kX : 0 < k * Y := by positivity
    have z1 := abs_le.mp ez'
    have z2 := abs_le.mp m1
    have z3 := abs_le.mp m3
    generalize k * Y = K at *
    generalize (u : ℝ) * Y = U at *
    generalize (u : ℝ) * r = R at *
    rw [abs_le]
    constructor <;> linarith [z1.1, z1.2, z2.1, z2.2, z3.1, z3.2]

theorem pow58 {x : ℝ} (h : |x| ≤ 58 / 1000) : 9600 / 10000 ≤ (2 : ℝ) ^ x ∧ (2 : ℝ) ^ x ≤ 10412 / 10000 := by
  have b := abs_le.1 h
  constructor
  · have := le_two_pow (x := 9600 / 10000) (a := 5) (b := 86) (by norm_num) (by norm_num) (by norm_num)
    exact this.trans (Real.rpow_le_rpow_of_exponent_le (by norm_num) (by norm_num; linarith [b.1]))
  · have := two_pow_le (x := 10412 / 10000) (a := 5) (b := 86) (by norm_num) (by norm_num) (by norm_num)
    exact (Real.rpow_le_rpow_of_exponent_le (by norm_num) (by norm_num; linarith [b.2])).trans this

/-- **Spectra that are close in every band are close after the enhancement**, in exact arithmetic, with the errors of the AMBE decoders. -/
theorem C83_stable {w : ℚ} {L : Int} (hp : PitchWithin w L) (M N x : Nat → ℝ) (hM : ∀ l, 0 < M l)
    (h : ∀ l, 1 ≤ l → l ≤ L.toNat → |N l - (2 : ℝ) ^ x l * M l| ≤ (2 : ℝ) ^ x l * M l * (11 / 10000))
    (h1 : ∀ l, 1 ≤ l → l ≤ L.toNat → |x l| ≤ 58 / 1000) (h2 : ∀ l k, 1 ≤ l → l ≤ L.toNat → 1 ≤ k → k ≤ L.toNat → x l - x k ≤ 7 / 100)
    (l : Nat) (l1 : 1 ≤ l) (l2 : l ≤ L.toNat) :
    780 / 1000 * enhanced w M L.toNat l ≤ enhanced w N L.toNat l ∧ enhanced w N L.toNat l ≤ 1280 / 1000 * enhanced w M L.toNat l := by
  have w0 : (0 : ℝ) < w := by
    have : 0 < w := lt_of_lt_of_le (by norm_num) hp.range.1
    exact_mod_cast this
  have ne : (Finset.Icc 1 L.toNat).Nonempty := ⟨l, Finset.mem_Icc.2 ⟨l1, l2⟩⟩
  obtain ⟨i, hi, mi⟩ := Finset.exists_min_image _ x ne
  obtain ⟨j, hj, mj⟩ := Finset.exists_max_image _ x ne
  rw [Finset.mem_Icc] at hi hj
  have ν2 : (2 : ℝ) ^ ((7 : ℝ) / 100) ≤ 10498 / 10000 := by
    have := two_pow_le (x := 10498 / 10000) (a := 7) (b := 100) (by norm_num) (by norm_num) (by norm_num)
    exact_mod_cast this
  have pow_step : ∀ {a b : ℝ}, a - b ≤ 7 / 100 → (2 : ℝ) ^ a ≤ 10498 / 10000 * (2 : ℝ) ^ b := fun {a b} k => by
    calc (2 : ℝ) ^ a ≤ (2 : ℝ) ^ ((7 : ℝ) / 100 + b) := Real.rpow_le_rpow_of_exponent_le (by norm_num) (by linarith)
      _ = (2 : ℝ) ^ ((7 : ℝ) / 100) * (2 : ℝ) ^ b := Real.rpow_add (by norm_num) _ _
      _ ≤ _ := mul_le_mul_of_nonneg_right ν2 (by positivity)
  have pi0 : (0 : ℝ) < 2 ^ x i := by positivity
  have pj0 : (0 : ℝ) < 2 ^ x j := by positivity
  have il := (pow58 (h1 i hi.1 hi.2)).1
  have ju := (pow58 (h1 j hj.1 hj.2)).2
  have cM : |corr w M L.toNat| < energy M L.toNat := corr_lt_of_pitch hp l1 l2 (hM l).ne'
  have N0 : 0 < N l := by
    have := (abs_le.1 (h l l1 l2)).1
    have : 0 < (2 : ℝ) ^ x l * M l := mul_pos (by positivity) (hM l)
    linarith
  have cN : |corr w N L.toNat| < energy N L.toNat := corr_lt_of_pitch hp l1 l2 N0.ne'
  constructor
  · -- `c M ≤ N ≤ ν² c M`
    obtain ⟨c, hc⟩ : ∃ c : ℝ, c = (2 : ℝ) ^ x i * (9989 / 10000) := ⟨_, rfl⟩
    have c0 : 0 < c := by rw [hc]; positivity
    have c1 : 9589 / 10000 ≤ c := by rw [hc]; nlinarith
    have key := (enhanced_stable (ν := 10258 / 10000) (M := fun l => c * M l) (N := N) (w := w) (L := L.toNat) (by norm_num) w0
      (fun k _ _ => (mul_pos c0 (hM k)).le) (fun k k1 k2 => by
        have a := abs_le.1 (h k k1 k2)
        have b := mi k (Finset.mem_Icc.2 ⟨k1, k2⟩)
        have b1 : (2 : ℝ) ^ x i ≤ (2 : ℝ) ^ x k := Real.rpow_le_rpow_of_exponent_le (by norm_num) b
        have b2 := pow_step (h2 k i k1 k2 hi.1 hi.2)
        have m0 := hM k
        have d1 := mul_le_mul_of_nonneg_right b1 m0.le
        have d2 := mul_le_mul_of_nonneg_right b2 m0.le
        have d3 := mul_pos pi0 m0
        rw [hc]
        rw [mul_assoc] at d2
        rw [mul_right_comm]
        generalize (2 : ℝ) ^ x k * M k = y at *
        generalize (2 : ℝ) ^ x i * M k = z at *
        constructor <;> norm_num at d2 ⊢ <;> linarith [a.1, a.2]) (corr_lt_of_pitch hp l1 l2 (mul_pos c0 (hM l)).ne') l1 l2).2.1
    rw [enhanced_scale c0 w0 M (fun k => (hM k).le)] at key
    have e0 : 0 ≤ enhanced w M L.toNat l := (enhanced_stable (ν := 1) (M := M) (N := M) (w := w) (L := L.toNat) le_rfl w0 (fun k _ _ => (hM k).le)
      (fun k _ _ => by norm_num) cM l1 l2).1
    norm_num at key
    nlinarith
  · -- `N ≤ c M ≤ ν² N`
    obtain ⟨c, hc⟩ : ∃ c : ℝ, c = (2 : ℝ) ^ x j * (10011 / 10000) := ⟨_, rfl⟩
    have c0 : 0 < c := by rw [hc]; positivity
    have c1 : c ≤ 10424 / 10000 := by rw [hc]; nlinarith
    have key := (enhanced_stable (ν := 10258 / 10000) (M := N) (N := fun l => c * M l) (w := w) (L := L.toNat) (by norm_num) w0
      (fun k k1 k2 => by
        have a := (abs_le.1 (h k k1 k2)).1
        have : 0 < (2 : ℝ) ^ x k * M k := mul_pos (by positivity) (hM k)
        linarith) (fun k k1 k2 => by
        have a := abs_le.1 (h k k1 k2)
        have b := mj k (Finset.mem_Icc.2 ⟨k1, k2⟩)
        have b1 : (2 : ℝ) ^ x k ≤ (2 : ℝ) ^ x j := Real.rpow_le_rpow_of_exponent_le (by norm_num) b
        have b2 := pow_step (h2 j k hj.1 hj.2 k1 k2)
        have m0 := hM k
        have d1 := mul_le_mul_of_nonneg_right b1 m0.le
        have d2 := mul_le_mul_of_nonneg_right b2 m0.le
        have d3 := mul_pos pj0 m0
        have d4 : 0 < (2 : ℝ) ^ x k * M k := mul_pos (by positivity) m0
        rw [hc]
        rw [mul_assoc] at d2
        rw [mul_right_comm]
        generalize (2 : ℝ) ^ x k * M k = y at *
        generalize (2 : ℝ) ^ x j * M k = z at *
        constructor <;> norm_num at d2 ⊢ <;> linarith [a.1, a.2]) cN l1 l2).2.1
    rw [enhanced_scale c0 w0 M (fun k => (hM k).le)] at key
    have e0 : 0 ≤ enhanced w M L.toNat l := (enhanced_stable (ν := 1) (M := M) (N := M) (w := w) (L := L.toNat) le_rfl w0 (fun k _ _ => (hM k).le)
      (fun k _ _ => by norm_num) cM l1 l2).1
    norm_num at key
    nlinarith

/-- The decoded voice frame is one on which the enhancement is accurate, and what exact enhancement would play for it is what exact
arithmetic would play for the whole history, but for the errors of the decoded amplitudes. -/
theorem ambe_ready (hm : LibmAcc m) (hl : Log2Acc m) (E : Env (IEEE m)) (s0 s s' : St (IEEE m)) (bs : List (AmbeOp (IEEE m)))
    (op : AmbeOp (IEEE m)) (hi : AmbeStart s0 s (bs ++ [op])) (hd : ∀ x ∈ bs ++ [op], (Op.ambe x).Payload ∧ (Op.ambe x).Counts 20)
    (hv : op.kind = .voice) (h : runOps (AmbeOp.run E) bs s = .ok s') (o : Out (IEEE m)) (ho : op.run E s' = .ok o)
    (p : Parms ℝ) (hx : QuietA (ambeTrack p (bs ++ [op]))) :
    o.st.prev.L = (ambeTrack p (bs ++ [op])).L ∧ 20480 ≤ o.st.enh.amplitudeThreshold ∧ EnhanceOk (2 ^ 18) o.st.prev ∧
    (∃ C s1 x, speak E C s1 = .ok x ∧ x.2 = o.st ∧ s1.cur = o.st.prev) ∧
    ∀ l : Fin 57, 1 ≤ l.val → (l.val : Int) ≤ o.st.prev.L →
      608 / 1000 * played (valuesOf o.st.prev).w0 o.st.enh.amplitudeThreshold (amps (ambeTrack p (bs ++ [op])).Ml) o.st.prev.L.toNat l.val ≤
        played (valuesOf o.st.prev).w0 o.st.enh.amplitudeThreshold (amps (valuesOf o.st.prev).Ml) o.st.prev.L.toNat l.val ∧
      played (valuesOf o.st.prev).w0 o.st.enh.amplitudeThreshold (amps (valuesOf o.st.prev).Ml) o.st.prev.L.toNat l.val ≤
        1642 / 1000 * played (valuesOf o.st.prev).w0 o.st.enh.amplitudeThreshold (amps (ambeTrack p (bs ++ [op])).Ml) o.st.prev.L.toNat l.val := by
  have hrun : runOps (AmbeOp.run E) (bs ++ [op]) s = .ok o.st := by
    rw [runOps_append, h, ok_bind]
    show (op.run E s' >>= fun o => runOps (AmbeOp.run E) [] o.st) = _
    rw [ho]
    rfl
  have hF : Fresh s := ⟨s0, hi.1, hi.2.symm.imp (·.1) id⟩
  obtain ⟨eL, x, hN, hdif⟩ := ambe_decoded_near hm hl E s0 s o.st (bs ++ [op]) hi (fun x hx => (hd x hx).1) hrun p hx
  have pl : AmbePlay o.st := play_run (fun x hx => (hd x hx).2) (.init _) (ambeStart_run hi hrun)
  have hs' : StOk s' := hist_inv (F := IEEE m) (exp2Acc_of hm) (E := E) (ops := bs.map Op.ambe) (fun y hy => by
      obtain ⟨z, hz, rfl⟩ := List.mem_map.1 hy
      exact (hd z (List.mem_append_left _ hz)).1) (fresh_ok hF).1 (by rw [Model.runHist_ambe]; exact h)
  obtain ⟨pit, L1, L2, sp⟩ := voice_spoken (exp2Acc_of hm) (hd op (by simp)).1 hv hs' ho
  obtain ⟨w, hw, hp⟩ := pitchWithin_of pit (by omega) L2
  obtain ⟨S, hS⟩ : ∃ S : Nat → ℝ, S = fun k => if 1 ≤ k ∧ k ≤ o.st.prev.L.toNat then amps (ambeTrack p (bs ++ [op])).Ml k else 1 := ⟨_, rfl⟩
  have Sin : ∀ k, 1 ≤ k → k ≤ o.st.prev.L.toNat → S k = amps (ambeTrack p (bs ++ [op])).Ml k := fun k k1 k2 => by
    rw [hS]; exact if_pos ⟨k1, k2⟩
  have Sf : ∀ k : Fin 57, 1 ≤ k.val → (k.val : Int) ≤ o.st.prev.L → S k = (ambeTrack p (bs ++ [op])).Ml k := fun k k1 k2 => by
    rw [Sin k k1 (by omega), amps_fin]
  have S0 : ∀ k, 0 < S k := fun k => by
    by_cases c : 1 ≤ k ∧ k ≤ o.st.prev.L.toNat
    · have k3 : k < 57 := by omega
      obtain ⟨_, _, _, k4, _⟩ := hN ⟨k, k3⟩ c.1 (by show (k : Int) ≤ _; omega)
      rw [← Sf ⟨k, k3⟩ c.1 (by show (k : Int) ≤ _; omega)] at k4
      exact k4
    · rw [hS]
      dsimp only
      rw [if_neg c]
      norm_num
  -- the values of the decoded amplitudes
  have near : ∀ k, 1 ≤ k → k ≤ o.st.prev.L.toNat →
      |amps (valuesOf o.st.prev).Ml k - (2 : ℝ) ^ x k * S k| ≤ (2 : ℝ) ^ x k * S k * (11 / 10000) ∧ |x k| ≤ 58 / 1000 := fun k k1 k2 => by
    have k3 : k < 57 := by omega
    have k4 : (((⟨k, k3⟩ : Fin 57).val : Nat) : Int) ≤ o.st.prev.L := by show (k : Int) ≤ _; omega
    obtain ⟨r, vr, e1, _, _, e2⟩ := hN ⟨k, k3⟩ k1 k4
    rw [show amps (valuesOf o.st.prev).Ml k = _ from amps_fin _ ⟨k, k3⟩, show (valuesOf o.st.prev).Ml ⟨k, k3⟩ = _ from Val.number vr,
      show S k = _ from Sf ⟨k, k3⟩ k1 k4]
    exact ⟨e2, e1⟩
  have st := C83_stable hp S (amps (valuesOf o.st.prev).Ml) x S0 (fun k k1 k2 => (near k k1 k2).1) (fun k k1 k2 => (near k k1 k2).2)
    (fun i k i1 i2 k1 k2 => by
      have i3 : i < 57 := by omega
      have k3 : k < 57 := by omega
      exact hdif ⟨i, i3⟩ ⟨k, k3⟩ i1 (by show (i : Int) ≤ _; omega) k1 (by show (k : Int) ≤ _; omega))
  have ew : (valuesOf o.st.prev).w0 = (w : ℝ) := Val.number hw
  have EN0 : ∀ k, 1 ≤ k → k ≤ o.st.prev.L.toNat → 0 ≤ enhanced w (amps (valuesOf o.st.prev).Ml) o.st.prev.L.toNat k := fun k k1 k2 => by
    have w0 : (0 : ℝ) < w := by
      have : 0 < w := lt_of_lt_of_le (by norm_num) hp.range.1
      exact_mod_cast this
    have := (enhanced_stable (ν := 1) (M := S) (N := S) (w := w) (L := o.st.prev.L.toNat) le_rfl w0 (fun k _ _ => (S0 k).le)
      (fun k _ _ => by norm_num) (corr_lt_of_pitch hp k1 k2 (S0 k).ne') k1 k2).1
    linarith [(st k k1 k2).1]
  have thr := pl.enh.1
  have T1 : (1 : ℝ) ≤ o.st.enh.amplitudeThreshold := by
    have : (1 : Int) ≤ o.st.enh.amplitudeThreshold := le_trans (by norm_num) thr
    exact_mod_cast this
  -- the binary32 part
  have up : (2 : ℝ) ^ (17.8 : ℝ) * 1.06 ≤ 2 ^ 18 := by
    have h1 : (2 : ℝ) ^ (17.8 : ℝ) = (2 : ℝ) ^ (18 : ℝ) * (2 : ℝ) ^ (-(0.2 : ℝ)) := by
      rw [← Real.rpow_add (by norm_num)]; norm_num
    have h2 : (2 : ℝ) ^ (18 : ℝ) = 2 ^ 18 := by rw [← Real.rpow_natCast]; norm_num
    have h3 : (2 : ℝ) ^ (-(0.2 : ℝ)) ≤ 1 / 1.07 := by
      rw [Real.rpow_neg (by norm_num), ← one_div]
      refine one_div_le_one_div_of_le (by norm_num) ?_
      have k := Real.rpow_le_rpow (z := (1 : ℝ) / 5) (by norm_num) (show (1.07 : ℝ) ^ (5 : ℕ) ≤ 2 by norm_num) (by norm_num)
      have k5 : ((1.07 : ℝ) ^ (5 : ℕ)) ^ ((1 : ℝ) / 5) = 1.07 := by
        have := Real.pow_rpow_inv_natCast (show (0 : ℝ) ≤ 1.07 by norm_num) (show (5 : ℕ) ≠ 0 by decide)
        rw [← this]
        norm_num
      rw [k5, show (1 : ℝ) / 5 = 0.2 by norm_num] at k
      exact k
    rw [h1, h2]
    norm_num at h3 ⊢
    linarith
  have sz : ∀ k, 1 ≤ k → k ≤ o.st.prev.L.toNat → 0.95 * S k ≤ amps (valuesOf o.st.prev).Ml k ∧ amps (valuesOf o.st.prev).Ml k ≤ 1.05 * S k := fun k k1 k2 => by
    obtain ⟨e1, e2⟩ := near k k1 k2
    have a := abs_le.1 e1
    obtain ⟨lo, hi⟩ := pow58 e2
    have s0 := S0 k
    constructor <;> nlinarith
  have am : EnhanceOk (2 ^ 18) o.st.prev := by
    refine ⟨⟨w, hw, hp⟩, fun k => if c : k < 57 then fq (o.st.prev.Ml ⟨k, c⟩) else 0, fun k k1 k2 => ?_, .inr ?_⟩
    · obtain ⟨r, vr, _, _, e3, _⟩ := hN k k1 k2
      dsimp only
      rw [dif_pos k.isLt, Val.fq_eq vr]
      have sk := sz k.val k1 (by omega)
      rw [amps_fin, show (valuesOf o.st.prev).Ml k = _ from Val.number vr] at sk
      have b := (hx.1 k k1 (by rw [← eL]; exact k2)).2
      have : (2 : ℝ) ^ (ambeTrack p (bs ++ [op])).log2Ml k ≤ (2 : ℝ) ^ (17.8 : ℝ) := Real.rpow_le_rpow_of_exponent_le (by norm_num) b
      have s0 := S0 k
      rw [← Sf k k1 k2] at e3
      refine ⟨vr, ?_, ?_⟩
      · have : (0 : ℝ) ≤ r := by linarith [sk.1]
        exact_mod_cast this
      · have : (r : ℝ) ≤ 2 ^ 18 := by linarith [sk.2]
        exact_mod_cast this
    · obtain ⟨k, k1, k2, k3⟩ := hx.2
      rw [← eL] at k2
      obtain ⟨r, vr, -⟩ := hN k k1 k2
      refine ⟨k.val, k1, k2, ?_⟩
      dsimp only
      rw [dif_pos k.isLt, Val.fq_eq vr]
      have sk := sz k.val k1 (by omega)
      rw [amps_fin, show (valuesOf o.st.prev).Ml k = _ from Val.number vr, Sf k k1 k2] at sk
      have h' : ((1 / 1024 : ℚ) : ℝ) ≤ r := by push_cast; linarith [sk.1]
      exact_mod_cast h'
  refine ⟨eL, thr, am, sp, fun l l1 l2 => ?_⟩
  obtain ⟨m1, m2⟩ := limitTo_near (T := o.st.enh.amplitudeThreshold) (lo := 780 / 1000) (hi := 1280 / 1000) (τ := 0) (η := 0) T1 (by norm_num) (by norm_num) le_rfl
    (by norm_num) EN0 (g := enhanced w S o.st.prev.L.toNat) (fun k k1 k2 => by
      rw [sub_zero, add_zero]
      exact st k k1 k2) l1 (show l.val ≤ o.st.prev.L.toNat by omega)
  rw [← played_congr _ _ Sin l.val l1 (by omega)]
  unfold played
  rw [ew]
  generalize limitTo (o.st.enh.amplitudeThreshold : ℝ) (enhanced w (amps (valuesOf o.st.prev).Ml) o.st.prev.L.toNat) o.st.prev.L.toNat l.val = y at *
  generalize limitTo (o.st.enh.amplitudeThreshold : ℝ) (enhanced w S o.st.prev.L.toNat) o.st.prev.L.toNat l.val = z at *
  norm_num at m1 m2 ⊢
  constructor <;> linarith

/-- **From the bits to the amplitudes that are played**: after any number of AMBE frames with at most 20 errors each, of both codecs
and of every kind, the binary32 amplitudes that a voice frame is synthesised with lie between 54 and 183 percent of those that exact
arithmetic, from the exact amplitudes of the whole history, would play. The errors of the history do not accumulate. -/
theorem C83_ambe (hm : LibmAcc m) (hl : Log2Acc m) (htr : TrigAcc m) (hcos : CosAcc m) (hsin : SinAcc m) (E : Env (IEEE m)) (s0 s s' : St (IEEE m))
    (bs : List (AmbeOp (IEEE m))) (op : AmbeOp (IEEE m)) (hi : AmbeStart s0 s (bs ++ [op]))
    (hd : ∀ x ∈ bs ++ [op], (Op.ambe x).Payload ∧ (Op.ambe x).Counts 20) (hv : op.kind = .voice)
    (h : runOps (AmbeOp.run E) bs s = .ok s') (o : Out (IEEE m)) (ho : op.run E s' = .ok o)
    (p : Parms ℝ) (hx : QuietA (ambeTrack p (bs ++ [op]))) :
    o.st.prev.L = (ambeTrack p (bs ++ [op])).L ∧ 20480 ≤ o.st.enh.amplitudeThreshold ∧
    ∀ l : Fin 57, 1 ≤ l.val → (l.val : Int) ≤ o.st.prev.L → ∃ v : ℚ, Val (o.st.enh.Ml l) v ∧
      54 / 100 * played (valuesOf o.st.prev).w0 o.st.enh.amplitudeThreshold (amps (ambeTrack p (bs ++ [op])).Ml) o.st.prev.L.toNat l.val - 1 / 2 ^ 100 ≤ v ∧
      v ≤ 183 / 100 * played (valuesOf o.st.prev).w0 o.st.enh.amplitudeThreshold (amps (ambeTrack p (bs ++ [op])).Ml) o.st.prev.L.toNat l.val + 1 / 2 ^ 100 := by
  obtain ⟨eL, thr, am, ⟨C, s1, x, sp, ex, ec⟩, near⟩ := ambe_ready hm hl E s0 s s' bs op hi hd hv h o ho p hx
  refine ⟨eL, thr, fun l l1 l2 => ?_⟩
  obtain ⟨m1, m2⟩ := near l l1 l2
  obtain ⟨v, v1, v0, v2⟩ := C79_played htr hcos hsin E C s1 x sp (by rw [ec]; exact am) (by rw [ex]; exact le_trans (by norm_num) thr) l l1
    (by rw [ec]; exact l2)
  rw [ex, ec] at v2
  rw [ex] at v1
  refine ⟨v, v1, ?_⟩
  generalize played (valuesOf o.st.prev).w0 o.st.enh.amplitudeThreshold (amps (valuesOf o.st.prev).Ml) o.st.prev.L.toNat l.val = y at *
  generalize played (valuesOf o.st.prev).w0 o.st.enh.amplitudeThreshold (amps (ambeTrack p (bs ++ [op])).Ml) o.st.prev.L.toNat l.val = z at *
  have v3 := abs_le.1 v2
  have v0' : (0 : ℝ) ≤ v := by exact_mod_cast v0
  norm_num at m1 m2 v3 ⊢
  constructor <;> linarith

/-- A voice frame on a build with vector code: what is kept as previous went into the synthesis. -/
theorem voiceSimd_spoken (isa : Isa) {E : Env (IEEE m)} {op : AmbeOp (IEEE m)} {s u : St (IEEE m)} (hd : Bits 49 op.payload)
    (hk : op.kind = .voice) (h : (Op.ambe op).runSimd isa E s = .ok u) :
    ∃ C s1 x, speakSimd isa E C s1 = .ok x ∧ x.2 = u ∧ s1.cur = u.prev := by
  cases op with
  | v2450 C c0 e d =>
    change Bits 49 d at hd
    obtain ⟨o, ho, h⟩ := bind_ok h
    cases h
    change processAmbe2450Simd isa E C c0 e d s = .ok o at ho
    unfold processAmbe2450Simd at ho
    obtain ⟨s1, _, ho⟩ := bind_ok ho
    obtain ⟨str1, _, ho⟩ := bind_ok ho
    obtain ⟨r, hdec, ho⟩ := bind_ok ho
    obtain ⟨v, hV, ho⟩ := bind_ok ho
    obtain ⟨str2, _, ho⟩ := bind_ok ho
    obtain ⟨q, hR, ho⟩ := bind_ok ho
    obtain ⟨str3, _, ho⟩ := bind_ok ho
    obtain ⟨str4, _, ho⟩ := bind_ok ho
    obtain ⟨_, k2⟩ := decodeAmbe2450_eq hd E.lax e s1.cur s1.prev s1.tls
    have ht : ¬ (ToneSig d ∧ e < 6) := fun c => by
      simp only [AmbeOp.kind] at hk
      rw [if_pos c] at hk
      cases hk
    have hf : ¬ (120 ≤ ambeFund2450 d ∧ ambeFund2450 d ≠ 124 ∧ ambeFund2450 d ≠ 125) := fun c => by
      simp only [AmbeOp.kind] at hk
      rw [if_neg ht, if_pos c] at hk
      cases hk
    have hr : ambe2450RepeatRequired c0 e = false := by
      have : ¬ ambeTooManyErrors c0 e = true := fun c => by
        simp only [AmbeOp.kind] at hk
        rw [if_neg ht, if_neg hf, if_pos c] at hk
        cases hk
      unfold ambeTooManyErrors at this
      unfold ambe2450RepeatRequired
      cases c0 with
      | none => simpa using this
      | some c =>
        dsimp only at this ⊢
        rw [decide_eq_false_iff_not]
        simp only [Bool.or_eq_true, Bool.and_eq_true, decide_eq_true_eq] at this
        omega
    have hb : r.bad = 0 := by
      rw [(k2 ht).2 (by omega)] at hdec
      exact (ambe2450Voice_frame _ _ _ _ _ _ _ hdec).2.2.1
    unfold ambe2450Verdict at hV
    rw [hb, if_neg (by decide), if_neg (by decide), if_neg (by rw [hr]; decide)] at hV
    have hV := (ok_inj hV).symm
    unfold ambe2450RenderSimd at hR
    rw [hb, if_pos rfl, if_pos (by rw [hV]; show (0 : Int) ≤ 3; decide)] at hR
    obtain ⟨x, h2, h3⟩ := bind_ok hR
    have e1 : x.2 = o.st := by rw [← ok_inj ho, ← ok_inj h3]
    exact ⟨C, _, x, h2, e1, by rw [← e1, (speakSimd_frame isa E _ _ _ h2).prev_eq]⟩
  | v2400 C e0 e d =>
    change Bits 49 d at hd
    obtain ⟨o, ho, h⟩ := bind_ok h
    cases h
    change processAmbe2400Simd isa E C e0 e d s = .ok o at ho
    unfold processAmbe2400Simd at ho
    obtain ⟨s1, _, ho⟩ := bind_ok ho
    obtain ⟨str1, _, ho⟩ := bind_ok ho
    obtain ⟨r, hdec, ho⟩ := bind_ok ho
    obtain ⟨v, hV, ho⟩ := bind_ok ho
    obtain ⟨str2, _, ho⟩ := bind_ok ho
    obtain ⟨q, hR, ho⟩ := bind_ok ho
    obtain ⟨str3, _, ho⟩ := bind_ok ho
    obtain ⟨str4, _, ho⟩ := bind_ok ho
    obtain ⟨k1, _⟩ := decodeAmbe2400_eq hd E.lax s1.cur s1.prev s1.tls
    have hf : ¬ 126 ≤ ambeFund2400 d := fun c => by
      simp only [AmbeOp.kind] at hk
      rw [if_pos c] at hk
      cases hk
    have he : ¬ e > 3 := fun c => by
      simp only [AmbeOp.kind] at hk
      rw [if_neg hf, if_pos c] at hk
      cases hk
    have hb : r.bad = 0 := by
      rw [k1 (by omega)] at hdec
      exact (ambe2400Voice_frame _ _ _ _ _ _ _ hdec).2.2.1
    unfold ambe2400Verdict at hV
    rw [hb, if_neg (by decide), if_neg (by decide), if_neg (by omega), if_neg he] at hV
    have hV := (ok_inj hV).symm
    unfold ambe2400RenderSimd at hR
    rw [hb, if_pos rfl, if_pos (by rw [hV]; show (0 : Int) ≤ 3; decide)] at hR
    obtain ⟨x, h2, h3⟩ := bind_ok hR
    have e1 : x.2 = o.st := by rw [← ok_inj ho, ← ok_inj h3]
    exact ⟨_, _, x, h2, e1, by rw [← e1, (speakSimd_frame isa E _ _ _ h2).prev_eq]⟩

/-- The same on a build with vector code. -/
theorem C83_ambe_vector (hm : LibmAcc m) (hl : Log2Acc m) (htr : TrigAcc m) (hcos : CosAcc m) (hsin : SinAcc m) (isa : Isa) (E : Env (IEEE m))
    (hlax : E.lax = true) (s0 s : St (IEEE m)) (bs : List (AmbeOp (IEEE m))) (op : AmbeOp (IEEE m)) (hi : AmbeStart s0 s (bs ++ [op]))
    (hd : ∀ x ∈ bs ++ [op], (Op.ambe x).Payload ∧ (Op.ambe x).Counts 20) (hv : op.kind = .voice) (hn : bs.length < 357000)
    (p : Parms ℝ) (hx : QuietA (ambeTrack p (bs ++ [op]))) :
    ∃ u, runHistSimd isa E ((bs ++ [op]).map Op.ambe) s = .ok u ∧ u.prev.L = (ambeTrack p (bs ++ [op])).L ∧ 20480 ≤ u.enh.amplitudeThreshold ∧
    ∀ l : Fin 57, 1 ≤ l.val → (l.val : Int) ≤ u.prev.L → ∃ v : ℚ, Val (u.enh.Ml l) v ∧
      54 / 100 * played (valuesOf u.prev).w0 u.enh.amplitudeThreshold (amps (ambeTrack p (bs ++ [op])).Ml) u.prev.L.toNat l.val - 1 / 2 ^ 100 ≤ v ∧
      v ≤ 183 / 100 * played (valuesOf u.prev).w0 u.enh.amplitudeThreshold (amps (ambeTrack p (bs ++ [op])).Ml) u.prev.L.toNat l.val + 1 / 2 ^ 100 := by
  obtain ⟨v, u, hr, hu, hb⟩ := hist_pair (exp2Acc_of hm) isa E hlax s ⟨s0, hi.1, hi.2.symm.imp (·.1) id⟩ ((bs ++ [op]).map Op.ambe)
    (fun op hop => by
      obtain ⟨x, hx, rfl⟩ := List.mem_map.1 hop
      obtain ⟨k1, k2⟩ := hd x hx
      exact ⟨k1, by cases x <;> exact ⟨k2.1, le_trans k2.2.1 (by decide), k2.2.2⟩⟩) (by simp; omega)
  rw [Model.runHist_ambe, runOps_append] at hr
  obtain ⟨s', h, hr⟩ := bind_ok hr
  obtain ⟨o, ho, hr⟩ := bind_ok hr
  cases hr
  obtain ⟨eL, thr, am, _, near⟩ := ambe_ready hm hl E s0 s s' bs op hi hd hv h o ho p hx
  have e1 : u.prev.L = o.st.prev.L := by rw [hb.prev.rest]
  have e2 : u.prev.w0 = o.st.prev.w0 := by rw [hb.prev.rest]
  have e3 : u.enh.amplitudeThreshold = o.st.enh.amplitudeThreshold := by rw [hb.enh.rest]
  have e4 : (valuesOf u.prev).w0 = (valuesOf o.st.prev).w0 := by show number _ = number _; rw [e2]
  refine ⟨u, hu, e1.trans eL, by rw [e3]; exact thr, fun l l1 l2 => ?_⟩
  have hu' := hu
  rw [List.map_append, runHistSimd_append] at hu'
  obtain ⟨u1, _, hu'⟩ := bind_ok hu'
  obtain ⟨u2, hu2, hu'⟩ := bind_ok hu'
  cases hu'
  obtain ⟨C, s1, x, hx1, hx2, hx3⟩ := voiceSimd_spoken isa (hd op (by simp)).1 hv hu2
  have am' : EnhanceOk (2 ^ 18) s1.cur := by rw [hx3]; exact enhanceOk_congr hb.prev am
  obtain ⟨w, w1, w0, w2⟩ := C81_played htr hcos hsin isa E C s1 x hx1 am' (by rw [hx2, e3]; exact le_trans (by norm_num) thr) l l1
    (by rw [hx3]; exact l2)
  rw [hx2] at w1
  refine ⟨w, w1, ?_⟩
  rw [hx2, hx3] at w2
  have l3 : (l.val : Int) ≤ o.st.prev.L := by rw [← e1]; exact l2
  obtain ⟨m1, m2⟩ := near l l1 l3
  have hc : played (valuesOf u.prev).w0 u.enh.amplitudeThreshold (amps (valuesOf u.prev).Ml) u.prev.L.toNat l.val =
      played (valuesOf o.st.prev).w0 o.st.enh.amplitudeThreshold (amps (valuesOf o.st.prev).Ml) o.st.prev.L.toNat l.val := by
    rw [e1, e3, e4]
    refine played_congr _ _ (fun i i1 i2 => ?_) _ l1 (by omega)
    unfold amps Arr.getD
    split
    · next hi57 =>
      show number _ = number _
      rw [(hb.prev.band ⟨i, hi57⟩ i1 (by show (i : Int) ≤ _; omega)).1]
    · rfl
  rw [hc] at w2
  rw [e1, e3, e4]
  generalize played (valuesOf o.st.prev).w0 o.st.enh.amplitudeThreshold (amps (valuesOf o.st.prev).Ml) o.st.prev.L.toNat l.val = y at *
  generalize played (valuesOf o.st.prev).w0 o.st.enh.amplitudeThreshold (amps (ambeTrack p (bs ++ [op])).Ml) o.st.prev.L.toNat l.val = z at *
  have v3 := abs_le.1 w2
  have w0' : (0 : ℝ) ≤ w := by exact_mod_cast w0
  norm_num at m1 m2 v3 ⊢
  constructor <;> linarith

/-! ## Concrete cases -/

/-- A table of log amplitudes between 0 and 17. -/
def quietAChk (L : Int) (l : List (Int × Int)) : Bool :=
  (List.finRange 57).all fun i => i.val = 0 || decide (L < i.val) ||
    (decide (0 ≤ (l.getD (i.val - 1) (0, 0)).1) && decide ((l.getD (i.val - 1) (0, 0)).2 ≤ 17 * 65536))

theorem quietA_of (hm : LibmAcc m) (hl : Log2Acc m) (E : Env (IEEE m)) (ops : List (AmbeOp (IEEE m))) (hd : ∀ op ∈ ops, Bits 49 op.payload)
    (p : Parms ℝ) {s' : St (IEEE m)} (h : runOps (AmbeOp.run E) ops freshAmbe = .ok s') {L : Int} {l : List (Int × Int)} {g : Ivl}
    (hs : LoudASt E L l g s') (hL : 1 ≤ L) (hc : quietAChk L l = true) : QuietA (ambeTrack p ops) := by
  have hi : AmbeStart (freshAmbe (m := m)) freshAmbe ops := ⟨rfl, .inl (initAmbeState_eq _)⟩
  have T := ambe_atrack hm hl hi hd h p
  obtain ⟨eL, key⟩ := C72_log_amplitudes hm hl E freshAmbe freshAmbe s' ops hi hd h p
  have e : (ambeTrack p ops).L = L := eL.symm.trans hs.L
  have b : ∀ i : Fin 57, 1 ≤ i.val → (i.val : Int) ≤ L → -0.1 ≤ (ambeTrack p ops).log2Ml i ∧ (ambeTrack p ops).log2Ml i ≤ 17.1 := by
    intro i i1 i2
    obtain ⟨q, vq, dq, _⟩ := key i i1 (by rw [e]; exact i2)
    have hk := List.all_eq_true.mp hc i (List.mem_finRange i)
    have n0 : i.val ≠ 0 := by omega
    have n1 : ¬ L < i.val := by omega
    simp only [n0, n1, decide_false, Bool.false_or, Bool.and_eq_true, decide_eq_true_eq] at hk
    have hr := hs.prev i
    unfold microArr at hr
    rw [if_neg n0] at hr
    obtain ⟨q', vq', l1, l2⟩ := hr
    have : q' = q := (Val.fq_eq vq').symm.trans (Val.fq_eq vq)
    subst this
    rw [Rat.mkRat_eq_div] at l1 l2
    have c1 : (0 : ℚ) ≤ ((l.getD (i.val - 1) (0, 0)).1 : ℚ) := by exact_mod_cast hk.1
    have c2 : (((l.getD (i.val - 1) (0, 0)).2 : ℚ)) ≤ 17 * 65536 := by exact_mod_cast hk.2
    have q1 : (0 : ℚ) ≤ q' := by
      refine le_trans ?_ l1
      positivity
    have q2 : q' ≤ 17 := by
      refine le_trans l2 ?_
      rw [div_le_iff₀ (by norm_num)]
      push_cast
      linarith
    have r1 : (0 : ℝ) ≤ q' := by exact_mod_cast q1
    have r2 : (q' : ℝ) ≤ 17 := by exact_mod_cast q2
    have := abs_le.mp dq
    constructor <;> norm_num <;> linarith [this.1, this.2]
  refine ⟨fun i i1 i2 => ?_, ⟨1, by decide⟩, le_refl 1, by rw [e]; exact hL, ?_⟩
  · have := b i i1 (by rw [← e]; exact i2)
    constructor <;> linarith [this.1, this.2]
  · have h1 := (b ⟨1, by decide⟩ (le_refl 1) hL).1
    have h2 := amp_ge_pow T ⟨1, by decide⟩ (le_refl 1) (by rw [e]; exact hL)
    have h3 : (2 : ℝ) ^ (-1 : ℝ) ≤ (2 : ℝ) ^ (ambeTrack p ops).log2Ml ⟨1, by decide⟩ :=
      Real.rpow_le_rpow_of_exponent_le (by norm_num) (by linarith)
    rw [Real.rpow_neg_one, show (2 : ℝ)⁻¹ = 1 / 2 by norm_num] at h3
    have c : (1 / 900 : ℝ) ≤ 1 / 9 * (1 / 2) := by norm_num
    exact (c.trans (mul_le_mul_of_nonneg_left h3 (by norm_num))).trans h2

/-- A new decoder, one voice frame of 42 bands: the conditions hold, and the lowest amplitude that is played lies within the bounds. -/
example (hm : LibmAcc m) (hl : Log2Acc m) (htr : TrigAcc m) (hcos : CosAcc m) (hsin : SinAcc m) (E : Env (IEEE m)) (hlax : E.lax = true) (p : Parms ℝ) :
    (loudAOp (m := m)).kind = .voice ∧ QuietA (ambeTrack p [loudAOp (m := m)]) ∧ ∃ (o : Out (IEEE m)) (v : ℚ), loudAOp.run E freshAmbe = .ok o ∧
      o.st.prev.L = 42 ∧ Val (o.st.enh.Ml 1) v ∧
      v ≤ 183 / 100 * played (valuesOf o.st.prev).w0 o.st.enh.amplitudeThreshold (amps (ambeTrack p [loudAOp (m := m)]).Ml) 42 1 + 1 / 2 ^ 100 := by
  have hrx : LoudARx (loudAOp (m := m)) := ⟨_, _, _, rfl, by decide⟩
  have hk : (loudAOp (m := m)).kind = .voice := by
    unfold loudAOp AmbeOp.kind
    dsimp only
    decide
  have hc : ∀ x ∈ ([] : List (AmbeOp (IEEE m))) ++ [loudAOp], (Op.ambe x).Payload ∧ (Op.ambe x).Counts 20 := fun x hx => by
    have : x = loudAOp := by simpa using hx
    rw [this]
    exact ⟨loudA_bits, show (0 : Int) ≤ 0 ∧ (0 : Int) ≤ 20 ∧ 0 + 3 ≤ 16 by decide⟩
  obtain ⟨h1, h2⟩ := fresh_ok (freshAmbe_fresh (m := m))
  have hh := hist_u (exp2Acc_of hm) (U := fun _ => False) (E := E) (.inl hlax) (ops := [Op.ambe (loudAOp (m := m))])
    (by
      intro op hop
      rw [List.mem_singleton.1 hop]
      exact ⟨loudA_bits, show (0 : Int) ≤ 0 ∧ (0 : Int) ≤ 7000000 ∧ 0 + 3 ≤ 16 by decide⟩) h1 (le_refl _) h2 (by simp)
  rw [show [Op.ambe (loudAOp (m := m))] = [loudAOp].map Op.ambe from rfl, Model.runHist_ambe] at hh
  obtain ⟨s, hs, _⟩ := hh.toOk
  obtain ⟨o, ho, hs2⟩ := bind_ok hs
  have hs3 := loudA_run hm hl (n := 0) (ops := [loudAOp (m := m)]) (fun op h => by rw [List.mem_singleton.1 h]; exact hrx)
    (by simp) (loudA_init E (fresh_cacheOk (freshAmbe_fresh (m := m)))) (by rw [Model.runHist_ambe]; exact hs)
  have hs3 : LoudASt E (loudAL 1) (loudATab 1) (gam 1) s := hs3
  have hx : QuietA (ambeTrack p [loudAOp (m := m)]) :=
    quietA_of hm hl E _ (fun op h => by rw [List.mem_singleton.1 h]; exact loudA_bits) p hs hs3 (by decide) (by decide)
  cases hs2
  obtain ⟨eL, _, key⟩ := C83_ambe hm hl htr hcos hsin E freshAmbe freshAmbe freshAmbe [] loudAOp ⟨rfl, .inl (initAmbeState_eq _)⟩ hc hk rfl o ho p hx
  have e42 : o.st.prev.L = 42 := hs3.L.trans (by decide)
  obtain ⟨v, hv, _, h3⟩ := key 1 (by decide) (by rw [e42]; decide)
  rw [e42] at h3
  exact ⟨hk, hx, o, v, ho, e42, hv, h3⟩

end Verif.Props
