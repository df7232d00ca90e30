import Verif.Props.Builds
import Verif.Props.Played
import Verif.Props.EnhanceSimd

/-!
# C82, consequences: the accuracy of the decoded and played amplitudes on builds with vector code

Calls on a new decoder, each with at most seven million reported errors and room for its status, at most 357000 of them.
-/

namespace Verif.Props
open Verif Verif.Spec Verif.Model Verif.Num Verif.Gen Arith
variable {m : Libm}

/-- Both builds are defined on such calls, and agree. -/
theorem hist_pair (hm : Exp2Acc m) (isa : Isa) (E : Env (IEEE m)) (hlax : E.lax = true) (s : St (IEEE m)) (h0 : Fresh s)
    (ops : List (Op (IEEE m))) (hd : ∀ op ∈ ops, op.Payload ∧ op.Counts 7000000) (hl : ops.length ≤ 357000) :
    ∃ v u, runHist E ops s = .ok v ∧ runHistSimd isa E ops s = .ok u ∧ StateEq v u := by
  obtain ⟨g1, g2⟩ := fresh_ok h0
  have hp : PlanOk s.tls := fun P hP => cacheOk_plan (fresh_cacheOk (E := E) h0) P hP
  obtain ⟨v, hv, _⟩ := OkU.toOk (hist_u hm (U := fun _ => False) (.inl hlax) hd g1 (le_refl _) g2 (by omega))
  obtain ⟨u, hu, _⟩ := OkU.toOk (histSimd_u hm (U := fun _ => False) isa (.inl hlax) hd hp g1 (le_refl _) g2 (by omega))
  exact ⟨v, u, hv, hu, runHist_b isa E E rfl ops (.refl s) v u hv hu⟩

/-- C69 on a build with vector code: after any number of IMBE frames the number of bands is the exact one, every log amplitude is within
0.051 of the exact one, and amplitudes are within 4 percent. -/
theorem C82_imbe_track (hm : LibmAcc m) (isa : Isa) (E : Env (IEEE m)) (hlax : E.lax = true) (s0 s : St (IEEE m)) (ht : s0.tls = Tls.start)
    (hi : initMbeState s0 = .ok s) (ops : List (ImbeOp (IEEE m))) (hd : ∀ op ∈ ops, (Op.imbe op).Payload ∧ (Op.imbe op).Counts 7000000)
    (hn : ops.length ≤ 357000) (p : Parms ℝ) :
    ∃ u, runHistSimd isa E (ops.map Op.imbe) s = .ok u ∧ u.prev.L = (track p ops).L ∧
      ∀ l : Fin 57, 1 ≤ l.val → (l.val : Int) ≤ (track p ops).L →
        (∃ q : ℚ, Val (u.prev.log2Ml l) q ∧ |(q : ℝ) - (track p ops).log2Ml l| ≤ 51 / 1000) ∧
        (-15.9 ≤ (track p ops).log2Ml l → (track p ops).log2Ml l ≤ 63.9 → ∃ r : ℚ, Val (u.prev.Ml l) r ∧
          |(r : ℝ) - (2 : ℝ) ^ ((track p ops).log2Ml l)| ≤ 4 / 100 * (2 : ℝ) ^ ((track p ops).log2Ml l)) := by
  obtain ⟨v, u, hv, hu, hb⟩ := hist_pair (exp2Acc_of hm) isa E hlax s ⟨s0, ht, .inl hi⟩ (ops.map Op.imbe)
    (fun op hop => by obtain ⟨x, hx, rfl⟩ := List.mem_map.1 hop; exact hd x hx) (by rw [List.length_map]; exact hn)
  rw [Model.runHist_imbe] at hv
  have hd' : ∀ op ∈ ops, Bits 88 op.d := fun op hop => (hd op hop).1
  obtain ⟨eL, key⟩ := C69_log_amplitudes hm E s0 s v ht hi ops hd' hv p
  obtain ⟨_, b1, _, _, b2, b3, _⟩ := C82_decoded v u hb
  refine ⟨u, hu, b1.trans eL, fun l l1 l2 => ⟨?_, fun lo hi' => ?_⟩⟩
  · obtain ⟨q, h1, h2, _⟩ := key l l1 l2
    exact ⟨q, by rw [b2]; exact h1, h2⟩
  · obtain ⟨r, h1, h2⟩ := C69_amplitudes hm E s0 s v ht hi ops hd' hv p l l1 l2 lo hi'
    exact ⟨r, by rw [(b3 l l1 (by rw [eL]; exact l2)).1]; exact h1, h2⟩

/-- C72 on a build with vector code: after any number of AMBE frames the number of bands and the voicing are the exact ones, the gain is
within 0.00001, the fundamental within 1/25000, every log amplitude within 0.058 and amplitudes within 5 percent. -/
theorem C82_ambe_track (hm : LibmAcc m) (hg : Log2Acc m) (isa : Isa) (E : Env (IEEE m)) (hlax : E.lax = true) (s0 s : St (IEEE m))
    (ops : List (AmbeOp (IEEE m))) (hi : AmbeStart s0 s ops) (hd : ∀ op ∈ ops, (Op.ambe op).Payload ∧ (Op.ambe op).Counts 7000000)
    (hn : ops.length ≤ 357000) (p : Parms ℝ) :
    ∃ u, runHistSimd isa E (ops.map Op.ambe) s = .ok u ∧ u.prev.L = (ambeTrack p ops).L ∧
      (∃ q : ℚ, Val u.prev.gamma q ∧ |(q : ℝ) - (ambeTrack p ops).gamma| ≤ 1 / 100000) ∧
      (∃ q : ℚ, Val u.prev.w0 q ∧ |(q : ℝ) - (ambeTrack p ops).w0| ≤ 1 / 25000) ∧
      ∀ l : Fin 57, 1 ≤ l.val → (l.val : Int) ≤ (ambeTrack p ops).L → u.prev.Vl l = (ambeTrack p ops).Vl l ∧
        (∃ q : ℚ, Val (u.prev.log2Ml l) q ∧ |(q : ℝ) - (ambeTrack p ops).log2Ml l| ≤ 58 / 1000) ∧
        (-15.9 ≤ (ambeTrack p ops).log2Ml l → (ambeTrack p ops).log2Ml l ≤ 63.9 → ∃ r : ℚ, Val (u.prev.Ml l) r ∧
          |(r : ℝ) - (ambeTrack p ops).Ml l| ≤ 5 / 100 * (ambeTrack p ops).Ml l) := by
  obtain ⟨v, u, hv, hu, hb⟩ := hist_pair (exp2Acc_of hm) isa E hlax s ⟨s0, hi.1, hi.2.symm.imp (·.1) id⟩ (ops.map Op.ambe)
    (fun op hop => by obtain ⟨x, hx, rfl⟩ := List.mem_map.1 hop; exact hd x hx) (by rw [List.length_map]; exact hn)
  rw [Model.runHist_ambe] at hv
  have hd' : ∀ op ∈ ops, Bits 49 op.payload := fun op hop => (hd op hop).1
  obtain ⟨eL, key⟩ := C72_log_amplitudes hm hg E s0 s v ops hi hd' hv p
  obtain ⟨b0, b1, _, b4, b2, b3, _⟩ := C82_decoded v u hb
  refine ⟨u, hu, b1.trans eL, ?_, ?_, fun l l1 l2 => ⟨?_, ?_, fun lo hi' => ?_⟩⟩
  · rw [b4]; exact C72_gain hm hg E s0 s v ops hi hd' hv p
  · rw [b0]; exact C72_fundamental hm hg E s0 s v ops hi hd' hv p
  · rw [(b3 l l1 (by rw [eL]; exact l2)).2]
    exact C72_voicing hm hg E s0 s v ops hi hd' hv p l l1 l2
  · obtain ⟨q, h1, h2, _⟩ := key l l1 l2
    exact ⟨q, by rw [b2]; exact h1, h2⟩
  · obtain ⟨r, h1, h2, _⟩ := C72_amplitudes hm hg E s0 s v ops hi hd' hv p l l1 l2 lo hi'
    exact ⟨r, by rw [(b3 l l1 (by rw [eL]; exact l2)).1]; exact h1, h2⟩

theorem enhFactor_congr {M N : Nat → ℝ} {L : Nat} (w : ℝ) (h : ∀ l, 1 ≤ l → l ≤ L → M l = N l) (l : Nat) (l1 : 1 ≤ l) (l2 : l ≤ L) :
    enhFactor w M L l = enhFactor w N L l := by
  have e1 : energy M L = energy N L := Finset.sum_congr rfl fun i hi => by rw [Finset.mem_Icc] at hi; rw [h i hi.1 hi.2]
  have e2 : corr w M L = corr w N L := Finset.sum_congr rfl fun i hi => by rw [Finset.mem_Icc] at hi; rw [h i hi.1 hi.2]
  simp only [enhFactor, enhW, e1, e2, h l l1 l2]

theorem played_congr {M N : Nat → ℝ} {L : Nat} (w T : ℝ) (h : ∀ l, 1 ≤ l → l ≤ L → M l = N l) (l : Nat) (l1 : 1 ≤ l) (l2 : l ≤ L) :
    played w T M L l = played w T N L l := by
  have e1 : energy M L = energy N L := Finset.sum_congr rfl fun i hi => by rw [Finset.mem_Icc] at hi; rw [h i hi.1 hi.2]
  have e2 : energy (fun l => enhFactor w M L l * M l) L = energy (fun l => enhFactor w N L l * N l) L :=
    Finset.sum_congr rfl fun i hi => by
      rw [Finset.mem_Icc] at hi
      show (_ * _) ^ 2 = (_ * _) ^ 2
      rw [h i hi.1 hi.2, enhFactor_congr w h i hi.1 hi.2]
  have e3 : ∀ i, 1 ≤ i → i ≤ L → enhanced w M L i = enhanced w N L i := fun i i1 i2 => by
    unfold enhanced enhGain
    rw [e1, e2, h i i1 i2, enhFactor_congr w h i i1 i2]
  have e4 : ampTotal (enhanced w M L) L = ampTotal (enhanced w N L) L :=
    Finset.sum_congr rfl fun i hi => by rw [Finset.mem_Icc] at hi; exact e3 i hi.1 hi.2
  unfold played limitTo
  rw [e3 l l1 l2, e4]

theorem enhanceOk_congr {A : ℚ} {p q : Parms (IEEE m)} (h : DecodedEq p q) (hp : EnhanceOk A p) : EnhanceOk A q := by
  have eL : q.L = p.L := by rw [h.rest]
  have ew : q.w0 = p.w0 := by rw [h.rest]
  obtain ⟨⟨w, w1, w2⟩, a, a1, a2⟩ := hp
  refine ⟨⟨w, by rw [ew]; exact w1, by rw [eL]; exact w2⟩, a, fun l l1 l2 => ?_, by rw [eL]; exact a2⟩
  rw [eL] at l2
  rw [(h.band l l1 l2).1]
  exact a1 l l1 l2

/-- One IMBE action on a build with vector code: what is kept as previous is what went into the synthesis. -/
theorem imbeSimd_spoken (isa : Isa) (E : Env (IEEE m)) (op : ImbeOp (IEEE m)) (s u : St (IEEE m)) (h : (Op.imbe op).runSimd isa E s = .ok u) :
    ∃ s1 x, speakSimd isa E op.call s1 = .ok x ∧ x.2 = u ∧ s1.cur = u.prev := by
  have key : ∀ (c0 : Option Int) (s : St (IEEE m)) (o : Out (IEEE m)), processImbe4400Simd isa E op.call c0 op.errs2 op.d s = .ok o →
      ∃ s1 x, speakSimd isa E op.call s1 = .ok x ∧ x.2 = o.st ∧ s1.cur = o.st.prev := by
    intro c0 s o h
    unfold processImbe4400Simd at h
    obtain ⟨str1, h1, h⟩ := bind_ok h
    obtain ⟨r, h2, h⟩ := bind_ok h
    obtain ⟨cur, h3, h⟩ := bind_ok h
    obtain ⟨str2, h4, h⟩ := bind_ok h
    obtain ⟨sp, h5, h⟩ := bind_ok h
    obtain ⟨str3, h6, h⟩ := bind_ok h
    obtain ⟨str4, h7, h⟩ := bind_ok h
    cases h
    exact ⟨_, sp, h5, rfl, ((speakSimd_frame isa E _ _ _ h5).prev_eq).symm⟩
  obtain ⟨C, _ | ⟨c0, c4⟩, e, d⟩ := op
  · obtain ⟨o, ho, h⟩ := bind_ok h
    cases h
    exact key none s o ho
  · obtain ⟨o, ho, h⟩ := bind_ok h
    cases h
    exact key (some c0) _ o ho

theorem runHistSimd_append (isa : Isa) (E : Env (IEEE m)) (as bs : List (Op (IEEE m))) (s : St (IEEE m)) :
    runHistSimd isa E (as ++ bs) s = (runHistSimd isa E as s >>= runHistSimd isa E bs) := by
  induction as generalizing s with
  | nil => rfl
  | cons a as ih =>
    simp only [List.cons_append, runHistSimd, bind_assoc]
    exact congrArg _ (funext fun x => ih x)

/-- C79 on a build with vector code: from the received bits to the amplitudes that are played. -/
theorem C82_imbe_played (hm : LibmAcc m) (htr : TrigAcc m) (hcos : CosAcc m) (hsin : SinAcc m) (isa : Isa) (E : Env (IEEE m)) (hlax : E.lax = true)
    (s0 s : St (IEEE m)) (ht : s0.tls = Tls.start) (hi : initMbeState s0 = .ok s) (bs : List (ImbeOp (IEEE m))) (op : ImbeOp (IEEE m))
    (hd : ∀ x ∈ bs ++ [op], (Op.imbe x).Payload ∧ (Op.imbe x).Counts 20) (hn : bs.length < 357000) (p : Parms ℝ)
    (hx : Quiet (track p (bs ++ [op]))) :
    ∃ u, runHistSimd isa E ((bs ++ [op]).map Op.imbe) s = .ok u ∧ u.prev.L = (track p (bs ++ [op])).L ∧ 20480 ≤ u.enh.amplitudeThreshold ∧
    ∀ l : Fin 57, 1 ≤ l.val → (l.val : Int) ≤ u.prev.L → ∃ v : ℚ, Val (u.enh.Ml l) v ∧
      59 / 100 * played (valuesOf u.prev).w0 u.enh.amplitudeThreshold (ampsOf (track p (bs ++ [op]))) u.prev.L.toNat l.val - 1 / 2 ^ 100 ≤ v ∧
      v ≤ 167 / 100 * played (valuesOf u.prev).w0 u.enh.amplitudeThreshold (ampsOf (track p (bs ++ [op]))) u.prev.L.toNat l.val + 1 / 2 ^ 100 := by
  obtain ⟨v, u, hv, hu, hb⟩ := hist_pair (exp2Acc_of hm) isa E hlax s ⟨s0, ht, .inl hi⟩ ((bs ++ [op]).map Op.imbe)
    (fun op hop => by
      obtain ⟨x, hx, rfl⟩ := List.mem_map.1 hop
      obtain ⟨k1, k2, k3, k4⟩ := hd x hx
      exact ⟨k1, k2, by omega, k4⟩) (by simp; omega)
  rw [Model.runHist_imbe, runOps_append] at hv
  obtain ⟨s', h, hv⟩ := bind_ok hv
  obtain ⟨o, ho, hv⟩ := bind_ok hv
  cases hv
  obtain ⟨eL, thr, am, near⟩ := imbe_ready hm E s0 s s' ht hi bs op (fun x hx => ⟨(hd x hx).1, (hd x hx).2.2.1⟩) h o ho p hx
  have e1 : u.prev.L = o.st.prev.L := by rw [hb.prev.rest]
  have e2 : u.prev.w0 = o.st.prev.w0 := by rw [hb.prev.rest]
  have e3 : u.enh.amplitudeThreshold = o.st.enh.amplitudeThreshold := by rw [hb.enh.rest]
  have e4 : (valuesOf u.prev).w0 = (valuesOf o.st.prev).w0 := by show number _ = number _; rw [e2]
  refine ⟨u, hu, e1.trans eL, by rw [e3]; exact thr, fun l l1 l2 => ?_⟩
  have hu' := hu
  rw [List.map_append, runHistSimd_append] at hu'
  obtain ⟨u1, _, hu'⟩ := bind_ok hu'
  obtain ⟨u2, hu2, hu'⟩ := bind_ok hu'
  cases hu'
  obtain ⟨s1, x, hx1, hx2, hx3⟩ := imbeSimd_spoken isa E op u1 u hu2
  have am' : EnhanceOk (2 ^ 18) s1.cur := by rw [hx3]; exact enhanceOk_congr hb.prev am
  obtain ⟨w, w1, w0, w2⟩ := C81_played htr hcos hsin isa E op.call s1 x hx1 am' (by rw [hx2, e3]; exact le_trans (by norm_num) thr) l l1
    (by rw [hx3]; exact l2)
  rw [hx2] at w1
  refine ⟨w, w1, ?_⟩
  rw [hx2, hx3] at w2
  have l3 : (l.val : Int) ≤ o.st.prev.L := by rw [← e1]; exact l2
  obtain ⟨m1, m2⟩ := near l l1 l3
  have hc : played (valuesOf u.prev).w0 u.enh.amplitudeThreshold (amps (valuesOf u.prev).Ml) u.prev.L.toNat l.val =
      played (valuesOf o.st.prev).w0 o.st.enh.amplitudeThreshold (amps (valuesOf o.st.prev).Ml) o.st.prev.L.toNat l.val := by
    rw [e1, e3, e4]
    refine played_congr _ _ (fun i i1 i2 => ?_) _ l1 (by omega)
    unfold amps Arr.getD
    split
    · next hi57 =>
      show number _ = number _
      rw [(hb.prev.band ⟨i, hi57⟩ i1 (by show (i : Int) ≤ _; omega)).1]
    · rfl
  rw [hc] at w2
  rw [e1, e3, e4]
  generalize played (valuesOf o.st.prev).w0 o.st.enh.amplitudeThreshold (amps (valuesOf o.st.prev).Ml) o.st.prev.L.toNat l.val = y at *
  generalize played (valuesOf o.st.prev).w0 o.st.enh.amplitudeThreshold (ampsOf (track p (bs ++ [op]))) o.st.prev.L.toNat l.val = z at *
  have v3 := abs_le.1 w2
  norm_num at m1 m2 v3 ⊢
  constructor <;> linarith

/-! ## Concrete cases -/

/-- A new decoder, two IMBE frames with an invalid fundamental: the vector code has 39 bands with log amplitudes near 0. -/
example (hm : LibmAcc m) (isa : Isa) : ∃ u, runHistSimd isa sampleEnv ([badImbe (m := m), badImbe].map Op.imbe) freshImbe = .ok u ∧ u.prev.L = 39 ∧
    ∃ r : ℚ, Val (u.prev.Ml 7) r ∧ |(r : ℝ) - 1| ≤ 4 / 100 := by
  have b : ∀ a : ImbeAbs (IEEE m), a.isRepeat badImbe = true := fun a => badImbe_repeat a.rate a.streak
  have tr : track (valuesOf (imbeInit 39 : Parms (IEEE m))) [badImbe (m := m), badImbe] =
      { valuesOf (imbeInit 39 : Parms (IEEE m)) with L := 39, log2Ml := Arr.const 57 0 } := by
    simp [track, trackNext, b, ImbeAbs.next, ImbeAbs.init]
  obtain ⟨u, hu, eL, key⟩ := C82_imbe_track hm isa sampleEnv rfl freshImbe freshImbe rfl (initMbeState_ieee _) [badImbe, badImbe]
    (fun x hx => sampleImbe_ok x (.inl (by simpa using hx))) (by simp) (valuesOf (imbeInit 39 : Parms (IEEE m)))
  rw [tr] at eL key
  obtain ⟨r, hr, h⟩ := (key 7 (by decide) (by show (7 : Int) ≤ 39; decide)).2 (by show (-15.9 : ℝ) ≤ 0; norm_num) (by show (0 : ℝ) ≤ 63.9; norm_num)
  refine ⟨u, hu, eL, r, hr, ?_⟩
  have e : (2 : ℝ) ^ (Arr.const 57 (0 : ℝ) 7) = 1 := Real.rpow_zero 2
  dsimp only at h
  rw [e] at h
  linarith

/-- Five frames with an invalid fundamental: the fourth repeat sounds as comfort noise, the same samples with vector code. -/
example : NoiseInstead { (imbeInit 39 : Parms (IEEE m)) with repeatCount := 4 } := .inl (le_refl 4)

/-- Calls as `C82_program` takes them. -/
example : Fresh (freshAmbe : St (IEEE m)) ∧ ∃ a : Api (IEEE m), a.Valid :=
  ⟨freshAmbe_fresh, .ambe2450Frame ⟨18, 1, 2, Arr.const 160 (fi 0), 3⟩ (fun _ _ => 0) (fun _ => 0),
    fun _ _ _ _ => .inl rfl, by show (9 : Nat) ≤ 18; decide⟩

end Verif.Props
