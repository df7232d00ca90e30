import Verif.Spec.Rate
import Verif.Props.AmbeTrack

/-!
# C65 for AMBE: finite samples from a condition on the exact amplitudes
-/

namespace Verif.Props
open Verif Verif.Spec Verif.Model Verif.Num Verif.Gen Arith
variable {m : Libm}

theorem two_pow_26 : (2 : ℝ) ^ (26.9 : ℝ) ≤ 2 ^ 27 * 0.95 := by
  have h1 : (2 : ℝ) ^ (26.9 : ℝ) = (2 : ℝ) ^ (27 : ℝ) * (2 : ℝ) ^ (-(0.1 : ℝ)) := by
    rw [← Real.rpow_add (by norm_num)]; norm_num
  have h2 : (2 : ℝ) ^ (27 : ℝ) = 2 ^ 27 := by rw [← Real.rpow_natCast]; norm_num
  have h3 : (2 : ℝ) ^ (-(0.1 : ℝ)) ≤ 0.95 := by
    rw [Real.rpow_neg (by norm_num)]
    have h4 : ((1.06 : ℝ) ^ (10 : ℕ)) ^ ((1 : ℝ) / 10) ≤ (2 : ℝ) ^ ((1 : ℝ) / 10) :=
      Real.rpow_le_rpow (by norm_num) (by norm_num) (by norm_num)
    have h5 : ((1.06 : ℝ) ^ (10 : ℕ)) ^ ((1 : ℝ) / 10) = 1.06 := by
      have := Real.pow_rpow_inv_natCast (show (0 : ℝ) ≤ 1.06 by norm_num) (show (10 : ℕ) ≠ 0 by decide)
      rw [← this]
      norm_num
    have h6 : (1.06 : ℝ) ≤ (2 : ℝ) ^ (0.1 : ℝ) := by
      rw [h5] at h4
      rw [show (0.1 : ℝ) = 1 / 10 by norm_num]
      exact h4
    rw [inv_le_comm₀ (by positivity) (by norm_num)]
    linarith
  rw [h1, h2]
  nlinarith

/-- The exact amplitudes are at most the powers of two of the exact log amplitudes, nearly. -/
theorem amp_le_pow {E : Env (IEEE m)} {s : St (IEEE m)} {n : Nat} {x : Parms ℝ} (T : ATrack E s n x) (l : Fin 57) (l1 : 1 ≤ l.val)
    (l2 : (l.val : Int) ≤ x.L) : x.Ml l ≤ 1.002 * (2 : ℝ) ^ x.log2Ml l := by
  have pos : 0 < (2 : ℝ) ^ x.log2Ml l := by positivity
  rcases T.amp.band with ⟨hf, hb⟩ | hb
  · obtain ⟨_, b⟩ := hb l l1 (by rw [T.close.L_eq]; exact l2)
    rw [b]
    refine mul_le_mul_of_nonneg_right ?_ pos.le
    split
    · norm_num
    · obtain ⟨u, _, _, u2, uk⟩ := ambeUnvc_near hf
      have ru : (u : ℝ) ≤ 1 := by exact_mod_cast u2
      have := (abs_le.mp uk).1
      norm_num at this ⊢
      linarith
  · obtain ⟨_, _, b3, b4⟩ := hb l l1 (by rw [T.close.L_eq]; exact l2)
    rw [b3, b4]
    norm_num

/-- Moderate exact amplitudes give moderate amplitudes. -/
theorem ampsOk_ambe (hm : LibmAcc m) (hl : Log2Acc m) (E : Env (IEEE m)) (s0 s s' : St (IEEE m)) (ops : List (AmbeOp (IEEE m)))
    (hi : AmbeStart s0 s ops) (hd : ∀ op ∈ ops, Bits 49 op.payload)
    (h : runOps (AmbeOp.run E) ops s = .ok s') (p : Parms ℝ) (hx : ModerateA (ambeTrack p ops)) : AmpsOk s'.prev := by
  have T := ambe_atrack hm hl hi hd h p
  have eL := T.close.L_eq
  have key : ∀ l : Fin 57, ∃ r : ℚ, 1 ≤ l.val → (l.val : Int) ≤ (ambeTrack p ops).L → Val (s'.prev.Ml l) r ∧
      |(r : ℝ) - (ambeTrack p ops).Ml l| ≤ 5 / 100 * (ambeTrack p ops).Ml l ∧ 0 < (ambeTrack p ops).Ml l := by
    intro l
    by_cases c : 1 ≤ l.val ∧ (l.val : Int) ≤ (ambeTrack p ops).L
    · obtain ⟨b1, b2⟩ := hx.1 l c.1 c.2
      obtain ⟨r, v, e⟩ := C72_amplitudes hm hl E s0 s s' ops hi hd h p l c.1 c.2 b1 (by linarith)
      exact ⟨r, fun _ _ => ⟨v, e⟩⟩
    · exact ⟨0, fun a b => absurd ⟨a, b⟩ c⟩
  choose a ha using key
  refine ⟨fun n => if c : n < 57 then a ⟨n, c⟩ else 0, fun l l1 l2 => ?_, .inr ?_⟩
  · replace l2 : (l.val : Int) ≤ (ambeTrack p ops).L := by rw [← eL]; exact l2
    obtain ⟨v, e, e0⟩ := ha l l1 l2
    dsimp only
    rw [dif_pos l.isLt]
    have e' := abs_le.mp e
    have b : (2 : ℝ) ^ ((ambeTrack p ops).log2Ml l) ≤ (2 : ℝ) ^ (26.9 : ℝ) :=
      Real.rpow_le_rpow_of_exponent_le (by norm_num) (hx.1 l l1 l2).2
    have b' := amp_le_pow T l l1 l2
    have b3 : (ambeTrack p ops).Ml l ≤ 1.002 * (2 ^ 27 * 0.95) := by
      refine b'.trans (mul_le_mul_of_nonneg_left (b.trans two_pow_26) (by norm_num))
    refine ⟨v, ?_, ?_⟩
    · have : (0 : ℝ) ≤ a l := by linarith [e'.1]
      exact_mod_cast this
    · have : (a l : ℝ) ≤ 2 ^ 27 := by norm_num at b3 ⊢; linarith [e'.2]
      exact_mod_cast this
  · obtain ⟨l, l1, l2, l3⟩ := hx.2
    refine ⟨l.val, l1, by rw [eL]; exact l2, ?_⟩
    dsimp only
    rw [dif_pos l.isLt]
    obtain ⟨v, e, _⟩ := ha l l1 l2
    have e' := abs_le.mp e
    have : (1 / 1024 : ℝ) ≤ a l := by norm_num at l3 ⊢; linarith [e'.1]
    have h' : ((1 / 1024 : ℚ) : ℝ) ≤ a l := by push_cast; exact this
    exact_mod_cast h'

theorem ambe_made (hm : LibmAcc m) (hl : Log2Acc m) (htr : TrigAcc m) (E : Env (IEEE m)) (hE : Runs E) (s0 s s' : St (IEEE m))
    (ht : s0.tls = Tls.start) (hi : initAmbeState s0 = .ok s ∨ initMbeState s0 = .ok s) (ops : List (AmbeOp (IEEE m)))
    (hd : ∀ op ∈ ops, Bits 49 op.payload ∧ op.errs2 ≤ 20) (p : Parms ℝ) (hx : ∀ bs, bs <+: ops → ModerateA (ambeTrack p bs))
    (bs : List (AmbeOp (IEEE m))) (op : AmbeOp (IEEE m)) (hb : bs ++ [op] <+: ops) (h : runOps (AmbeOp.run E) bs s = .ok s')
    (o : Out (IEEE m)) (ho : op.run E s' = .ok o) : Made E o.pcm := by
  have he := exp2Acc_of hm
  have hfr : Fresh s := ⟨s0, ht, hi.symm⟩
  have one : ∀ (bs : List (AmbeOp (IEEE m))) (op : AmbeOp (IEEE m)) (s' : St (IEEE m)) (o : Out (IEEE m)), bs ++ [op] <+: ops →
      runOps (AmbeOp.run E) bs s = .ok s' → op.run E s' = .ok o → StOk s' → FinSt s' → Made E o.pcm ∧ StOk o.st ∧ FinSt o.st := by
    intro bs op s' o hb h ho hs hf
    have hsub : ∀ x ∈ bs ++ [op], x ∈ ops := fun x hx => hb.subset hx
    have hdo := hd op (hsub op (by simp))
    have hrun : runOps (AmbeOp.run E) (bs ++ [op]) s = .ok o.st := by
      rw [runOps_append, h, ok_bind]
      show (op.run E s' >>= fun o => runOps (AmbeOp.run E) [] o.st) = _
      rw [ho]
      rfl
    have ha := ampsOk_ambe hm hl E s0 s o.st (bs ++ [op]) ⟨ht, hi.imp id fun x => ⟨x, by simp⟩⟩
      (fun x hx => (hd x (hsub x hx)).1) hrun p (hx _ hb)
    have hst : StOk o.st := ((op_u (F := IEEE m) he (U := fun _ => True) (E := E) (.inr trivial) (op := Op.ambe op) hdo.1 hs (le_refl 20480)
      (.inr ⟨trivial, trivial⟩)).toPost _ (by show (op.run E s' >>= fun o => Except.ok o.st) = _; rw [ho]; rfl)).1
    have key : Made E o.pcm ∧ FinSt o.st := by
      cases op with
      | v2450 C c0 e d => exact ambe2450_fin htr hE hdo.1 hdo.2 hs hf o ho ha
      | v2400 C e e2 d => exact ambe2400_fin htr he hE hdo.1 hdo.2 hs hf o ho ha
    exact ⟨key.1, hst, key.2⟩
  have inv : ∀ (bs : List (AmbeOp (IEEE m))), bs <+: ops → ∀ s', runOps (AmbeOp.run E) bs s = .ok s' → StOk s' ∧ FinSt s' := by
    intro bs
    induction bs using List.reverseRecOn with
    | nil =>
      intro _ s' h
      cases h
      exact ⟨(fresh_ok hfr).1, fresh_fin hfr⟩
    | append_singleton bs op ih =>
      intro hb s' h
      rw [runOps_append] at h
      obtain ⟨s1, h1, h2⟩ := bind_ok h
      obtain ⟨o, h3, h4⟩ := bind_ok h2
      cases h4
      obtain ⟨i1, i2⟩ := ih ((List.prefix_append _ _).trans hb) s1 h1
      exact (one bs op s1 o hb h1 h3 i1 i2).2
  obtain ⟨i1, i2⟩ := inv bs ((List.prefix_append _ _).trans hb) s' h
  exact (one bs op s' o hb h ho i1 i2).1

/-- **AMBE samples are finite as long as the exact amplitudes stay moderate.** The condition does not mention floating-point
numbers: it concerns the sequence of received frames.

Partial: C65 has no such condition, and is false without one (`C65_ambe_witness`). -/
theorem C65_finite_ambe_partial (hm : LibmAcc m) (hl : Log2Acc m) (htr : TrigAcc m) (E : Env (IEEE m)) (hE : Runs E) (s0 s s' : St (IEEE m))
    (ht : s0.tls = Tls.start) (hi : initAmbeState s0 = .ok s ∨ initMbeState s0 = .ok s) (ops : List (AmbeOp (IEEE m)))
    (hd : ∀ op ∈ ops, Bits 49 op.payload ∧ op.errs2 ≤ 20) (p : Parms ℝ) (hx : ∀ bs, bs <+: ops → ModerateA (ambeTrack p bs))
    (bs : List (AmbeOp (IEEE m))) (op : AmbeOp (IEEE m)) (hb : bs ++ [op] <+: ops) (h : runOps (AmbeOp.run E) bs s = .ok s')
    (o : Out (IEEE m)) (ho : op.run E s' = .ok o) : AllFin o.pcm :=
  (ambe_made hm hl htr E hE s0 s s' ht hi ops hd p hx bs op hb h o ho).fin

theorem amp_ge_pow {E : Env (IEEE m)} {s : St (IEEE m)} {n : Nat} {x : Parms ℝ} (T : ATrack E s n x) (l : Fin 57) (l1 : 1 ≤ l.val)
    (l2 : (l.val : Int) ≤ x.L) : 1 / 9 * (2 : ℝ) ^ x.log2Ml l ≤ x.Ml l := by
  have pos : 0 < (2 : ℝ) ^ x.log2Ml l := by positivity
  rcases T.amp.band with ⟨hf, hb⟩ | hb
  · obtain ⟨_, b⟩ := hb l l1 (by rw [T.close.L_eq]; exact l2)
    rw [b]
    refine mul_le_mul_of_nonneg_right ?_ pos.le
    split
    · norm_num
    · obtain ⟨u, _, u1, _, uk⟩ := ambeUnvc_near hf
      have ru : (1 / 8 : ℝ) ≤ u := by
        have : ((1 / 8 : ℚ) : ℝ) ≤ u := by exact_mod_cast u1
        push_cast at this
        exact this
      have := (abs_le.mp uk).2
      norm_num at this ⊢
      linarith
  · obtain ⟨_, _, b3, b4⟩ := hb l l1 (by rw [T.close.L_eq]; exact l2)
    rw [b3, b4]
    norm_num

/-- A reception of the payload of `C65_ambe_witness`. -/
def loudAOp : AmbeOp (IEEE m) := .v2450 sampleCall (some 0) 0 loudA

/-- A table of log amplitudes between 0 and 26. -/
def modAChk (L : Int) (l : List (Int × Int)) : Bool :=
  (List.finRange 57).all fun i => i.val = 0 || decide (L < i.val) ||
    (decide (0 ≤ (l.getD (i.val - 1) (0, 0)).1) && decide ((l.getD (i.val - 1) (0, 0)).2 ≤ 26 * 65536))

theorem moderateA_of (hm : LibmAcc m) (hl : Log2Acc m) (E : Env (IEEE m)) (ops : List (AmbeOp (IEEE m))) (hd : ∀ op ∈ ops, Bits 49 op.payload)
    (p : Parms ℝ) {s' : St (IEEE m)} (h : runOps (AmbeOp.run E) ops freshAmbe = .ok s') {L : Int} {l : List (Int × Int)} {g : Ivl}
    (hs : LoudASt E L l g s') (hL : 1 ≤ L) (hc : modAChk L l = true) : ModerateA (ambeTrack p ops) := by
  have hi : AmbeStart (freshAmbe (m := m)) freshAmbe ops := ⟨rfl, .inl (initAmbeState_eq _)⟩
  have T := ambe_atrack hm hl hi hd h p
  obtain ⟨eL, key⟩ := C72_log_amplitudes hm hl E freshAmbe freshAmbe s' ops hi hd h p
  have e : (ambeTrack p ops).L = L := eL.symm.trans hs.L
  have b : ∀ i : Fin 57, 1 ≤ i.val → (i.val : Int) ≤ L → -0.1 ≤ (ambeTrack p ops).log2Ml i ∧ (ambeTrack p ops).log2Ml i ≤ 26.1 := by
    intro i i1 i2
    obtain ⟨q, vq, dq, _⟩ := key i i1 (by rw [e]; exact i2)
    have hk := List.all_eq_true.mp hc i (List.mem_finRange i)
    have n0 : i.val ≠ 0 := by omega
    have n1 : ¬ L < i.val := by omega
    simp only [n0, n1, decide_false, Bool.false_or, Bool.and_eq_true, decide_eq_true_eq] at hk
    have hr := hs.prev i
    unfold microArr at hr
    rw [if_neg n0] at hr
    obtain ⟨q', vq', l1, l2⟩ := hr
    have : q' = q := (Val.fq_eq vq').symm.trans (Val.fq_eq vq)
    subst this
    rw [Rat.mkRat_eq_div] at l1 l2
    have c1 : (0 : ℚ) ≤ ((l.getD (i.val - 1) (0, 0)).1 : ℚ) := by exact_mod_cast hk.1
    have c2 : (((l.getD (i.val - 1) (0, 0)).2 : ℚ)) ≤ 26 * 65536 := by exact_mod_cast hk.2
    have q1 : (0 : ℚ) ≤ q' := by
      refine le_trans ?_ l1
      positivity
    have q2 : q' ≤ 26 := by
      refine le_trans l2 ?_
      rw [div_le_iff₀ (by norm_num)]
      push_cast
      linarith
    have r1 : (0 : ℝ) ≤ q' := by exact_mod_cast q1
    have r2 : (q' : ℝ) ≤ 26 := by exact_mod_cast q2
    have := abs_le.mp dq
    constructor <;> norm_num <;> linarith [this.1, this.2]
  refine ⟨fun i i1 i2 => ?_, ⟨1, by decide⟩, le_refl 1, by rw [e]; exact hL, ?_⟩
  · have := b i i1 (by rw [← e]; exact i2)
    constructor <;> linarith [this.1, this.2]
  · have h1 := (b ⟨1, by decide⟩ (le_refl 1) hL).1
    have h2 := amp_ge_pow T ⟨1, by decide⟩ (le_refl 1) (by rw [e]; exact hL)
    have h3 : (2 : ℝ) ^ (-1 : ℝ) ≤ (2 : ℝ) ^ (ambeTrack p ops).log2Ml ⟨1, by decide⟩ :=
      Real.rpow_le_rpow_of_exponent_le (by norm_num) (by linarith)
    rw [Real.rpow_neg_one, show (2 : ℝ)⁻¹ = 1 / 2 by norm_num] at h3
    have c : (0.0011 : ℝ) ≤ 1 / 9 * (1 / 2) := by norm_num
    exact (c.trans (mul_le_mul_of_nonneg_left h3 (by norm_num))).trans h2

/-- The condition holds for three receptions of the payload of `C65_ambe_witness`, of which all samples are finite (those of the
eleventh are not). -/
example (hm : LibmAcc m) (hl : Log2Acc m) (htr : TrigAcc m) (E : Env (IEEE m)) (hE : Runs E) (hlax : E.lax = true) (p : Parms ℝ) :
    (∀ bs, bs <+: [loudAOp (m := m), loudAOp, loudAOp] → ModerateA (ambeTrack p bs)) ∧
    ∃ (s : St (IEEE m)) (o : Out (IEEE m)), runOps (AmbeOp.run E) [loudAOp, loudAOp] freshAmbe = .ok s ∧ loudAOp.run E s = .ok o ∧
      AllFin o.pcm := by
  have hrx : LoudARx (loudAOp (m := m)) := ⟨_, _, _, rfl, by decide⟩
  have ex : ∀ n ≤ 3, ∃ s, runOps (AmbeOp.run E) (List.replicate n (loudAOp (m := m))) freshAmbe = .ok s := by
    intro n hn
    obtain ⟨h1, h2⟩ := fresh_ok (freshAmbe_fresh (m := m))
    have := hist_u (exp2Acc_of hm) (U := fun _ => False) (E := E) (.inl hlax) (ops := (List.replicate n loudAOp).map Op.ambe)
      (by
        intro op hop
        obtain ⟨x, hx, rfl⟩ := List.mem_map.1 hop
        rw [List.eq_of_mem_replicate hx]
        exact ⟨loudA_bits, show (0 : Int) ≤ 0 ∧ (0 : Int) ≤ 7000000 ∧ 0 + 3 ≤ 16 by decide⟩) h1 (le_refl _) h2
      (by rw [List.length_map, List.length_replicate]; omega)
    rw [runHist_ambe] at this
    obtain ⟨s, hs, _⟩ := this.toOk
    exact ⟨s, hs⟩
  have hb : ∀ n, ∀ op ∈ List.replicate n (loudAOp (m := m)), Bits 49 op.payload := by
    intro n op h
    rw [List.eq_of_mem_replicate h]
    exact loudA_bits
  have run : ∀ n ≤ 3, ∀ s, runOps (AmbeOp.run E) (List.replicate n (loudAOp (m := m))) freshAmbe = .ok s →
      LoudASt E (loudAL n) (loudATab n) (gam n) s := by
    intro n hn s h
    rw [← runHist_ambe] at h
    have := loudA_run hm hl (n := 0) (ops := List.replicate n (loudAOp (m := m))) (fun op h => by rw [List.eq_of_mem_replicate h]; exact hrx)
      (by rw [List.length_replicate]; omega) (loudA_init E (fresh_cacheOk (freshAmbe_fresh (m := m)))) h
    rw [List.length_replicate, Nat.zero_add] at this
    exact this
  have hx : ∀ bs, bs <+: [loudAOp (m := m), loudAOp, loudAOp] → ModerateA (ambeTrack p bs) := by
    intro bs hbs
    have e : bs = List.replicate bs.length loudAOp := List.eq_replicate_iff.mpr ⟨rfl, fun b k => by
      have := hbs.subset k; simpa using this⟩
    have hn : bs.length ≤ 3 := hbs.length_le
    rw [e]
    generalize bs.length = n at hn
    obtain ⟨s, hs⟩ := ex n hn
    have hi := run n hn s hs
    interval_cases n
    · exact moderateA_of hm hl E _ (hb 0) p hs hi (by decide) (by decide)
    · exact moderateA_of hm hl E _ (hb 1) p hs hi (by decide) (by decide)
    · exact moderateA_of hm hl E _ (hb 2) p hs hi (by decide) (by decide)
    · exact moderateA_of hm hl E _ (hb 3) p hs hi (by decide) (by decide)
  obtain ⟨s3, e3⟩ := ex 3 (le_refl 3)
  rw [List.replicate_succ', runOps_append] at e3
  obtain ⟨s2, e2, e3⟩ := bind_ok e3
  obtain ⟨o, h1, h2⟩ := bind_ok (show (loudAOp.run E s2 >>= fun o => runOps (AmbeOp.run E) [] o.st) = .ok s3 from e3)
  exact ⟨hx, s2, o, e2, h1, C65_finite_ambe_partial hm hl htr E hE freshAmbe freshAmbe s2 rfl (.inl (initAmbeState_eq _))
    [loudAOp, loudAOp, loudAOp] (fun op h => by
      have : op = loudAOp := by simpa using h
      rw [this]; exact ⟨loudA_bits, by show (0 : Int) ≤ 20; decide⟩) p hx [loudAOp, loudAOp] loudAOp (List.prefix_refl _) e2 o h1⟩

end Verif.Props
