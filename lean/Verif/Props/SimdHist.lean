import Verif.Lemmas.SimdHist
import Verif.Props.BuildsAcc
import Verif.Props.UnvoicedAcc
import Verif.Props.FftVec

/-!
# C84: every block that a build with vector code delivers
-/

namespace Verif.Props
open Verif Verif.Spec Verif.Model Verif.Num Verif.Gen Arith
variable {m : Libm}

theorem allFin_short {pcm : Arr 160 (IEEE m)} (hf : AllFin pcm) (tg : Target) (impl : Option ShortImpl) (sbuf : Arr 160 Int) :
    ∃ r i, floatToShortSimd tg impl pcm sbuf = .ok (r, some i) ∧ ∀ n, |r n| ≤ 31128 := by
  have hn : ∀ i, pcm i ≠ FP.nan := fun i hn => by
    obtain ⟨q, s, v⟩ := hf i
    rw [hn] at v
    cases v
  obtain ⟨r, i, h1, h2, _⟩ := C55_dispatch tg impl pcm hn sbuf
  obtain ⟨r', h3, _, h4⟩ := C28_buffers (m := m) pcm hn sbuf
  rw [h1] at h3
  cases ok_inj h3
  exact ⟨r, i, h2, h4⟩

/-- **Every block of samples that a program delivers** on a build with vector code, as long as the decoded amplitudes stay moderate: 160
numbers, which convert to 16 bits on every processor without undefined behaviour; and comfort noise, a tone, or a frame that
`HeardSimd` describes. For the default build these are `C65_finite_partial` and `C76_history`. -/
theorem C84_history (hm : TrigAcc m) (hcos : CosAcc m) (hsin : SinAcc m) (he : Exp2Acc m) (isa : Isa) (E : Env (IEEE m)) (hE : RunsV E)
    (as : List (Api (IEEE m))) (hv : ∀ a ∈ as, a.Valid) (h20 : ∀ a ∈ as, a.ErrsLe 20) (s : St (IEEE m)) (hs : Fresh s)
    (ha : ∀ bs, bs <+: as → ∀ l s', deliveries (Api.callSimd isa E) bs s = .ok (l, s') → AmpsOk s'.prev)
    (l : List (Option (Arr 160 (IEEE m) × List Char))) (s' : St (IEEE m)) (h : deliveries (Api.callSimd isa E) as s = .ok (l, s')) :
    ∀ b ∈ l, ∀ pcm str, b = some (pcm, str) →
      (AllFin pcm ∧ ∀ tg impl (sbuf : Arr 160 Int), ∃ r i, floatToShortSimd tg impl pcm sbuf = .ok (r, some i) ∧ ∀ n, |r n| ≤ 31128) ∧
      ((∃ buf t r, comfortNoisef (F := IEEE m) buf t = .ok r ∧ pcm = r.1) ∨
        (∃ buf d cur r, synthesizeTonef (F := IEEE m) buf d cur = .ok r ∧ pcm = r.1) ∨ HeardSimd isa E pcm) := by
  intro b hb pcm str e
  have k := runApi_vec hm hcos hsin he hE hv h20 (fresh_ok hs).1 (fresh_vec hs) ha h b hb _ e
  refine ⟨⟨k.fin, allFin_short k.fin⟩, ?_⟩
  rcases k with ⟨_, k | k⟩ | ⟨_, k⟩
  · exact .inr (.inr k)
  · exact .inl k
  · exact .inr (.inl k)

theorem ampsOk_congr {A c : ℚ} {p q : Parms (IEEE m)} (h : DecodedEq p q) (hp : Amps A c p) : Amps A c q := by
  have eL : q.L = p.L := by rw [h.rest]
  obtain ⟨a, a1, a2⟩ := hp
  refine ⟨a, fun l l1 l2 => ?_, by rw [eL]; exact a2⟩
  rw [eL] at l2
  rw [(h.band l l1 l2).1]
  exact a1 l l1 l2

/-- **Both builds on the same program.** The condition on the amplitudes is that of the default build, `C65_finite_partial`: at most 357000
documented calls on a fresh decoder. Both builds run to the end, with the same status strings; every block of the one is as in
`C76_history`, every block of the other as in `C84_history`. -/
theorem C84_both (hm : TrigAcc m) (hcos : CosAcc m) (hsin : SinAcc m) (he : Exp2Acc m) (isa : Isa) (E E' : Env (IEEE m)) (hE : Runs E) (hE' : RunsV E')
    (h1 : E.lax = true) (h2 : E'.lax = true) (as : List (Api (IEEE m))) (hv : ∀ a ∈ as, a.Valid) (h20 : ∀ a ∈ as, a.ErrsLe 20)
    (hn : as.length ≤ 357000) (s : St (IEEE m)) (hs : Fresh s) (ha : ∀ bs, bs <+: as → ∀ s', runApi E bs s = .ok s' → AmpsOk s'.prev) :
    ∃ r r', deliveries (Api.call E) as s = .ok r ∧ deliveries (Api.callSimd isa E') as s = .ok r' ∧ List.Forall₂ SameStatus r.1 r'.1 ∧
      (∀ b ∈ r.1, ∀ pcm str, b = some (pcm, str) → AllFin pcm ∧
        ((∃ buf t r, comfortNoisef (F := IEEE m) buf t = .ok r ∧ pcm = r.1) ∨
          (∃ buf d cur r, synthesizeTonef (F := IEEE m) buf d cur = .ok r ∧ pcm = r.1) ∨ HeardWithin E pcm)) ∧
      ∀ b ∈ r'.1, ∀ pcm str, b = some (pcm, str) → AllFin pcm ∧
        ((∃ buf t r, comfortNoisef (F := IEEE m) buf t = .ok r ∧ pcm = r.1) ∨
          (∃ buf d cur r, synthesizeTonef (F := IEEE m) buf d cur = .ok r ∧ pcm = r.1) ∨ HeardSimd isa E' pcm) := by
  obtain ⟨r, r', hr, hr', hst, _⟩ := C82_program he isa E E' h1 h2 s hs as hv hn
  have ha' : ∀ bs, bs <+: as → ∀ l s', deliveries (Api.callSimd isa E') bs s = .ok (l, s') → AmpsOk s'.prev := by
    intro bs hb l s' h
    have hvb : ∀ a ∈ bs, a.Valid := fun a k => hv a (hb.subset k)
    obtain ⟨q, q', hq, hq', _, he'⟩ := C82_program he isa E E' h1 h2 s hs bs hvb (hb.length_le.trans hn)
    rw [h] at hq'
    cases ok_inj hq'
    refine ampsOk_congr he'.prev (ha bs hb q.2 ?_)
    rw [← deliveries_state hvb, hq]
    rfl
  refine ⟨r, r', hr, hr', hst, fun b hb pcm str e => ⟨?_, ?_⟩, fun b hb pcm str e => ?_⟩
  · exact (C65_finite_partial hm he E hE as hv h20 s hs ha r.1 r.2 hr b hb pcm str e).1
  · exact C76_history hm hcos hsin he E hE as hv h20 s hs ha r.1 r.2 hr b hb pcm str e
  · have k := C84_history hm hcos hsin he isa E' hE' as hv h20 s hs ha' r'.1 r'.2 hr' b hb pcm str e
    exact ⟨k.1.1, k.2⟩

/-! ## From the received bits -/

theorem imbe_outSimd (isa : Isa) (E : Env (IEEE m)) (op : ImbeOp (IEEE m)) (s : St (IEEE m)) :
    (Op.imbe op).runSimd isa E s = (do Except.ok (← op.outSimd isa E s).st : Exec _) := by
  obtain ⟨C, _ | c, e, d⟩ := op <;> rfl

theorem ambe_outSimd (isa : Isa) (E : Env (IEEE m)) (op : AmbeOp (IEEE m)) (s : St (IEEE m)) :
    (Op.ambe op).runSimd isa E s = (do Except.ok (← op.outSimd isa E s).st : Exec _) := by
  cases op <;> rfl

/-- A run that is defined, seen from its last call. -/
theorem runHistSimd_last {isa : Isa} {E : Env (IEEE m)} {bs : List (Op (IEEE m))} {op : Op (IEEE m)} {s u : St (IEEE m)}
    (h : runHistSimd isa E (bs ++ [op]) s = .ok u) : ∃ u0, runHistSimd isa E bs s = .ok u0 ∧ op.runSimd isa E u0 = .ok u := by
  rw [runHistSimd_append] at h
  obtain ⟨u0, h1, h⟩ := bind_ok h
  obtain ⟨u1, h2, h⟩ := bind_ok h
  cases h
  exact ⟨u0, h1, h2⟩

/-- **IMBE on a build with vector code: as long as the exact log amplitudes of the received frames stay moderate**, each call is defined
and delivers 160 numbers, which are comfort noise or as `HeardSimd` describes. For the default build this is `C76_imbe`. -/
theorem C84_imbe (hm : LibmAcc m) (htr : TrigAcc m) (hcos : CosAcc m) (hsin : SinAcc m) (isa : Isa) (E : Env (IEEE m)) (hE : RunsV E) (hlax : E.lax = true)
    (s0 s : St (IEEE m)) (ht : s0.tls = Tls.start) (hi : initMbeState s0 = .ok s) (ops : List (ImbeOp (IEEE m)))
    (hd : ∀ op ∈ ops, (Op.imbe op).Payload ∧ (Op.imbe op).Counts 7000000 ∧ op.errs2 ≤ 20) (hn : ops.length ≤ 357000) (p : Parms ℝ)
    (hx : ∀ bs, bs <+: ops → Moderate (track p bs)) (bs : List (ImbeOp (IEEE m))) (op : ImbeOp (IEEE m)) (hb : bs ++ [op] <+: ops) :
    ∃ u o, runHistSimd isa E (bs.map Op.imbe) s = .ok u ∧ op.outSimd isa E u = .ok o ∧ AllFin o.pcm ∧
      ((∃ buf t r, comfortNoisef (F := IEEE m) buf t = .ok r ∧ o.pcm = r.1) ∨ HeardSimd isa E o.pcm) := by
  have he := exp2Acc_of hm
  have hfr : Fresh s := ⟨s0, ht, .inl hi⟩
  have amps : ∀ bs, bs <+: ops → ∃ u, runHistSimd isa E (bs.map Op.imbe) s = .ok u ∧ AmpsOk u.prev := by
    intro bs hb
    have hsub : ∀ x ∈ bs, x ∈ ops := fun x k => hb.subset k
    obtain ⟨v, u, hv, hu, hst⟩ := hist_pair he isa E hlax s hfr (bs.map Op.imbe)
      (fun x k => by obtain ⟨y, hy, rfl⟩ := List.mem_map.1 k; exact ⟨(hd y (hsub y hy)).1, (hd y (hsub y hy)).2.1⟩)
      (by rw [List.length_map]; exact hb.length_le.trans hn)
    rw [Model.runHist_imbe] at hv
    exact ⟨u, hu, ampsOk_congr hst.prev (ampsOk_track hm E s0 s v ht hi bs (fun x hx => (hd x (hsub x hx)).1) hv p (hx bs hb))⟩
  have one : ∀ (bs : List (ImbeOp (IEEE m))) (op : ImbeOp (IEEE m)), bs ++ [op] <+: ops → ∀ u0, runHistSimd isa E (bs.map Op.imbe) s = .ok u0 → StOk u0 →
      VecSt isa u0 → ∃ o, op.outSimd isa E u0 = .ok o ∧ runHistSimd isa E ((bs ++ [op]).map Op.imbe) s = .ok o.st ∧ VoiceV isa E o.pcm ∧ StOk o.st ∧
        VecSt isa o.st := by
    intro bs op hb u0 h0 hs hf
    obtain ⟨u, hu, ha⟩ := amps _ hb
    have hdo := hd op (hb.subset (by simp))
    have hu' := hu
    rw [List.map_append] at hu'
    obtain ⟨u1, h1, h2⟩ := runHistSimd_last hu'
    rw [h0] at h1
    cases ok_inj h1
    have h3 := h2
    rw [imbe_outSimd] at h3
    obtain ⟨o, ho, h3⟩ := bind_ok h3
    cases h3
    have hst := ((opSimd_u (F := IEEE m) he (U := fun _ => True) isa (E := E) (.inr trivial) hdo.1 hf.plan hs (le_refl 20480)
      (.inr ⟨trivial, trivial⟩)).toPost _ h2).1.1
    refine ⟨o, ho, hu, ?_⟩
    obtain ⟨C, _ | c, e, d⟩ := op
    · have k := imbe_vec htr hcos hsin hE hdo.1 hdo.2.2 hs hf o ho ha
      exact ⟨k.1, hst, k.2⟩
    · have k := imbe_vec htr hcos hsin hE hdo.1 hdo.2.2 (hs.err4 c.2) (hf.err4 c.2) o ho ha
      exact ⟨k.1, hst, k.2⟩
  have inv : ∀ bs : List (ImbeOp (IEEE m)), bs <+: ops → ∃ u, runHistSimd isa E (bs.map Op.imbe) s = .ok u ∧ StOk u ∧ VecSt isa u := by
    intro bs
    induction bs using List.reverseRecOn with
    | nil => exact fun _ => ⟨s, rfl, (fresh_ok hfr).1, fresh_vec hfr⟩
    | append_singleton bs op ih =>
      intro hb
      obtain ⟨u, hu, i1, i2⟩ := ih ((List.prefix_append _ _).trans hb)
      obtain ⟨o, _, k1, _, k2, k3⟩ := one bs op hb u hu i1 i2
      exact ⟨o.st, k1, k2, k3⟩
  obtain ⟨u, hu, i1, i2⟩ := inv bs ((List.prefix_append _ _).trans hb)
  obtain ⟨o, ho, _, k, _⟩ := one bs op hb u hu i1 i2
  exact ⟨u, o, hu, ho, k.1, k.2.symm⟩

/-- **AMBE on a build with vector code: as long as the exact amplitudes of the received frames stay moderate**, each call is defined and
delivers 160 numbers, which are comfort noise, a tone or as `HeardSimd` describes. For the default build this is `C76_ambe`. -/
theorem C84_ambe (hm : LibmAcc m) (hl : Log2Acc m) (htr : TrigAcc m) (hcos : CosAcc m) (hsin : SinAcc m) (isa : Isa) (E : Env (IEEE m)) (hE : RunsV E)
    (hlax : E.lax = true) (s0 s : St (IEEE m)) (ht : s0.tls = Tls.start) (hi : initAmbeState s0 = .ok s ∨ initMbeState s0 = .ok s)
    (ops : List (AmbeOp (IEEE m))) (hd : ∀ op ∈ ops, (Op.ambe op).Payload ∧ (Op.ambe op).Counts 7000000 ∧ op.errs2 ≤ 20) (hn : ops.length ≤ 357000)
    (p : Parms ℝ) (hx : ∀ bs, bs <+: ops → ModerateA (ambeTrack p bs)) (bs : List (AmbeOp (IEEE m))) (op : AmbeOp (IEEE m)) (hb : bs ++ [op] <+: ops) :
    ∃ u o, runHistSimd isa E (bs.map Op.ambe) s = .ok u ∧ op.outSimd isa E u = .ok o ∧ AllFin o.pcm ∧
      ((∃ buf t r, comfortNoisef (F := IEEE m) buf t = .ok r ∧ o.pcm = r.1) ∨
        (∃ buf d cur r, synthesizeTonef (F := IEEE m) buf d cur = .ok r ∧ o.pcm = r.1) ∨ HeardSimd isa E o.pcm) := by
  have he := exp2Acc_of hm
  have hfr : Fresh s := ⟨s0, ht, hi.symm⟩
  have amps : ∀ bs (op : AmbeOp (IEEE m)), bs ++ [op] <+: ops → ∃ u, runHistSimd isa E ((bs ++ [op]).map Op.ambe) s = .ok u ∧ AmpsOk u.prev := by
    intro bs op hb
    have hsub : ∀ x ∈ bs ++ [op], x ∈ ops := fun x k => hb.subset k
    obtain ⟨v, u, hv, hu, hst⟩ := hist_pair he isa E hlax s hfr ((bs ++ [op]).map Op.ambe)
      (fun x k => by obtain ⟨y, hy, rfl⟩ := List.mem_map.1 k; exact ⟨(hd y (hsub y hy)).1, (hd y (hsub y hy)).2.1⟩)
      (by rw [List.length_map]; exact hb.length_le.trans hn)
    rw [Model.runHist_ambe] at hv
    exact ⟨u, hu, ampsOk_congr hst.prev (ampsOk_ambe hm hl E s0 s v (bs ++ [op]) ⟨ht, hi.imp id fun x => ⟨x, by simp⟩⟩ (fun x hx => (hd x (hsub x hx)).1) hv p
      (hx _ hb))⟩
  have one : ∀ (bs : List (AmbeOp (IEEE m))) (op : AmbeOp (IEEE m)), bs ++ [op] <+: ops → ∀ u0, runHistSimd isa E (bs.map Op.ambe) s = .ok u0 → StOk u0 →
      VecSt isa u0 → ∃ o, op.outSimd isa E u0 = .ok o ∧ runHistSimd isa E ((bs ++ [op]).map Op.ambe) s = .ok o.st ∧ MadeV isa E o.pcm ∧ StOk o.st ∧
        VecSt isa o.st := by
    intro bs op hb u0 h0 hs hf
    obtain ⟨u, hu, ha⟩ := amps _ _ hb
    have hdo := hd op (hb.subset (by simp))
    have hu' := hu
    rw [List.map_append] at hu'
    obtain ⟨u1, h1, h2⟩ := runHistSimd_last hu'
    rw [h0] at h1
    cases ok_inj h1
    have h3 := h2
    rw [ambe_outSimd] at h3
    obtain ⟨o, ho, h3⟩ := bind_ok h3
    cases h3
    have hst := ((opSimd_u (F := IEEE m) he (U := fun _ => True) isa (E := E) (.inr trivial) hdo.1 hf.plan hs (le_refl 20480)
      (.inr ⟨trivial, trivial⟩)).toPost _ h2).1.1
    refine ⟨o, ho, hu, ?_⟩
    cases op with
    | v2450 C c0 e d =>
      have k := ambe2450_vec htr hcos hsin hE hdo.1 hdo.2.2 hs hf o ho ha
      exact ⟨k.1, hst, k.2⟩
    | v2400 C c0 e d =>
      have k := ambe2400_vec htr hcos hsin he hE hdo.1 hdo.2.2 hs hf o ho ha
      exact ⟨k.1, hst, k.2⟩
  have inv : ∀ bs : List (AmbeOp (IEEE m)), bs <+: ops → ∃ u, runHistSimd isa E (bs.map Op.ambe) s = .ok u ∧ StOk u ∧ VecSt isa u := by
    intro bs
    induction bs using List.reverseRecOn with
    | nil => exact fun _ => ⟨s, rfl, (fresh_ok hfr).1, fresh_vec hfr⟩
    | append_singleton bs op ih =>
      intro hb
      obtain ⟨u, hu, i1, i2⟩ := ih ((List.prefix_append _ _).trans hb)
      obtain ⟨o, _, k1, _, k2, k3⟩ := one bs op hb u hu i1 i2
      exact ⟨o.st, k1, k2, k3⟩
  obtain ⟨u, hu, i1, i2⟩ := inv bs ((List.prefix_append _ _).trans hb)
  obtain ⟨o, ho, _, k, _⟩ := one bs op hb u hu i1 i2
  refine ⟨u, o, hu, ho, k.fin, ?_⟩
  rcases k with ⟨_, k | k⟩ | ⟨_, k⟩
  · exact .inr (.inr k)
  · exact .inl k
  · exact .inr (.inl k)

/-! ## What the description says -/

/-- The stored block is bounded as `HeardSimd` needs it: the hypothesis on it can be met. -/
theorem C84_stored (isa : Isa) (u : Arr 256 (IEEE m)) (h : StoredBlockSimd isa u) : ∃ A : ℚ, 0 ≤ A ∧ A ≤ 2 ^ 32 ∧ ∀ i, Bnd (u i) (148 * A + 1 / 2 ^ 78) :=
  ⟨2 ^ 32, by norm_num, le_rfl, storedSimd_bnd h⟩

/-- An erasure that is repeated goes through the enhancement, which divides zero by zero: all nine amplitudes become NaN, as in
`C65_erasure_latent_nan`. They stay inaudible, by `C84_history`. -/
theorem C84_erasure_latent_nan (hm : TrigAcc m) (isa : Isa) (c p q : Parms (IEEE m)) (hq : setAmbeErasureParms c p = .ok q) (addr : Nat) (t : Tls (IEEE m))
    (r : Parms (IEEE m) × Tls (IEEE m)) (hr : spectralAmpEnhanceSimd isa addr q t = .ok r) :
    ∀ l : Fin 57, 1 ≤ l.val → l.val ≤ 9 → r.1.Ml l = FP.nan := by
  rw [setAmbeErasureParms_eq] at hq
  cases hq
  intro l h1 h2
  exact enhanceSimd_erase hm isa (cur := ambeErasure c p) ⟨false, rfl⟩ rfl (fun _ _ _ => one_val) r hr l h1 (by omega)

/-! ## The hypotheses can be met -/

/-- Any number of erasures, up to the limit, from a fresh decoder, on both builds. -/
example (hm : TrigAcc m) (hcos : CosAcc m) (hsin : SinAcc m) (he : Exp2Acc m) (isa : Isa) (n : Nat) (hn : n ≤ 357000) (C : Call (IEEE m)) (hC : 18 ≤ C.cap) :
    ∃ (E E' : Env (IEEE m)) (r r' : List (Option (Arr 160 (IEEE m) × List Char)) × St (IEEE m)), Runs E ∧ RunsV E' ∧
      deliveries (Api.callSimd isa E') (List.replicate n (Api.ambe2450Data C 0 0 erased)) freshAmbe = .ok r' ∧
      ∀ b ∈ r'.1, ∀ pcm str, b = some (pcm, str) → AllFin pcm := by
  obtain ⟨E, hE, _, h1⟩ := (C61_env (F := IEEE m) true true).1
  obtain ⟨E', hE', _, h2⟩ := (C70_env (F := IEEE m) true true).1
  have hv : ∀ a ∈ List.replicate n (Api.ambe2450Data C 0 0 erased), a.Valid ∧ a.ErrsLe 20 := fun a k => by
    rw [List.eq_of_mem_replicate k]
    exact ⟨⟨erased_bits, by norm_num, by norm_num, by show _ ≤ _; omega⟩, by show (0 : Int) ≤ 20; decide⟩
  obtain ⟨r, r', _, hr', _, _, k⟩ := C84_both hm hcos hsin he isa E E' hE hE' h1 h2 _ (fun a k => (hv a k).1) (fun a k => (hv a k).2)
    (by rw [List.length_replicate]; exact hn) freshAmbe freshAmbe_fresh (by
      intro bs hb s' h
      have hb' : ∀ b ∈ bs, b = Api.ambe2450Data C 0 0 erased := fun b k => List.eq_of_mem_replicate (hb.subset k)
      clear hb
      have h0 := fresh_amps (m := m) freshAmbe_fresh
      revert h0 h
      generalize (freshAmbe : St (IEEE m)) = s
      intro h h0
      induction bs generalizing s with
      | nil => cases h; exact h0
      | cons b bs ih =>
        obtain ⟨t, h1, h2⟩ := bind_ok (show (b.run E s >>= fun s => runApi E bs s) = .ok s' from h)
        rw [hb' b (.head _)] at h1
        exact ih (fun b k => hb' b (.tail _ k)) t h2 (erased_amps h1))
  exact ⟨E, E', r, r', hE, hE', hr', fun b hb pcm str e => (k b hb pcm str e).1⟩

end Verif.Props
