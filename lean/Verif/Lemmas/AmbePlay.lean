import Verif.Props.Smooth
import Verif.Lemmas.FinHist
import Verif.Lemmas.BuildsProcess

/-!
# AMBE histories with few errors: the amplitude limit never drops, and what a voice frame is synthesised from
-/

namespace Verif.Model
open Verif Verif.Spec Verif.Num Verif.Gen Arith

section any
variable {F : Type} [Arith F]

/-- Amplitude limit at least the initial one, at most 20 errors. -/
def Lo (p : Parms F) : Prop := 20480 ≤ p.amplitudeThreshold ∧ p.errorCountTotal ≤ 20

/-- The same of all three sets. -/
structure AmbePlay (s : St F) : Prop where
  cur : Lo s.cur
  prev : Lo s.prev
  enh : Lo s.enh

theorem lo_ambeInit : Lo (ambeInit : Parms F) := ⟨le_refl (20480 : Int), show (0 : Int) ≤ 20 by decide⟩

theorem AmbePlay.init (t : Tls F) : AmbePlay (⟨ambeInit, ambeInit, ambeInit, t⟩ : St F) := ⟨lo_ambeInit, lo_ambeInit, lo_ambeInit⟩

theorem next_lo {cur prev : Parms F} {tm : Int} (h : NextThreshold cur prev tm) (hc : cur.errorCountTotal ≤ 20) (hp : Lo prev) : 20480 ≤ tm := by
  have := hp.1
  rcases h with ⟨_, t⟩ | ⟨_, t⟩
  · omega
  · split at t <;> omega

theorem synth_lo (E : Env F) (a : Nat) (out : Arr 160 F) (cur prev : Parms F) (t : Tls F) (q : Int) (r : SynthRes F)
    (h : synthesizeSpeechf E a out cur prev t q = .ok r) (hc : cur.errorCountTotal ≤ 20) (hp : Lo prev) : Lo r.cur := by
  have hf := (synthesizeSpeechf_frame E a out cur prev t q r h).cur_eq
  refine ⟨?_, by rw [hf]; exact hc⟩
  unfold synthesizeSpeechf at h
  obtain ⟨⟨c', t'⟩, h3, h2⟩ := bind_ok h
  have key : 20480 ≤ c'.amplitudeThreshold := by
    unfold applySmoothing at h3
    obtain ⟨q, _, h3⟩ := bind_ok h3
    obtain ⟨v, _, h3⟩ := bind_ok h3
    obtain ⟨am, _, h3⟩ := bind_ok h3
    obtain ⟨tm, h4, h3⟩ := bind_ok h3
    obtain ⟨ml, _, h3⟩ := bind_ok h3
    have := smoothTm_eq (cur := cur) (prev := prev) h4
    have e := congrArg Prod.fst (ok_inj h3)
    dsimp only at e
    rw [← e]
    exact next_lo this.1 hc hp
  dsimp only at h2
  split at h2
  · obtain ⟨x, _, h2⟩ := bind_ok h2
    rw [← ok_inj h2]
    exact key
  · have := (synthUnmuted_frame E _ _ _ _ h2).cur_eq
    rw [this]
    exact key

theorem speak_lo (E : Env F) (C : Call F) (s : St F) (o : Arr 160 F × St F) (h : speak E C s = .ok o) (hc : Lo s.cur) (he : Lo s.enh) :
    AmbePlay o.2 := by
  have hf := speak_frame E C s o h
  have ht := (Props.speak_threshold E C s o h).1
  rw [hf.prev_eq] at ht
  have k : Lo o.2.enh := ⟨next_lo ht hc.2 he, by rw [hf.enh_eq, hf.cur_eq]; exact hc.2⟩
  exact ⟨by rw [← hf.enh_eq]; exact k, by rw [hf.prev_eq]; exact hc, k⟩

theorem noiseAndReset_lo {C : Call F} {s : St F} {o : Arr 160 F × St F} (h : noiseAndReset C s = .ok o) : AmbePlay o.2 := by
  unfold noiseAndReset at h
  obtain ⟨a, _, h⟩ := bind_ok h
  rw [initAmbeState_eq, ok_bind] at h
  rw [← ok_inj h]
  exact .init _

theorem ambePrepare_lo {e : Int} {s s1 : St F} (h : ambePrepare e s = .ok s1) (h20 : e ≤ 20) (hs : AmbePlay s) : AmbePlay s1 := by
  unfold ambePrepare ensureAmbeDefaults at h
  rw [initAmbeState_eq] at h
  split at h
  · rw [ok_bind] at h
    rw [← ok_inj h]
    exact ⟨⟨(lo_ambeInit (F := F)).1, h20⟩, lo_ambeInit, lo_ambeInit⟩
  · rw [ok_bind] at h
    rw [← ok_inj h]
    exact ⟨⟨hs.cur.1, h20⟩, hs.prev, hs.enh⟩

theorem erasure_lo {c p : Parms F} (h : Lo c) : Lo (ambeErasure c p) := ⟨show (20480 : Int) ≤ 20480 from le_refl _, h.2⟩

theorem repeatLast_lo {p q : Parms F} (h : repeatLast p = .ok q) (hp : Lo p) : Lo q := by
  rw [repeatLast_inv h]
  exact hp

theorem play2450 {E : Env F} {C : Call F} {c0 : Option Int} {e : Int} {d : Nat → Int} {s : St F} {o : Out F} (h20 : e ≤ 20) (hs : AmbePlay s)
    (h : processAmbe2450 E C c0 e d s = .ok o) : AmbePlay o.st := by
  obtain ⟨s1, r, v, p, P⟩ := processAmbe2450_parts h
  have h1 := ambePrepare_lo P.prepare h20 hs
  have hF := (decodeAmbe2450_frame _ _ _ _ _ _ r P.decode).1
  have rc : Lo r.cur := by rw [hF.cur_eq]; exact h1.cur
  have rp : Lo r.prev := by rw [hF.prev_eq]; exact h1.prev
  have hv : Lo v.1 := by
    have hV := P.verdict
    unfold ambe2450Verdict at hV
    rw [setAmbeErasureParms_eq] at hV
    split at hV
    · rw [ok_bind] at hV
      rw [← ok_inj hV]
      exact erasure_lo rc
    · split at hV
      · rw [← ok_inj hV]; exact rc
      · split at hV
        · obtain ⟨x, h2, h3⟩ := bind_ok hV
          rw [← ok_inj h3]
          exact repeatLast_lo h2 rp
        · rw [← ok_inj hV]; exact rc
  have hR := P.render
  rw [P.st]
  unfold ambe2450Render at hR
  split at hR
  · split at hR
    · obtain ⟨x, h2, h3⟩ := bind_ok hR
      rw [← ok_inj h3]
      exact speak_lo E C _ x h2 hv h1.enh
    · obtain ⟨x, h2, h3⟩ := bind_ok hR
      rw [← ok_inj h3]
      exact noiseAndReset_lo h2
  · split at hR
    · obtain ⟨b, _, hR⟩ := bind_ok hR
      split at hR
      · obtain ⟨x, h2, h3⟩ := bind_ok hR
        have k := synthesizeTonef_frame _ _ _ _ h2
        rw [← ok_inj h3]
        refine ⟨?_, rp, h1.enh⟩
        dsimp only
        rw [k]
        exact hv
      · split at hR
        · obtain ⟨x, h2, h3⟩ := bind_ok hR
          rw [← ok_inj h3]
          exact noiseAndReset_lo h2
        · obtain ⟨x, h2, h3⟩ := bind_ok hR
          rw [← ok_inj h3]
          unfold replayEnhanced at h2
          obtain ⟨w, h4, h5⟩ := bind_ok h2
          rw [← ok_inj h5]
          exact ⟨hv, rp, synth_lo E _ _ _ _ _ _ w h4 h1.enh.2 h1.enh⟩
    · split at hR
      · obtain ⟨x, h2, h3⟩ := bind_ok hR
        rw [← ok_inj h3]
        exact ⟨hv, hv, hv⟩
      · obtain ⟨x, h2, h3⟩ := bind_ok hR
        rw [← ok_inj h3]
        exact noiseAndReset_lo h2

theorem play2400 {E : Env F} {C : Call F} {e0 e : Int} {d : Nat → Int} {s : St F} {o : Out F} (h20 : e ≤ 20) (hs : AmbePlay s)
    (h : processAmbe2400 E C e0 e d s = .ok o) : AmbePlay o.st := by
  obtain ⟨s1, r, v, p, P⟩ := processAmbe2400_parts h
  have h1 := ambePrepare_lo P.prepare h20 hs
  have hF := (decodeAmbe2400_frame _ _ _ _ _ r P.decode).1
  have rc : Lo r.cur := by rw [hF.cur_eq]; exact h1.cur
  have rp : Lo r.prev := by rw [hF.prev_eq]; exact h1.prev
  have hv : Lo v.cur := by
    have hV := P.verdict
    unfold ambe2400Verdict at hV
    rw [setAmbeErasureParms_eq] at hV
    split at hV
    · rw [ok_bind] at hV
      rw [← ok_inj hV]
      exact erasure_lo rc
    · split at hV
      · rw [← ok_inj hV]; exact rc
      · split at hV
        · obtain ⟨x, h2, h3⟩ := bind_ok hV
          have k := synthesizeTonefdstar_frame _ _ _ _ _ h2
          rw [← ok_inj h3]
          dsimp only
          rw [k]
          exact rc
        · split at hV
          · obtain ⟨x, h2, h3⟩ := bind_ok hV
            rw [← ok_inj h3]
            exact repeatLast_lo h2 rp
          · rw [← ok_inj hV]; exact rc
  have hR := P.render
  rw [P.st]
  unfold ambe2400Render at hR
  split at hR
  · split at hR
    · obtain ⟨x, h2, h3⟩ := bind_ok hR
      rw [← ok_inj h3]
      exact speak_lo E _ _ x h2 hv h1.enh
    · obtain ⟨x, h2, h3⟩ := bind_ok hR
      rw [← ok_inj h3]
      exact noiseAndReset_lo h2
  · split at hR
    · obtain ⟨x, h2, h3⟩ := bind_ok hR
      rw [← ok_inj h3]
      exact ⟨hv, hv, hv⟩
    · obtain ⟨x, h2, h3⟩ := bind_ok hR
      rw [← ok_inj h3]
      exact noiseAndReset_lo h2

theorem play_run {E : Env F} {ops : List (AmbeOp F)} : ∀ {s s' : St F}, (∀ op ∈ ops, (Op.ambe op).Counts 20) → AmbePlay s →
    runOps (AmbeOp.run E) ops s = .ok s' → AmbePlay s' := by
  induction ops with
  | nil => intro s s' _ hs h; cases h; exact hs
  | cons op ops ih =>
    intro s s' hd hs h
    obtain ⟨o, h1, h2⟩ := bind_ok h
    refine ih (fun x hx => hd x (List.mem_cons_of_mem _ hx)) ?_ h2
    have k := hd op (by simp)
    cases op with
    | v2450 C c0 e d => exact play2450 k.2.1 hs h1
    | v2400 C e0 e d => exact play2400 k.2.1 hs h1

end any

variable {m : Libm}

/-- The call of the operation. -/
def callOf {F : Type} : AmbeOp F → Call F
  | .v2450 C _ _ _ => C
  | .v2400 C _ _ _ => C

/-- A voice frame: what is kept as previous went into the synthesis, and has a fundamental from the tables. -/
theorem voice_spoken (hm : Exp2Acc m) {E : Env (IEEE m)} {op : AmbeOp (IEEE m)} {s : St (IEEE m)} {o : Out (IEEE m)} (hd : Bits 49 op.payload)
    (hk : op.kind = .voice) (hs : StOk s) (h : op.run E s = .ok o) : Pitch o.st.prev.w0 o.st.prev.L ∧ 9 ≤ o.st.prev.L ∧ o.st.prev.L ≤ 56 ∧
    ∃ C s1 x, speak E C s1 = .ok x ∧ x.2 = o.st ∧ s1.cur = o.st.prev := by
  cases op with
  | v2450 C c0 e d =>
    change Bits 49 d at hd
    obtain ⟨s1, r, v, p, P⟩ := processAmbe2450_parts h
    obtain ⟨s2, e2, hs1, _⟩ := ambePrepare_u e hs
    rw [P.prepare] at e2
    rw [← ok_inj e2] at hs1
    obtain ⟨_, k2⟩ := decodeAmbe2450_eq hd E.lax e s1.cur s1.prev s1.tls
    have hp := ambe2450_decode_pitch hd E.lax e hs1.prev _ r P.decode
    have hso := (Decodes.ambe2450 (F := IEEE m) (U := fun _ => True) (.inr trivial) hd e s1.tls hs1.cur hs1.prev).toPost r P.decode
    have ht : ¬ (ToneSig d ∧ e < 6) := fun c => by
      simp only [AmbeOp.kind] at hk
      rw [if_pos c] at hk
      cases hk
    have hf : ¬ (120 ≤ ambeFund2450 d ∧ ambeFund2450 d ≠ 124 ∧ ambeFund2450 d ≠ 125) := fun c => by
      simp only [AmbeOp.kind] at hk
      rw [if_neg ht, if_pos c] at hk
      cases hk
    have hr : ambe2450RepeatRequired c0 e = false := by
      have : ¬ ambeTooManyErrors c0 e = true := fun c => by
        simp only [AmbeOp.kind] at hk
        rw [if_neg ht, if_neg hf, if_pos c] at hk
        cases hk
      unfold ambeTooManyErrors at this
      unfold ambe2450RepeatRequired
      cases c0 with
      | none => simpa using this
      | some c =>
        dsimp only at this ⊢
        rw [decide_eq_false_iff_not]
        simp only [Bool.or_eq_true, Bool.and_eq_true, decide_eq_true_eq] at this
        omega
    have hb : r.bad = 0 := by
      have := P.decode
      rw [(k2 ht).2 (by omega)] at this
      exact (ambe2450Voice_frame _ _ _ _ _ _ _ this).2.2.1
    have hV := P.verdict
    have hR := P.render
    unfold ambe2450Verdict at hV
    rw [hb, if_neg (by decide), if_neg (by decide), if_neg (by rw [hr]; decide)] at hV
    have hV := (ok_inj hV).symm
    unfold ambe2450Render at hR
    rw [hb, if_pos rfl, if_pos (by rw [hV]; show (0 : Int) ≤ 3; decide)] at hR
    obtain ⟨x, h2, h3⟩ := bind_ok hR
    have e1 : o.st = x.2 := by rw [P.st, ← ok_inj h3]
    have e2 := (speak_frame E C _ x h2).prev_eq
    have e3 : o.st.prev = { r.cur with repeat_ := 0, repeatCount := 0 } := by rw [e1, e2, hV]
    exact ⟨by rw [e3]; exact hp hb, by rw [e3]; exact hso.1.lo, by rw [e3]; exact hso.1.hi, C, _, x, h2, e1.symm, by rw [e1, e2]⟩
  | v2400 C e0 e d =>
    change Bits 49 d at hd
    obtain ⟨s1, r, v, p, P⟩ := processAmbe2400_parts h
    obtain ⟨s2, e2, hs1, _⟩ := ambePrepare_u e hs
    rw [P.prepare] at e2
    rw [← ok_inj e2] at hs1
    obtain ⟨k1, _⟩ := decodeAmbe2400_eq hd E.lax s1.cur s1.prev s1.tls
    have hp := ambe2400_decode_pitch hm hd E.lax hs1.prev _ r P.decode
    have hso := (Decodes.ambe2400 (F := IEEE m) hm (U := fun _ => True) (.inr trivial) hd s1.tls hs1.cur hs1.prev).toPost r P.decode
    have hf : ¬ 126 ≤ ambeFund2400 d := fun c => by
      simp only [AmbeOp.kind] at hk
      rw [if_pos c] at hk
      cases hk
    have he : ¬ e > 3 := fun c => by
      simp only [AmbeOp.kind] at hk
      rw [if_neg hf, if_pos c] at hk
      cases hk
    have hb : r.bad = 0 := by
      have := P.decode
      rw [k1 (by omega)] at this
      exact (ambe2400Voice_frame _ _ _ _ _ _ _ this).2.2.1
    have hV := P.verdict
    have hR := P.render
    unfold ambe2400Verdict at hV
    rw [hb, if_neg (by decide), if_neg (by decide), if_neg (by omega), if_neg he] at hV
    have hV := (ok_inj hV).symm
    unfold ambe2400Render at hR
    rw [hb, if_pos rfl, if_pos (by rw [hV]; show (0 : Int) ≤ 3; decide)] at hR
    obtain ⟨x, h2, h3⟩ := bind_ok hR
    have e1 : o.st = x.2 := by rw [P.st, ← ok_inj h3]
    have e2 := (speak_frame E _ _ x h2).prev_eq
    have e3 : o.st.prev = { r.cur with repeat_ := 0, repeatCount := 0 } := by rw [e1, e2, hV]
    exact ⟨by rw [e3]; exact hp hb, by rw [e3]; exact hso.1.lo, by rw [e3]; exact hso.1.hi, _, _, x, h2, e1.symm, by rw [e1, e2]⟩

end Verif.Model
