import Verif.Lemmas.Safe

/-!
# One call of a decoder or process function, relative to permitted undefined operations

`U` is the set of undefined operations that a statement tolerates. With `U` empty the call is fully defined.
-/

namespace Verif.Model
open Verif Verif.Gen Verif.Spec Verif.Num Arith
set_option linter.unusedSectionVars false

variable {F : Type} [Arith F] [Base F]

theorem bandBit_01 {n : Nat} (hn : n < 48) {d : Nat → Int} (hd : Bits 88 d) {k : Nat} (hk : k < imbeBands (n + 9)) :
    bandBit n d (imbeBands (n + 9)) k = 0 ∨ bandBit n d (imbeBands (n + 9)) k = 1 := by
  obtain ⟨bb, _, hb⟩ := imbeReadBits_ok hn d
  have hr : rowBits (n + 9) 1 = imbeBands (n + 9) := rfl
  obtain ⟨_, _, hs⟩ := hb.get (r := 1) (c := imbeBands (n + 9) - 1 - k) hn (by decide) (by rw [hr]; omega)
  exact hd _ hs

theorem SetOk.same {p q : Parms F} (h : SetOk p) (e : SameButAmps p q) : SetOk q := by
  unfold SameButAmps at e
  exact h.congr (by rw [e]) (by rw [e]) (by rw [e]) (by rw [e])

theorem SetOk.nat {p : Parms F} (h : SetOk p) : ∃ k : Nat, p.L = (k : Int) ∧ k ≤ 56 := by
  have := h.lo; have := h.hi
  exact ⟨p.L.toNat, by omega, by omega⟩

/-- The decoders keep the sets in order, and tones have representable phase steps. `Acc` is what has to be assumed of the
arithmetic for the AMBE 2400 decoder. -/
class Decodes (F : Type) [Arith F] [Base F] where
  Acc : Prop
  imbe : ∀ {U : UB → Prop} {lax : Bool}, (lax = true ∨ U .oobRead) → ∀ {d : Nat → Int}, Bits 88 d → ∀ {cur prev : Parms F}
    (t : Tls F), SetOk cur → SetOk prev → OkU U (decodeImbe4400 lax d cur prev t) fun r => SetOk r.cur ∧ SetOk r.prev
  ambe2450 : ∀ {U : UB → Prop} {lax : Bool}, (lax = true ∨ U .oobRead) → ∀ {d : Nat → Int}, Bits 49 d → ∀ (e : Int)
    {cur prev : Parms F} (t : Tls F), SetOk cur → SetOk prev →
    OkU U (decodeAmbe2450 lax d e cur prev t) fun r => SetOk r.cur ∧ SetOk r.prev
  ambe2400 : Acc → ∀ {U : UB → Prop} {lax : Bool}, (lax = true ∨ U .oobRead) → ∀ {d : Nat → Int}, Bits 49 d →
    ∀ {cur prev : Parms F} (t : Tls F), SetOk cur → SetOk prev →
    OkU U (decodeAmbe2400 lax d cur prev t) fun r => SetOk r.cur ∧ SetOk r.prev
  tone : ∀ {id : Nat}, id < 256 → Fine (tonePhaseStep (lookupToneFreqs id : F × F × Bool).1) ∧
    Fine (tonePhaseStep (lookupToneFreqs id : F × F × Bool).2.1)
  dstar : ∀ {id : Nat}, id < 123 → Fine (tonePhaseStep (dstarFreq (id : Int) : F))

variable [Decodes F]

/-! ## Process functions -/

/-- What a call may rely on and what it leaves. -/
def StepOk (U : UB → Prop) (errs2 : Int) (s : St F) (x : Exec (Out F)) : Prop :=
  OkU U x fun o => StOk o.st ∧
    (∀ T, 20480 ≤ T → LimAll T s → 0 ≤ errs2 → errs2 ≤ 7000000 → LimAll (T + 6000) o.st)

/-- The threshold computation of a call cannot overflow. -/
def NoOverflow (errs2 : Int) (s : St F) : Prop := LimAll 2147477647 s ∧ 0 ≤ errs2 ∧ errs2 ≤ 7000000

theorem Lim.tm {p q : Parms F} (h1 : Lim 2147477647 p) (h2 : Lim 2147477647 q) :
    TmOk p.errorCountTotal q.amplitudeThreshold := ⟨h1.e0, h1.e1, h2.t⟩

theorem RepOk.congr {p q : Parms F} (h : RepOk p) (e1 : q.repeat_ = p.repeat_) (e2 : q.repeatCount = p.repeatCount) :
    RepOk q := ⟨by rw [e1, e2]; exact h.eq, by rw [e2]; exact h.lo, by rw [e2]; exact h.hi⟩

theorem rep_zero {p : Parms F} (h1 : p.repeat_ = 0) (h2 : p.repeatCount = 0) : RepOk p :=
  ⟨by rw [h1, h2], by rw [h2], by rw [h2]; decide⟩

/-- The end of every process function: two optional letters and the terminator fit. -/
theorem strEnd_u {U : UB → Prop} {α : Type} {cap : Nat} {k : Nat} {str : List Char} (b : Exec (List Char))
    (hb : ∀ {P : List Char → Prop}, (∀ t : List Char, t.length ≤ str.length + 1 → P t) → OkU U b P)
    (hcap : k + 3 ≤ cap ∨ U .oobWrite) (hs : str.length ≤ k + 1) (f : List Char → α) {P : α → Prop} (hP : ∀ t, P (f t)) :
    OkU U (do let t ← b; let t ← putc cap t '\x00'; Except.ok (f t)) P := by
  refine OkU.bind (hb (P := fun t => t.length ≤ str.length + 1) fun t h => h) fun t ht => ?_
  refine OkU.bind (putc_u _ ?_) fun _ _ => OkU.ok (hP _)
  rcases hcap with h | h
  · left; omega
  · exact .inr h

theorem processImbe4400_u {U : UB → Prop} {E : Env F} (hlax : E.lax = true ∨ U .oobRead) {C : Call F}
    (c0 : Option Int) {errs2 : Int} (hcap : errs2.toNat + 3 ≤ C.cap ∨ U .oobWrite) {d : Nat → Int} (hd : Bits 88 d)
    {s : St F} (hs : StOk s) (hlim : NoOverflow errs2 s ∨ U .signedOverflow) :
    StepOk U errs2 s (processImbe4400 E C c0 errs2 d s) := by
  unfold StepOk processImbe4400
  simp only []
  have hcur : SetOk (imbePrepare c0 errs2 s).cur := by
    rw [imbePrepare_cur]; exact hs.cur.congr rfl rfl rfl rfl
  refine OkU.bind (putEq_u errs2 (by rcases hcap with h | h; exacts [.inl (by omega), .inr h])) fun str hstr => ?_
  refine OkU.bind ((Decodes.imbe hlax hd s.tls hcur hs.prev).post (decodeImbe4400_frame _ _ _ _ _)) fun r hr => ?_
  obtain ⟨⟨hrc, hrp⟩, hfr, _⟩ := hr
  have hrep : RepOk r.prev := by rw [hfr.prev_eq]; exact hs.rep.congr rfl rfl
  generalize imbeRepeatRequired r.bad c0 errs2 r.cur.errorRate = rep
  have hLimC : ∀ T, LimAll T s → 0 ≤ errs2 → errs2 ≤ 7000000 → Lim T r.cur := by
    intro T hT h0 h1
    have e : r.cur.errorCountTotal = errs2 := by rw [hfr.cur_eq, imbePrepare_cur]
    have e' : r.cur.amplitudeThreshold = s.cur.amplitudeThreshold := by rw [hfr.cur_eq, imbePrepare_cur]
    exact ⟨by rw [e]; exact h0, by rw [e]; exact h1, by rw [e']; exact hT.cur.t⟩
  have hLimP : ∀ T, LimAll T s → Lim T r.prev := fun T hT => by rw [hfr.prev_eq]; exact hT.prev.congr rfl rfl
  refine OkU.bind (P := fun c => SetOk c ∧ RepOk c ∧
    ∀ T, 20480 ≤ T → LimAll T s → 0 ≤ errs2 → errs2 ≤ 7000000 → Lim T c) ?_ fun c hc => ?_
  · unfold imbeRepeat
    refine OkU.ite (fun _ => OkU.ite (fun _ => ?_) fun h3 => ?_) fun _ => ?_
    · rw [Base.reset]
      refine OkU.ok ⟨⟨show (9 : Int) ≤ 39 by decide, show (39 : Int) ≤ 56 by decide, vl01_const, Base.wImbe, hrc.seed⟩,
        rep_zero rfl rfl, fun T hT hl h0 h1 => ?_⟩
      have := hLimC T hl h0 h1
      exact ⟨this.e0, this.e1, hT⟩
    · refine (repeatLast_ok hrep).mono ?_
      rintro q rfl
      refine ⟨hrp.congr rfl rfl rfl rfl, ⟨?_, ?_, ?_⟩, fun T _ hl _ _ => (hLimP T hl).congr rfl rfl⟩
      · show r.prev.repeat_ + 1 = r.prev.repeatCount + 1
        rw [hrep.eq]
      · show 0 ≤ r.prev.repeatCount + 1
        have := hrep.lo; omega
      · show r.prev.repeatCount + 1 ≤ 4
        omega
    · exact OkU.ok ⟨hrc.congr rfl rfl rfl rfl, rep_zero rfl rfl, fun T _ hl h0 h1 => (hLimC T hl h0 h1).congr rfl rfl⟩
  obtain ⟨hc1, hc2, hc3⟩ := hc
  refine OkU.bind (putIf_u rep 'R' (s := str) (by rcases hcap with h | h; exacts [.inl (by omega), .inr h])) fun str' hstr' => ?_
  have htls : r.tls.uvSeedState = s.tls.uvSeedState := by rw [hfr.tls_eq]
  refine OkU.bind (speak_ok E C (s := ⟨c, r.prev, (imbePrepare c0 errs2 s).enh, r.tls⟩) hc1 hs.enh (by dsimp only; rw [htls]; exact hs.uv) ?_ hc2)
    fun o ho => ?_
  · rcases hlim with ⟨h1, h2, h3⟩ | h
    · left
      exact (hc3 _ (by decide) h1 h2 h3).tm h1.enh
    · exact .inr h
  refine strEnd_u (str := str') _ (fun hP => ?_) hcap (by omega) (fun t => (⟨o.1, t, o.2⟩ : Out F))
    (fun t => ⟨ho.1, fun T hT hl h0 h1 => ho.2 T hT (hc3 T hT hl h0 h1) hl.enh⟩)
  refine (putIf_u _ 'M' ?_).mono hP
  rcases hcap with h | h
  · left; omega
  · exact .inr h

/-- The assignments at the start of an AMBE call. -/
theorem ambePrepare_u (errs2 : Int) {s : St F} (hs : StOk s) : ∃ s1, ambePrepare errs2 s = .ok s1 ∧ StOk s1 ∧
    s1.tls = s.tls ∧ (∀ T, 20480 ≤ T → LimAll T s → 0 ≤ errs2 → errs2 ≤ 7000000 → LimAll T s1) := by
  unfold ambePrepare ensureAmbeDefaults
  have key : ∀ s0 : St F, StOk s0 → s0.tls = s.tls → (∀ T, 20480 ≤ T → LimAll T s → LimAll T s0) →
      ∃ s1, (Except.ok { s0 with cur := ambePreparedCur errs2 s0 } : Exec (St F)) = .ok s1 ∧ StOk s1 ∧
        s1.tls = s.tls ∧ (∀ T, 20480 ≤ T → LimAll T s → 0 ≤ errs2 → errs2 ≤ 7000000 → LimAll T s1) := by
    intro s0 h0 ht hl
    refine ⟨_, rfl, ⟨h0.cur.congr rfl rfl rfl rfl, h0.prev, h0.enh, h0.rep, h0.uv⟩, ht, fun T hT hT' a b => ?_⟩
    have := hl T hT hT'
    exact ⟨⟨a, b, this.cur.t⟩, this.prev, this.enh⟩
  split
  · rw [initAmbeState_eq, ok_bind]
    exact key _ (stOk_ambeInit hs.uv) rfl fun T hT _ => ⟨ambeInit_lim hT, ambeInit_lim hT, ambeInit_lim hT⟩
  · rw [ok_bind]
    exact key s hs rfl fun T _ h => h

theorem orField_fine {d : Nat → Int} (hd : Bits 49 d) (lo n : Nat) (h : lo + n ≤ 49) :
    orField d (List.range' lo n) = .ok (fieldVal d (List.range' lo n)) :=
  orField_eq hd fun i hi => by rw [List.mem_range'_1] at hi; omega

theorem validToneId_fine {d : Nat → Int} (hd : Bits 49 d) : Fine (validToneId d) := by
  unfold validToneId
  rw [orField_fine hd _ _ (by decide), ok_bind]
  refine Ok.ite (fun _ => Ok.ok trivial) fun _ => Ok.ite (fun _ => Ok.ok trivial) fun _ => Ok.ok trivial

theorem synthesizeTonef_fine {d : Nat → Int} (hd : Bits 49 d) (out : Arr 160 F) (cur : Parms F) :
    Fine (synthesizeTonef out d cur) := by
  unfold synthesizeTonef
  rw [orField_fine hd _ _ (by decide), ok_bind, orField_fine hd _ _ (by decide), ok_bind, orField_fine hd _ _ (by decide),
    ok_bind, orField_fine hd _ _ (by decide), ok_bind]
  simp only []
  have hid : (fieldVal d (List.range' 12 12) &&& 0xfff) >>> 4 < 256 := by
    have : fieldVal d (List.range' 12 12) &&& 0xfff ≤ 0xfff := Nat.and_le_right
    rw [Nat.shiftRight_eq_div_pow]
    omega
  obtain ⟨a, b⟩ := Decodes.tone (F := F) hid
  exact Ok.ite (fun _ => renderTonef_fine _ _ _ a b) fun _ => Ok.ok trivial

theorem synthesizeTonefdstar_fine (d : Nat → Int) (out : Arr 160 F) (cur : Parms F) {id : Int} (h0 : 0 ≤ id)
    (h1 : id < 123) : Fine (synthesizeTonefdstar out d cur id) := by
  unfold synthesizeTonefdstar
  simp only []
  have := Decodes.dstar (F := F) (id := id.toNat) (by omega)
  rw [Int.toNat_of_nonneg h0] at this
  exact Ok.ite (fun _ => Ok.ok trivial) fun _ => renderTonef_fine _ _ _ this this

/-- The speech or mute branch common to the AMBE codecs. -/
theorem ambeVoice_u {U : UB → Prop} {E : Env F} {C : Call F} {s : St F} (hc : SetOk s.cur)
    (he : SetOk s.enh) (ht : s.tls.uvSeedState ≤ 2 ^ 24) (hr : s.cur.repeat_ = s.cur.repeatCount) (h0 : 0 ≤ s.cur.repeatCount)
    (htm : TmOk s.cur.errorCountTotal s.enh.amplitudeThreshold ∨ U .signedOverflow) :
    OkU U (if s.cur.repeat_ ≤ 3 then do
        let o ← speak E C s
        Except.ok (o.1, none, o.2)
      else do
        let o ← noiseAndReset C s
        Except.ok (o.1, some 'M', o.2) : Exec (Arr 160 F × Option Char × St F)) fun p =>
      StOk p.2.2 ∧ (∀ T, 20480 ≤ T → Lim T s.cur → Lim T s.enh → LimAll (T + 6000) p.2.2) := by
  refine OkU.ite (fun h3 => ?_) fun _ => ?_
  · refine OkU.bind (speak_ok E C hc he ht htm ⟨hr, h0, by omega⟩) fun o ho => OkU.ok ho
  · refine OkU.bind (noise_stOk C ht) fun o ho => OkU.ok ⟨ho.1, fun T hT _ _ => ho.2 _ (by omega)⟩

theorem processAmbe2450_u {U : UB → Prop} {E : Env F} (hlax : E.lax = true ∨ U .oobRead) {C : Call F}
    (c0 : Option Int) {errs2 : Int} (hcap : errs2.toNat + 3 ≤ C.cap ∨ U .oobWrite) {d : Nat → Int} (hd : Bits 49 d)
    {s : St F} (hs : StOk s) (hlim : NoOverflow errs2 s ∨ U .signedOverflow) :
    StepOk U errs2 s (processAmbe2450 E C c0 errs2 d s) := by
  unfold StepOk processAmbe2450
  obtain ⟨s1, e1, hs1, ht1, hl1⟩ := ambePrepare_u errs2 hs
  rw [e1, ok_bind]
  refine OkU.bind (putEq_u errs2 (by rcases hcap with h | h; exacts [.inl (by omega), .inr h])) fun str hstr => ?_
  refine OkU.bind ((Decodes.ambe2450 hlax hd errs2 s1.tls hs1.cur hs1.prev).post (decodeAmbe2450_frame _ _ _ _ _ _)) fun r hr => ?_
  obtain ⟨⟨hrc, hrp⟩, hfr, hbad, _⟩ := hr
  have hrep : RepOk r.prev := by rw [hfr.prev_eq]; exact hs1.rep.congr rfl rfl
  have huv : r.tls.uvSeedState ≤ 2 ^ 24 := by rw [hfr.tls_eq]; exact hs1.uv
  have hLimC : ∀ T, LimAll T s1 → Lim T r.cur := fun T hT => by rw [hfr.cur_eq]; exact hT.cur.congr rfl rfl
  have hLimP : ∀ T, LimAll T s1 → Lim T r.prev := fun T hT => by rw [hfr.prev_eq]; exact hT.prev.congr rfl rfl
  have hlim' : LimAll 2147477647 s1 ∨ U .signedOverflow := by
    rcases hlim with ⟨a, b, c⟩ | h
    · exact .inl (hl1 _ (by decide) a b c)
    · exact .inr h
  -- the verdict
  refine OkU.bind (P := fun v => SetOk v.1 ∧ v.1.repeat_ = v.1.repeatCount ∧ 0 ≤ v.1.repeatCount ∧
    (r.bad = 2 → v.1.repeatCount = 0) ∧ ∀ T, 20480 ≤ T → LimAll T s1 → Lim T v.1) ?_ fun v hv => ?_
  · unfold ambe2450Verdict
    refine OkU.ite (fun _ => ?_) fun hb2 => OkU.ite (fun _ => ?_) fun _ => OkU.ite (fun _ => ?_) fun _ => ?_
    · rw [setAmbeErasureParms_eq, ok_bind]
      refine OkU.ok ⟨⟨le_refl (9 : Int), show (9 : Int) ≤ 56 by decide, vl01_const, Base.wZero, hrp.seed⟩, rfl, le_refl (0 : Int),
        fun _ => rfl, fun T hT hl => ?_⟩
      have := hLimC T hl
      exact ⟨this.e0, this.e1, hT⟩
    · exact OkU.ok ⟨hrc.congr rfl rfl rfl rfl, rfl, le_refl (0 : Int), fun _ => rfl, fun T _ hl => (hLimC T hl).congr rfl rfl⟩
    · refine OkU.bind (repeatLast_ok hrep) fun q hq => ?_
      subst hq
      refine OkU.ok ⟨hrp.congr rfl rfl rfl rfl, ?_, ?_, fun h => absurd h hb2, fun T _ hl => (hLimP T hl).congr rfl rfl⟩
      · show r.prev.repeat_ + 1 = r.prev.repeatCount + 1
        rw [hrep.eq]
      · show 0 ≤ r.prev.repeatCount + 1
        have := hrep.lo; omega
    · exact OkU.ok ⟨hrc.congr rfl rfl rfl rfl, rfl, le_refl (0 : Int), fun _ => rfl, fun T _ hl => (hLimC T hl).congr rfl rfl⟩
  obtain ⟨hv1, hv2, hv3, hv5, hv4⟩ := hv
  refine OkU.bind (putOpt_u v.2 (s := str) (by rcases hcap with h | h; exacts [.inl (by omega), .inr h])) fun str' hstr' => ?_
  -- the rendering
  refine OkU.bind (P := fun p => StOk p.2.2 ∧ ∀ T, 20480 ≤ T → LimAll T s1 → LimAll (T + 6000) p.2.2) ?_ fun p hp => ?_
  · unfold ambe2450Render
    refine OkU.ite (fun _ => ?_) fun _ => OkU.ite (fun _ => ?_) fun _ => OkU.ite (fun hb2 => ?_) fun _ => ?_
    · refine (ambeVoice_u (E := E) (C := C) (s := ⟨v.1, r.prev, s1.enh, r.tls⟩) hv1 hs1.enh huv hv2 hv3 ?_).mono
        fun p hp => ⟨hp.1, fun T hT hl => hp.2 T hT (hv4 T hT hl) hl.enh⟩
      rcases hlim' with h | h
      · exact .inl ((hv4 _ (by decide) h).tm h.enh)
      · exact .inr h
    · refine OkU.bind (Ok.toU (validToneId_fine hd)) fun b _ => OkU.ite (fun _ => ?_) fun _ => OkU.ite (fun _ => ?_) fun _ => ?_
      · refine OkU.bind (Ok.toU ((synthesizeTonef_fine hd C.buf v.1).post (synthesizeTonef_frame _ _ _))) fun q hq => ?_
        refine OkU.ok ⟨⟨hv1.congr (by rw [hq]) (by rw [hq]) (by rw [hq]) (by rw [hq]), hrp, hs1.enh, hrep, huv⟩, fun T hT hl => ?_⟩
        exact ⟨((hv4 T hT hl).congr (by rw [hq]) (by rw [hq])).mono (by omega), (hLimP T hl).mono (by omega), hl.enh.mono (by omega)⟩
      · exact OkU.bind (noise_stOk C (s := ⟨v.1, r.prev, s1.enh, r.tls⟩) huv) fun o ho => OkU.ok ⟨ho.1, fun T hT _ => ho.2 _ (by omega)⟩
      · unfold replayEnhanced
        refine OkU.bind (P := fun o => StOk o.2 ∧ ∀ T, 20480 ≤ T → LimAll T s1 → LimAll (T + 6000) o.2) ?_ fun o ho => OkU.ok ho
        refine OkU.bind (synth_ok (U := U) E C.ps C.buf C.uvquality hs1.enh hs1.enh huv ?_) fun w hw => ?_
        · rcases hlim' with h | h
          · exact .inl (h.enh.tm h.enh)
          · exact .inr h
        obtain ⟨w1, w2, w3, w4⟩ := hw
        refine OkU.ok ⟨⟨hv1, hrp, w1, hrep, by rw [w2]; exact huv⟩, fun T hT hl => ?_⟩
        refine ⟨(hv4 T hT hl).mono (by omega), (hLimP T hl).mono (by omega), ⟨by rw [w3]; exact hl.enh.e0, by rw [w3]; exact hl.enh.e1, ?_⟩⟩
        have h4 : w.cur.amplitudeThreshold ≤ max 20480 (max 20480 s1.enh.amplitudeThreshold + 6000) := w4 hl.enh.e0
        have := hl.enh.t
        show w.cur.amplitudeThreshold ≤ T + 6000
        omega
    · refine OkU.bind (Ok.toU ((comfortNoisef_fine C.buf r.tls).post (comfortNoisef_frame _ _))) fun q hq => ?_
      refine OkU.ok ⟨⟨hv1, hv1, hv1, ⟨hv2, hv3, ?_⟩, ?_⟩, fun T hT hl => ?_⟩
      · show v.1.repeatCount ≤ 4
        have := hv5 hb2
        omega
      · show q.2.uvSeedState ≤ _
        rw [hq]; exact huv
      · have := (hv4 T hT hl).mono (show T ≤ T + 6000 by omega)
        exact ⟨this, this, this⟩
    · exact OkU.bind (noise_stOk C (s := ⟨v.1, r.prev, s1.enh, r.tls⟩) huv) fun o ho => OkU.ok ⟨ho.1, fun T hT _ => ho.2 _ (by omega)⟩
  refine strEnd_u (str := str') _ (fun hP => ?_) hcap (by omega) (fun t => (⟨p.1, t, p.2.2⟩ : Out F))
    (fun t => ⟨hp.1, fun T hT hl h0 h1 => hp.2 T hT (hl1 T hT hl h0 h1)⟩)
  refine (putOpt_u _ ?_).mono hP
  rcases hcap with h | h
  · left; omega
  · exact .inr h

theorem processAmbe2400_u (hm : Decodes.Acc F) {U : UB → Prop} {E : Env F} (hlax : E.lax = true ∨ U .oobRead)
    {C : Call F} (errs : Int) {errs2 : Int} (hcap : errs2.toNat + 3 ≤ C.cap ∨ U .oobWrite) {d : Nat → Int}
    (hd : Bits 49 d) {s : St F} (hs : StOk s) (hlim : NoOverflow errs2 s ∨ U .signedOverflow) :
    StepOk U errs2 s (processAmbe2400 E C errs errs2 d s) := by
  unfold StepOk processAmbe2400
  obtain ⟨s1, e1, hs1, ht1, hl1⟩ := ambePrepare_u errs2 hs
  rw [e1, ok_bind]
  refine OkU.bind (putEq_u errs2 (by rcases hcap with h | h; exacts [.inl (by omega), .inr h])) fun str hstr => ?_
  refine OkU.bind ((Decodes.ambe2400 hm hlax hd s1.tls hs1.cur hs1.prev).post (decodeAmbe2400_frame _ _ _ _ _)) fun r hr => ?_
  obtain ⟨⟨hrc, hrp⟩, hfr, hbad, _⟩ := hr
  have hrep : RepOk r.prev := by rw [hfr.prev_eq]; exact hs1.rep.congr rfl rfl
  have huv : r.tls.uvSeedState ≤ 2 ^ 24 := by rw [hfr.tls_eq]; exact hs1.uv
  have hLimC : ∀ T, LimAll T s1 → Lim T r.cur := fun T hT => by rw [hfr.cur_eq]; exact hT.cur.congr rfl rfl
  have hLimP : ∀ T, LimAll T s1 → Lim T r.prev := fun T hT => by rw [hfr.prev_eq]; exact hT.prev.congr rfl rfl
  have hlim' : LimAll 2147477647 s1 ∨ U .signedOverflow := by
    rcases hlim with ⟨a, b, c⟩ | h
    · exact .inl (hl1 _ (by decide) a b c)
    · exact .inr h
  refine OkU.bind (P := fun v : Verdict2400 F => r.bad = 0 → SetOk v.cur ∧ v.cur.repeat_ = v.cur.repeatCount ∧
    0 ≤ v.cur.repeatCount ∧ ∀ T, 20480 ≤ T → LimAll T s1 → Lim T v.cur) ?_ fun v hv => ?_
  · unfold ambe2400Verdict
    refine OkU.ite (fun hb => ?_) fun _ => OkU.ite (fun hb => ?_) fun _ => OkU.ite (fun hb => ?_) fun _ => OkU.ite (fun _ => ?_) fun _ => ?_
    · rw [setAmbeErasureParms_eq, ok_bind]
      exact OkU.ok fun h => by omega
    · exact OkU.ok fun h => by omega
    · refine OkU.bind (Ok.toU (synthesizeTonefdstar_fine d C.buf r.cur (by omega) (by omega))) fun q _ => OkU.ok fun h => ?_
      omega
    · refine OkU.bind (repeatLast_ok hrep) fun q hq => ?_
      subst hq
      refine OkU.ok fun _ => ⟨hrp.congr rfl rfl rfl rfl, ?_, ?_, fun T _ hl => (hLimP T hl).congr rfl rfl⟩
      · show r.prev.repeat_ + 1 = r.prev.repeatCount + 1
        rw [hrep.eq]
      · show 0 ≤ r.prev.repeatCount + 1
        have := hrep.lo; omega
    · exact OkU.ok fun _ => ⟨hrc.congr rfl rfl rfl rfl, rfl, le_refl (0 : Int), fun T _ hl => (hLimC T hl).congr rfl rfl⟩
  refine OkU.bind (putOpt_u v.letter (s := str) (by rcases hcap with h | h; exacts [.inl (by omega), .inr h])) fun str' hstr' => ?_
  refine OkU.bind (P := fun p => StOk p.2.2 ∧ ∀ T, 20480 ≤ T → LimAll T s1 → LimAll (T + 6000) p.2.2) ?_ fun p hp => ?_
  · unfold ambe2400Render
    refine OkU.ite (fun hb => ?_) fun _ => OkU.ite (fun hb2 => ?_) fun _ => ?_
    · obtain ⟨hv1, hv2, hv3, hv4⟩ := hv hb
      refine (ambeVoice_u (E := E) (C := { C with buf := v.buf }) (s := ⟨v.cur, v.prev, s1.enh, r.tls⟩) hv1 hs1.enh huv hv2 hv3 ?_).mono
        fun p hp => ⟨hp.1, fun T hT hl => hp.2 T hT (hv4 T hT hl) hl.enh⟩
      rcases hlim' with h | h
      · exact .inl ((hv4 _ (by decide) h).tm h.enh)
      · exact .inr h
    · exact absurd hb2 (by omega)
    · exact OkU.bind (noise_stOk _ (s := ⟨v.cur, v.prev, s1.enh, r.tls⟩) huv) fun o ho => OkU.ok ⟨ho.1, fun T hT _ => ho.2 _ (by omega)⟩
  refine strEnd_u (str := str') _ (fun hP => ?_) hcap (by omega) (fun t => (⟨p.1, t, p.2.2⟩ : Out F))
    (fun t => ⟨hp.1, fun T hT hl h0 h1 => hp.2 T hT (hl1 T hT hl h0 h1)⟩)
  refine (putOpt_u _ ?_).mono hP
  rcases hcap with h | h
  · left; omega
  · exact .inr h

end Verif.Model
