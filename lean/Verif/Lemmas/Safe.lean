import Verif.Lemmas.SynthIeee
import Verif.Lemmas.Steps

/-!
# The process functions perform no undefined operation, and the invariant that guarantees it
-/

namespace Verif.Model
open Verif Verif.Gen Verif.Spec Verif.Num Arith
set_option linter.unusedSectionVars false

/-! ## Voicing decisions stay 0 or 1 -/

section
variable {F : Type} [Arith F]

/-- All voicing decisions are 0 or 1. -/
def Vl01 (V : Arr 57 Int) : Prop := ∀ l : Fin 57, V l = 0 ∨ V l = 1

theorem Vl01.set {V : Arr 57 Int} (h : Vl01 V) (i : Nat) {v : Int} (hv : v = 0 ∨ v = 1) : Vl01 (V.set i v) := by
  intro l
  by_cases e : l.val = i
  · rw [Arr.set_same e]; exact hv
  · rw [Arr.set_ne e]; exact h l

theorem Vl01.wr {V : Arr 57 Int} (h : Vl01 V) (i : Int) {v : Int} (hv : v = 0 ∨ v = 1) : Post (V.wr i v) Vl01 := by
  intro a ha
  obtain ⟨_, _, rfl⟩ := Arr.wr_post a ha
  exact h.set _ hv

theorem vl01_const : Vl01 (Arr.const 57 0) := fun _ => .inl rfl

theorem smoothVoicing_vl (L : Int) (vm : F) (Ml : Arr 57 F) {Vl : Arr 57 Int} (h : Vl01 Vl) :
    Post (smoothVoicing L vm Ml Vl) Vl01 := by
  unfold smoothVoicing loopTo
  refine loopFT_post' _ h fun i V hV => Post.bind Post.true fun _ _ => Post.ite (fun _ => hV.wr _ (.inr rfl)) fun _ => Post.pure hV

theorem applySmoothing_vl (a : Nat) {cur : Parms F} (prev : Parms F) (t : Tls F) (h : Vl01 cur.Vl) :
    Post (applySmoothing a cur prev t) fun r => Vl01 r.1.Vl := by
  unfold applySmoothing
  refine Post.bind Post.true fun q _ => ?_
  refine Post.bind (smoothVoicing_vl _ _ _ h) fun V hV => ?_
  iterate 3 refine Post.bind Post.true fun _ _ => ?_
  exact Post.pure hV

theorem extendBands_vl (lo hi : Int) {p : Parms F} (h : Vl01 p.Vl) : Post (extendBands lo hi p) fun q => Vl01 q.Vl := by
  unfold extendBands
  refine loop_post' (fun q : Parms F => Vl01 q.Vl) h fun k q hq => Post.bind Post.true fun _ _ => ?_
  exact Post.bind (hq.wr _ (.inr rfl)) fun V hV => Post.pure hV

theorem synthUnmuted_vl (E : Env F) {cur : Parms F} (prev : Parms F) (t : Tls F) (h : Vl01 cur.Vl) :
    Post (synthUnmuted E cur prev t) fun r => Vl01 r.cur.Vl := by
  unfold synthUnmuted
  refine Post.bind Post.true fun nr _ => Post.bind Post.true fun _ _ => ?_
  refine Post.bind (P := fun q : Parms F × Parms F × Int => Vl01 q.1.Vl) ?_ fun q hq => ?_
  · refine Post.ite (fun _ => Post.bind Post.true fun _ _ => Post.pure h) fun _ => ?_
    exact Post.bind (extendBands_vl (p := { cur with noiseSeed := nr.seed, noiseOverlap := nr.overlap }) _ _ h) fun p hp => Post.pure hp
  obtain ⟨c, p, ml⟩ := q
  dsimp only at hq ⊢
  refine Post.bind (phaseUpdate_frame _ _ _ _ _ _) fun q hq' => ?_
  obtain ⟨c', p'⟩ := q
  dsimp only at hq' ⊢
  have hc : Vl01 c'.Vl := by rw [hq'.1]; exact hq
  refine Post.bind Post.true fun out _ => Post.bind Post.true fun q _ => ?_
  obtain ⟨pl, t'⟩ := q
  cases pl with
  | some P => exact Post.bind Post.true fun u _ => Post.bind Post.true fun _ _ => Post.pure hc
  | none => exact Post.bind Post.true fun _ _ => Post.pure hc

theorem synthesizeSpeechf_vl (E : Env F) (a : Nat) (out : Arr 160 F) {cur : Parms F} (prev : Parms F) (t : Tls F)
    (u : Int) (h : Vl01 cur.Vl) : Post (synthesizeSpeechf E a out cur prev t u) fun r => Vl01 r.cur.Vl := by
  unfold synthesizeSpeechf
  refine Post.bind (applySmoothing_vl a prev t h) fun q hq => ?_
  obtain ⟨c, t'⟩ := q
  exact Post.ite (fun _ => Post.bind Post.true fun _ _ => Post.pure hq) fun _ => synthUnmuted_vl E prev t' hq

theorem ambe2450Voice_w0 (lax : Bool) (d : Nat → Int) {b0 : Nat} (h : b0 < 120 ∨ b0 = 124 ∨ b0 = 125) (cur prev : Parms F)
    (t : Tls F) : Post (ambe2450Voice lax d b0 cur prev t) fun r =>
      r.cur.w0 = if b0 = 124 ∨ b0 = 125 then (fpi /ᶠ lit 32 1) *ᶠ toF (dlit 2 1 *ᵈ mpi)
        else ambeW0 (ftab (AmbeW0table.getD b0 0) AmbeW0table_den) := by
  unfold ambe2450Voice
  refine Post.bind (P := fun r : F × Parms F × Int => r.2.1.w0 = if b0 = 124 ∨ b0 = 125 then
      (fpi /ᶠ lit 32 1) *ᶠ toF (dlit 2 1 *ᵈ mpi) else ambeW0 (ftab (AmbeW0table.getD b0 0) AmbeW0table_den)) ?_ fun r hr => ?_
  · unfold ambe2450Header
    by_cases hs : b0 = 124 ∨ b0 = 125
    · rw [if_pos (by simpa using hs), if_pos hs]
      exact Post.bind Post.true fun _ _ => Post.pure rfl
    · rw [if_neg (by simpa using hs), if_neg hs]
      have l1 : AmbeW0table.length = 120 := by decide +kernel
      rw [tab_getD (x := 0) (by omega), ok_bind]
      exact Post.bind Post.true fun _ _ => Post.bind Post.true fun _ _ => Post.pure rfl
  · iterate 3 refine Post.bind Post.true fun _ _ => ?_
    refine Post.bind (ambeBody_post _ _ _ _ _ _ _ _) fun q hq => Post.pure ?_
    dsimp only
    rw [hq.1]
    exact hr

theorem ambe2400Voice_w0 (lax : Bool) (d : Nat → Int) (b0 : Nat) (cur prev : Parms F) (t : Tls F) :
    Post (ambe2400Voice lax d b0 cur prev t) fun r => r.cur.w0 = ambeW0 (f0Of2400 b0) := by
  unfold ambe2400Voice
  iterate 5 refine Post.bind Post.true fun _ _ => ?_
  refine Post.bind (ambeBody_post _ _ _ _ _ _ _ _) fun q hq => Post.pure ?_
  dsimp only
  rw [hq.1]

end

variable {F : Type} [Arith F]

/-! ## What an arithmetic must provide -/

/-- Facts about an arithmetic that the synthesis needs: which fundamentals (`W`) and noise seeds (`G`) are convertible
to integers, and that the constants of the initialisation functions are among them. -/
class Base (F : Type) [Arith F] where
  W : F → Prop
  G : F → Prop
  edge : ∀ {w : F} {L : Int}, W w → L ≤ 56 → EdgeConv w L
  conv : ∀ {x : F}, G x → SeedConv x
  next : ∀ {t : Tls F} {x : F}, SeedNext t x → t.uvSeedState ≤ 2 ^ 24 → G x
  seedNeg : G (neg (lit 1 1))
  wZero : W (lit 0 1)
  wAmbe : W (toF ((mpi /ᵈ dlit 32 1) *ᵈ (dlit 2 1 *ᵈ mpi)))
  wImbe : W imbeDefaultW0
  reset : ∀ p : Parms F, imbeResetHeadroomDefaults p = .ok (imbeHeadroom 39 p)
  init : ∀ s : St F, initMbeState s = .ok ⟨imbeInit 39, imbeInit 39, imbeInit 39, s.tls⟩

variable [Base F]

/-! ## The invariant -/

/-- A parameter set of a decoder in operation. -/
structure SetOk (p : Parms F) : Prop where
  lo : 9 ≤ p.L
  hi : p.L ≤ 56
  vl : Vl01 p.Vl
  w0 : Base.W p.w0
  seed : Base.G p.noiseSeed

theorem SetOk.congr {p q : Parms F} (h : SetOk p) (e1 : q.L = p.L) (e2 : q.Vl = p.Vl) (e3 : q.w0 = p.w0)
    (e4 : q.noiseSeed = p.noiseSeed) : SetOk q :=
  ⟨by rw [e1]; exact h.lo, by rw [e1]; exact h.hi, by rw [e2]; exact h.vl, by rw [e3]; exact h.w0, by rw [e4]; exact h.seed⟩

/-- The repeat counters of the previous frame. -/
structure RepOk (p : Parms F) : Prop where
  eq : p.repeat_ = p.repeatCount
  lo : 0 ≤ p.repeatCount
  hi : p.repeatCount ≤ 4

/-- A decoder state in operation. -/
structure StOk (s : St F) : Prop where
  cur : SetOk s.cur
  prev : SetOk s.prev
  enh : SetOk s.enh
  rep : RepOk s.prev
  uv : s.tls.uvSeedState ≤ 2 ^ 24

/-- Bounds of the integers that take part in the amplitude threshold computation. -/
structure Lim (T : Int) (p : Parms F) : Prop where
  e0 : 0 ≤ p.errorCountTotal
  e1 : p.errorCountTotal ≤ 7000000
  t : p.amplitudeThreshold ≤ T

theorem Lim.mono {T T' : Int} {p : Parms F} (h : Lim T p) (hT : T ≤ T') : Lim T' p := ⟨h.e0, h.e1, h.t.trans hT⟩

theorem Lim.congr {T : Int} {p q : Parms F} (h : Lim T p) (e1 : q.errorCountTotal = p.errorCountTotal)
    (e2 : q.amplitudeThreshold = p.amplitudeThreshold) : Lim T q :=
  ⟨by rw [e1]; exact h.e0, by rw [e1]; exact h.e1, by rw [e2]; exact h.t⟩

/-- All three sets. -/
structure LimAll (T : Int) (s : St F) : Prop where
  cur : Lim T s.cur
  prev : Lim T s.prev
  enh : Lim T s.enh

theorem ambeInit_ok : SetOk (ambeInit : Parms F) :=
  ⟨show (9 : Int) ≤ 15 by decide, show (15 : Int) ≤ 56 by decide, vl01_const, Base.wAmbe, Base.seedNeg⟩

theorem imbeInit_ok : SetOk (imbeInit 39 : Parms F) :=
  ⟨show (9 : Int) ≤ 39 by decide, show (39 : Int) ≤ 56 by decide, vl01_const, Base.wImbe, Base.seedNeg⟩

theorem ambeInit_lim {T : Int} (h : 20480 ≤ T) : Lim T (ambeInit : Parms F) :=
  ⟨le_refl (0 : Int), show (0 : Int) ≤ 7000000 by decide, h⟩

theorem imbeInit_lim {T : Int} (h : 20480 ≤ T) : Lim T (imbeInit 39 : Parms F) :=
  ⟨le_refl (0 : Int), show (0 : Int) ≤ 7000000 by decide, h⟩

theorem stOk_ambeInit {t : Tls F} (ht : t.uvSeedState ≤ 2 ^ 24) : StOk ⟨ambeInit, ambeInit, ambeInit, t⟩ :=
  ⟨ambeInit_ok, ambeInit_ok, ambeInit_ok, ⟨rfl, le_refl (0 : Int), show (0 : Int) ≤ 4 by decide⟩, ht⟩

theorem stOk_imbeInit {t : Tls F} (ht : t.uvSeedState ≤ 2 ^ 24) : StOk ⟨imbeInit 39, imbeInit 39, imbeInit 39, t⟩ :=
  ⟨imbeInit_ok, imbeInit_ok, imbeInit_ok, ⟨rfl, le_refl (0 : Int), show (0 : Int) ≤ 4 by decide⟩, ht⟩

/-! ## Synthesis -/

theorem synth_ok {U : UB → Prop} (E : Env F) (a : Nat) (out : Arr 160 F) {cur prev : Parms F}
    {t : Tls F} (u : Int) (hc : SetOk cur) (hp : SetOk prev) (ht : t.uvSeedState ≤ 2 ^ 24)
    (htm : TmOk cur.errorCountTotal prev.amplitudeThreshold ∨ U .signedOverflow) :
    OkU U (synthesizeSpeechf E a out cur prev t u) fun r => SetOk r.cur ∧ r.tls.uvSeedState = t.uvSeedState ∧
      r.cur.errorCountTotal = cur.errorCountTotal ∧
      (0 ≤ cur.errorCountTotal → r.cur.amplitudeThreshold ≤ max 20480 (max 20480 prev.amplitudeThreshold + 6000)) := by
  have hpre : SynthPre U cur prev := ⟨⟨by have := hc.lo; omega, hc.hi⟩, ⟨by have := hp.lo; omega, hp.hi⟩,
    .inl (Base.conv hc.seed), .inl (Base.edge hc.w0 hc.hi), htm⟩
  refine ((synthesizeSpeechf_ok E a out cur prev t u hpre).post fun r h =>
    And.intro (synthesizeSpeechf_frame E a out cur prev t u r h) (synthesizeSpeechf_vl E a out prev t u hc.vl r h)).mono ?_
  rintro r ⟨⟨h1, h2⟩, h3, h4⟩
  refine ⟨⟨?_, ?_, h4, ?_, ?_⟩, by rw [h3.tls_eq], by rw [h3.cur_eq], h2⟩
  · rw [h3.cur_eq]; exact hc.lo
  · rw [h3.cur_eq]; exact hc.hi
  · rw [h3.cur_eq]; exact hc.w0
  · rcases h1 with h1 | h1
    · rw [h1]; exact hc.seed
    · exact Base.next h1 ht

/-- `speak` with what it needs and what it leaves. -/
theorem speak_ok {U : UB → Prop} (E : Env F) (C : Call F) {s : St F} (hc : SetOk s.cur)
    (he : SetOk s.enh) (ht : s.tls.uvSeedState ≤ 2 ^ 24)
    (htm : TmOk s.cur.errorCountTotal s.enh.amplitudeThreshold ∨ U .signedOverflow) (hr : RepOk s.cur) :
    OkU U (speak E C s) fun o => StOk o.2 ∧
      (∀ T, 20480 ≤ T → Lim T s.cur → Lim T s.enh → LimAll (T + 6000) o.2) := by
  have hf := speak_frame E C s
  refine (OkU.post (P := fun o => SetOk o.2.cur ∧ o.2.tls.uvSeedState = s.tls.uvSeedState ∧
    (0 ≤ s.cur.errorCountTotal → o.2.cur.amplitudeThreshold ≤ max 20480 (max 20480 s.enh.amplitudeThreshold + 6000)))
    ?_ hf).mono ?_
  · unfold speak
    refine OkU.bind (Ok.toU ((spectralAmpEnhance_fine C.pc s.cur s.tls hc.hi).post (spectralAmpEnhance_frame _ _ _))) fun q hq => ?_
    obtain ⟨c, t⟩ := q
    obtain ⟨h1, h2⟩ := hq
    dsimp only at h1 h2 ⊢
    have hc' : SetOk c := hc.congr (by rw [h1]) (by rw [h1]) (by rw [h1]) (by rw [h1])
    refine OkU.bind (synth_ok (U := U) E C.pc C.buf C.uvquality hc' he (by rw [h2]; exact ht) (by rw [h1]; exact htm)) fun r hr => ?_
    refine OkU.ok ⟨hr.1, ?_, ?_⟩
    · rw [hr.2.1, h2]
    · have := hr.2.2.2
      rw [h1] at this
      exact this
  · rintro o ⟨⟨h1, h2, h3⟩, f⟩
    refine ⟨⟨h1, by rw [f.prev_eq]; exact hc, by rw [f.enh_eq]; exact h1, by rw [f.prev_eq]; exact hr, by rw [h2]; exact ht⟩, ?_⟩
    intro T hT l1 l2
    have e : o.2.cur.errorCountTotal = s.cur.errorCountTotal := by rw [f.cur_eq]
    have hcur : Lim (T + 6000) o.2.cur := by
      refine ⟨by rw [e]; exact l1.e0, by rw [e]; exact l1.e1, ?_⟩
      have := h3 l1.e0
      have := l2.t
      omega
    exact ⟨hcur, by rw [f.prev_eq]; exact l1.mono (by omega), by rw [f.enh_eq]; exact hcur⟩

theorem noise_fine {U : UB → Prop} (C : Call F) (s : St F) : OkU U (noiseAndReset C s) fun o =>
    o.2.cur = ambeInit ∧ o.2.prev = ambeInit ∧ o.2.enh = ambeInit ∧ o.2.tls.uvSeedState = s.tls.uvSeedState := by
  unfold noiseAndReset
  refine OkU.bind (Ok.toU ((comfortNoisef_fine C.buf s.tls).post (comfortNoisef_frame _ _))) fun r hr => ?_
  rw [initAmbeState_eq, ok_bind]
  refine OkU.ok ⟨rfl, rfl, rfl, ?_⟩
  show r.2.uvSeedState = _
  rw [hr]

theorem noise_stOk {U : UB → Prop} (C : Call F) {s : St F} (ht : s.tls.uvSeedState ≤ 2 ^ 24) :
    OkU U (noiseAndReset C s) fun o => StOk o.2 ∧ ∀ T, 20480 ≤ T → LimAll T o.2 := by
  refine (noise_fine C s).mono fun o h => ?_
  obtain ⟨h1, h2, h3, h4⟩ := h
  have e : o.2 = ⟨ambeInit, ambeInit, ambeInit, o.2.tls⟩ := St.ext h1 h2 h3 rfl
  rw [e]
  refine ⟨stOk_ambeInit (by rw [h4]; exact ht), fun T hT => ⟨ambeInit_lim hT, ambeInit_lim hT, ambeInit_lim hT⟩⟩

theorem repeatLast_ok {U : UB → Prop} {p : Parms F} (h : RepOk p) : OkU U (repeatLast p) fun q =>
    q = { p with repeat_ := p.repeat_ + 1, repeatCount := p.repeatCount + 1 } := by
  have h1 := h.eq; have h2 := h.lo; have h3 := h.hi
  unfold repeatLast
  rw [i32_ok (by omega) (by omega), ok_bind, i32_ok (by omega) (by omega), ok_bind]
  exact OkU.ok rfl

/-! ## Status string -/

theorem putc_u {U : UB → Prop} {cap : Nat} {s : List Char} (c : Char) (h : s.length < cap ∨ U .oobWrite) :
    OkU U (putc cap s c) fun t => t.length = s.length + 1 := by
  unfold putc
  refine OkU.ite (fun _ => OkU.ok (by simp)) fun hn => ?_
  rcases h with h | h
  · exact absurd h hn
  · exact OkU.error h

theorem putOpt_u {U : UB → Prop} {cap : Nat} {s : List Char} (c : Option Char) (h : s.length < cap ∨ U .oobWrite) :
    OkU U (putOpt cap s c) fun t => t.length ≤ s.length + 1 := by
  cases c with
  | none => exact OkU.ok (by omega)
  | some c => exact (putc_u c h).mono fun _ h => by omega

theorem putIf_u {U : UB → Prop} {cap : Nat} {s : List Char} (b : Bool) (c : Char) (h : s.length < cap ∨ U .oobWrite) :
    OkU U (if b then putc cap s c else .ok s) fun t => t.length ≤ s.length + 1 :=
  OkU.ite (fun _ => (putc_u c h).mono fun _ h => by omega) fun _ => OkU.ok (by omega)

theorem putEq_u {U : UB → Prop} {cap : Nat} (n : Int) (h : n.toNat ≤ cap ∨ U .oobWrite) :
    OkU U (putEq cap n) fun t => t.length = n.toNat := by
  unfold putEq
  refine OkU.loop (fun i (s : List Char) => s.length = i) rfl fun i hi s hs => ?_
  refine (putc_u _ ?_).mono fun t ht => by omega
  rcases h with h | h
  · left; omega
  · exact .inr h

end Verif.Model
