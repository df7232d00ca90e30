import Verif.Spec.Cache
import Verif.Lemmas.Exec

/-!
# The caches are invisible: two runs from states that differ in the caches only
-/

set_option linter.unusedSectionVars false

namespace Verif

/-- Two computations fail in the same way or both return, with results related by `P`. -/
inductive Rel {α β : Type} : Exec α → Exec β → (α → β → Prop) → Prop
  | ok {a : α} {b : β} {P : α → β → Prop} (h : P a b) : Rel (.ok a) (.ok b) P
  | error {e : UB} {P : α → β → Prop} : Rel (.error e) (.error e) P

theorem Rel.pure {α β} {a : α} {b : β} {P : α → β → Prop} (h : P a b) :
    Rel (Except.ok a : Exec α) (Except.ok b : Exec β) P := .ok h

theorem Rel.bind {α β γ δ} {x : Exec α} {y : Exec β} {f : α → Exec γ} {g : β → Exec δ} {P : α → β → Prop}
    {Q : γ → δ → Prop} (h : Rel x y P) (hf : ∀ a b, P a b → Rel (f a) (g b) Q) : Rel (x >>= f) (y >>= g) Q := by
  cases h with
  | ok h => exact hf _ _ h
  | error => exact .error

/-- The same computation followed by two continuations. -/
theorem Rel.same {α γ δ} {x : Exec α} {f : α → Exec γ} {g : α → Exec δ} {Q : γ → δ → Prop}
    (hf : ∀ a, Rel (f a) (g a) Q) : Rel (x >>= f) (x >>= g) Q := by
  cases x with
  | ok a => exact hf a
  | error e => exact .error

theorem Rel.ite {α β} {c : Prop} [Decidable c] {x x' : Exec α} {y y' : Exec β} {P : α → β → Prop}
    (h1 : c → Rel x y P) (h2 : ¬c → Rel x' y' P) : Rel (if c then x else x') (if c then y else y') P := by
  by_cases h : c
  · rw [if_pos h, if_pos h]; exact h1 h
  · rw [if_neg h, if_neg h]; exact h2 h

theorem Rel.map_eq {α β γ} {x : Exec α} {y : Exec β} {P : α → β → Prop} (h : Rel x y P) {f : α → γ} {g : β → γ}
    (hpq : ∀ a b, P a b → f a = g b) : x.map f = y.map g := by
  cases h with
  | ok h => exact congrArg Except.ok (hpq _ _ h)
  | error => rfl

theorem Rel.of_ok {α β} {x : Exec α} {y : Exec β} {P : α → β → Prop} (h : Rel x y P) {a : α} (e : x = .ok a) :
    ∃ b, y = .ok b ∧ P a b := by
  cases h with
  | ok h => cases e; exact ⟨_, rfl, h⟩
  | error => cases e

theorem loop_rel {σ τ} {n : Nat} {f : Nat → σ → Exec σ} {g : Nat → τ → Exec τ} {s : σ} {t : τ} {P : σ → τ → Prop}
    (h0 : P s t) (hs : ∀ i s t, P s t → Rel (f i s) (g i t) P) : Rel (loop n f s) (loop n g t) P := by
  induction n with
  | zero => exact Rel.pure h0
  | succ n ih => rw [loop_succ, loop_succ]; exact ih.bind fun a b h => hs n a b h

end Verif

namespace Verif.Model
open Verif Verif.Gen Verif.Spec Arith

variable {F : Type} [Arith F]

/-- Equal up to the caches, which are in order on both sides. -/
structure Sim (E : Env F) (t t' : Tls F) : Prop where
  eq : dropCaches t = dropCaches t'
  l : CacheOk E t
  r : CacheOk E t'

theorem CacheOk.start (E : Env F) : CacheOk E Tls.start := by
  refine ⟨?_, ?_, ?_, ?_⟩ <;> intro c h <;> cases h

theorem CacheOk.drop (E : Env F) (t : Tls F) : CacheOk E (dropCaches t) := by
  refine ⟨?_, ?_, ?_, ?_⟩ <;> intro c h <;> cases h

theorem Sim.refl {E : Env F} {t : Tls F} (h : CacheOk E t) : Sim E t t := ⟨rfl, h, h⟩

theorem Sim.drop {E : Env F} {t : Tls F} (h : CacheOk E t) : Sim E t (dropCaches t) := ⟨rfl, h, CacheOk.drop E t⟩

/-- Changing the other variables in the same way. -/
theorem Sim.upd {E : Env F} {t t' : Tls F} (h : Sim E t t') (u : Tls F → Tls F)
    (hu : ∀ (t : Tls F) k2 k3 k4 k5, u { t with imbeCache := k2, ambe2450Cache := k3, ambe2400Cache := k4, plan := k5 } =
      { u t with imbeCache := k2, ambe2450Cache := k3, ambe2400Cache := k4, plan := k5 }) : Sim E (u t) (u t') := by
  have key : ∀ t : Tls F, u t = { u (dropCaches t) with
      imbeCache := t.imbeCache, ambe2450Cache := t.ambe2450Cache, ambe2400Cache := t.ambe2400Cache, plan := t.plan } := by
    intro t
    rw [← hu]
    rfl
  obtain ⟨he, hl, hr⟩ := h
  rw [key t, key t', he]
  exact ⟨rfl, hl, hr⟩

theorem Sim.cases {E : Env F} {t t' : Tls F} (h : Sim E t t') : ∃ k2 k3 k4 k5,
    t' = { t with imbeCache := k2, ambe2450Cache := k3, ambe2400Cache := k4, plan := k5 } := by
  refine ⟨t'.imbeCache, t'.ambe2450Cache, t'.ambe2400Cache, t'.plan, ?_⟩
  have he := h.eq
  obtain ⟨a1, a2, a3, a4, a5, a6, a7, a8, a9, a10, a11, a12⟩ := t
  obtain ⟨b1, b2, b3, b4, b5, b6, b7, b8, b9, b10, b11, b12⟩ := t'
  cases he
  rfl

theorem comfortNoisef_sim {E : Env F} (b : Arr 160 F) {t t' : Tls F} (h : Sim E t t') :
    Rel (comfortNoisef b t) (comfortNoisef b t') fun r r' => r.1 = r'.1 ∧ Sim E r.2 r'.2 := by
  unfold comfortNoisef
  refine loop_rel (P := fun (r r' : Arr 160 F × Tls F) => r.1 = r'.1 ∧ Sim E r.2 r'.2) ⟨rfl, h⟩ ?_
  rintro i ⟨a, t⟩ ⟨a', t'⟩ ⟨h1, h2⟩
  dsimp only at h1 h2 ⊢
  subst h1
  have hv : (javaNext24 t).1 = (javaNext24 t').1 := by
    have := congrArg (fun t => (javaNext24 t).1) h2.eq
    exact this
  rw [hv]
  exact Rel.same fun o => Rel.pure ⟨rfl, h2.upd (fun t => (javaNext24 t).2) fun _ _ _ _ _ => rfl⟩

theorem noiseOverlap_sim {E : Env F} (b : Arr 256 F) (sd : F) (ov : Arr 96 F) {t t' : Tls F} (h : Sim E t t') :
    Rel (noiseOverlap b sd ov t) (noiseOverlap b sd ov t')
      fun r r' => r.buf = r'.buf ∧ r.seed = r'.seed ∧ r.overlap = r'.overlap ∧ Sim E r.tls r'.tls := by
  obtain ⟨k2, k3, k4, k5, rfl⟩ := h.cases
  unfold noiseOverlap
  refine Rel.ite (fun _ => Rel.ite (fun _ => ?_) fun _ => ?_) fun _ => ?_
  · exact Rel.pure ⟨rfl, rfl, rfl, h.upd (fun t => { t with uvSeedOverride := false }) fun _ _ _ _ _ => rfl⟩
  · exact Rel.pure ⟨rfl, rfl, rfl, h⟩
  · exact Rel.same fun _ => Rel.same fun _ => Rel.same fun _ => Rel.same fun _ => Rel.pure ⟨rfl, rfl, rfl, h⟩

theorem setPreEnhRm0_sim {E : Env F} (o : Nat) (x : F) {t t' : Tls F} (h : Sim E t t') :
    Sim E (setPreEnhRm0 o x t) (setPreEnhRm0 o x t') :=
  h.upd (setPreEnhRm0 o x) fun _ _ _ _ _ => by
    unfold setPreEnhRm0
    split <;> rfl

theorem spectralAmpEnhance_sim {E : Env F} (o : Nat) (p : Parms F) {t t' : Tls F} (h : Sim E t t') :
    Rel (spectralAmpEnhance o p t) (spectralAmpEnhance o p t') fun r r' => r.1 = r'.1 ∧ Sim E r.2 r'.2 := by
  unfold spectralAmpEnhance
  exact Rel.same fun _ => Rel.same fun r => Rel.same fun _ => Rel.same fun _ => Rel.same fun _ => 
    Rel.pure ⟨rfl, setPreEnhRm0_sim o r.1 h⟩

theorem smoothRm0_sim {E : Env F} (o : Nat) (p : Parms F) {t t' : Tls F} (h : Sim E t t') :
    Rel (smoothRm0 o p t) (smoothRm0 o p t') fun r r' => r.1 = r'.1 ∧ Sim E r.2 r'.2 := by
  obtain ⟨k2, k3, k4, k5, rfl⟩ := h.cases
  unfold smoothRm0
  refine Rel.ite (fun _ => ?_) fun _ => ?_
  · exact Rel.pure ⟨rfl, h.upd (fun t => { t with preEnhValid := false, preEnhOwner := 0 }) fun _ _ _ _ _ => rfl⟩
  · exact Rel.same fun _ => Rel.pure ⟨rfl, h⟩

theorem applySmoothing_sim {E : Env F} (o : Nat) (cur prev : Parms F) {t t' : Tls F} (h : Sim E t t') :
    Rel (applySmoothing o cur prev t) (applySmoothing o cur prev t') fun r r' => r.1 = r'.1 ∧ Sim E r.2 r'.2 := by
  unfold applySmoothing
  refine (smoothRm0_sim o cur h).bind ?_
  rintro ⟨a, t⟩ ⟨a', t'⟩ ⟨h1, h2⟩
  dsimp only at h1 h2 ⊢
  subst h1
  exact Rel.same fun _ => Rel.same fun _ => Rel.same fun _ => Rel.same fun _ => Rel.pure ⟨rfl, h2⟩

theorem getPlan_sim {E : Env F} {t t' : Tls F} (h : Sim E t t') :
    Rel (getPlan E t) (getPlan E t') fun r r' => r.1 = r'.1 ∧ Sim E r.2 r'.2 := by
  obtain ⟨he, hl, hr⟩ := h
  have mk : ∀ (t : Tls F) P, CacheOk E t → E.alloc = true → planFill planRaw = .ok P →
      CacheOk E { t with plan := some P } := by
    intro t P h a b
    refine ⟨h.1, h.2.1, h.2.2.1, fun Q hq => ?_⟩
    cases hq
    exact ⟨a, b⟩
  unfold getPlan
  cases h1 : t.plan with
  | some P =>
    obtain ⟨ha, hp⟩ := hl.2.2.2 P h1
    cases h2 : t'.plan with
    | some P' =>
      obtain ⟨_, hp'⟩ := hr.2.2.2 P' h2
      rw [hp] at hp'
      cases hp'
      exact Rel.pure ⟨rfl, he, hl, hr⟩
    | none =>
      dsimp only
      rw [if_pos ha, hp]
      exact Rel.pure ⟨rfl, he, hl, mk t' P hr ha hp⟩
  | none =>
    cases h2 : t'.plan with
    | some P' =>
      obtain ⟨ha, hp⟩ := hr.2.2.2 P' h2
      dsimp only
      rw [if_pos ha, hp]
      exact Rel.pure ⟨rfl, he, mk t P' hl ha hp, hr⟩
    | none =>
      dsimp only
      by_cases ha : E.alloc = true
      · rw [if_pos ha, if_pos ha]
        cases hp : (planFill planRaw : Exec (Plan F)) with
        | error e => exact Rel.error
        | ok P => exact Rel.pure ⟨rfl, he, mk t P hl ha hp, mk t' P hr ha hp⟩
      · rw [if_neg ha, if_neg ha]
        exact Rel.pure ⟨rfl, he, hl, hr⟩

/-- Results of a synthesis call that agree up to the caches. -/
structure SimRes (E : Env F) (r r' : SynthRes F) : Prop where
  out : r.out = r'.out
  cur : r.cur = r'.cur
  prev : r.prev = r'.prev
  tls : Sim E r.tls r'.tls

theorem synthUnmuted_sim {E : Env F} (cur prev : Parms F) {t t' : Tls F} (h : Sim E t t') :
    Rel (synthUnmuted E cur prev t) (synthUnmuted E cur prev t') (SimRes E) := by
  unfold synthUnmuted
  refine (noiseOverlap_sim _ _ _ h).bind ?_
  rintro ⟨b, s, o, t⟩ ⟨b', s', o', t'⟩ ⟨h1, h2, h3, h4⟩
  dsimp only at h1 h2 h3 h4 ⊢
  subst h1 h2 h3
  refine Rel.same fun _ => Rel.same fun q => Rel.same fun q2 => Rel.same fun _ => ?_
  refine (getPlan_sim h4).bind ?_
  rintro ⟨p, t⟩ ⟨p', t'⟩ ⟨h5, h6⟩
  dsimp only at h5 h6 ⊢
  subst h5
  cases p with
  | none => exact Rel.same fun _ => Rel.pure ⟨rfl, rfl, rfl, h6⟩
  | some P => exact Rel.same fun _ => Rel.same fun _ => Rel.pure ⟨rfl, rfl, rfl, h6⟩

theorem synthesizeSpeechf_sim {E : Env F} (a : Nat) (b : Arr 160 F) (cur prev : Parms F) {t t' : Tls F} (q : Int)
    (h : Sim E t t') :
    Rel (synthesizeSpeechf E a b cur prev t q) (synthesizeSpeechf E a b cur prev t' q) (SimRes E) := by
  unfold synthesizeSpeechf
  refine (applySmoothing_sim a cur prev h).bind ?_
  rintro ⟨c, t⟩ ⟨c', t'⟩ ⟨h1, h2⟩
  dsimp only at h1 h2 ⊢
  subst h1
  refine Rel.ite (fun _ => ?_) fun _ => synthUnmuted_sim _ _ h2
  exact (comfortNoisef_sim b h2).bind fun r r' h => Rel.pure ⟨h.1, rfl, rfl, h.2⟩

/-- Decoder results that agree up to the caches. -/
structure SimDec (E : Env F) (r r' : DecodeRes F) : Prop where
  bad : r.bad = r'.bad
  cur : r.cur = r'.cur
  prev : r.prev = r'.prev
  tls : Sim E r.tls r'.tls

theorem imbeGetCache_sim {E : Env F} {t t' : Tls F} (h : Sim E t t') :
    (imbeGetCache t).1 = (imbeGetCache t').1 ∧ Sim E (imbeGetCache t).2 (imbeGetCache t').2 := by
  have key : ∀ t : Tls F, CacheOk E t → (imbeGetCache t).1 = fillCache 7 11 ∧ CacheOk E (imbeGetCache t).2 ∧
      dropCaches (imbeGetCache t).2 = dropCaches t := by
    intro t h
    unfold imbeGetCache
    cases h1 : t.imbeCache with
    | some c => exact ⟨h.1 c h1, h, rfl⟩
    | none =>
      refine ⟨rfl, ⟨?_, h.2⟩, rfl⟩
      intro c hc; cases hc; rfl
  obtain ⟨a1, a2, a3⟩ := key t h.l
  obtain ⟨b1, b2, b3⟩ := key t' h.r
  exact ⟨a1.trans b1.symm, by rw [a3, b3, h.eq], a2, b2⟩

theorem ambe2450GetCache_sim {E : Env F} {t t' : Tls F} (h : Sim E t t') :
    (ambe2450GetCache t).1 = (ambe2450GetCache t').1 ∧ Sim E (ambe2450GetCache t).2 (ambe2450GetCache t').2 := by
  have key : ∀ t : Tls F, CacheOk E t → (ambe2450GetCache t).1 = fillCache 9 18 ∧ CacheOk E (ambe2450GetCache t).2 ∧
      dropCaches (ambe2450GetCache t).2 = dropCaches t := by
    intro t h
    unfold ambe2450GetCache
    cases h1 : t.ambe2450Cache with
    | some c => exact ⟨h.2.1 c h1, h, rfl⟩
    | none =>
      refine ⟨rfl, ⟨h.1, ?_, h.2.2⟩, rfl⟩
      intro c hc; cases hc; rfl
  obtain ⟨a1, a2, a3⟩ := key t h.l
  obtain ⟨b1, b2, b3⟩ := key t' h.r
  exact ⟨a1.trans b1.symm, by rw [a3, b3, h.eq], a2, b2⟩

theorem ambe2400GetCache_sim {E : Env F} {t t' : Tls F} (h : Sim E t t') :
    (ambe2400GetCache t).1 = (ambe2400GetCache t').1 ∧ Sim E (ambe2400GetCache t).2 (ambe2400GetCache t').2 := by
  have key : ∀ t : Tls F, CacheOk E t → (ambe2400GetCache t).1 = fillCache 9 18 ∧ CacheOk E (ambe2400GetCache t).2 ∧
      dropCaches (ambe2400GetCache t).2 = dropCaches t := by
    intro t h
    unfold ambe2400GetCache
    cases h1 : t.ambe2400Cache with
    | some c => exact ⟨h.2.2.1 c h1, h, rfl⟩
    | none =>
      refine ⟨rfl, ⟨h.1, h.2.1, ?_, h.2.2.2⟩, rfl⟩
      intro c hc; cases hc; rfl
  obtain ⟨a1, a2, a3⟩ := key t h.l
  obtain ⟨b1, b2, b3⟩ := key t' h.r
  exact ⟨a1.trans b1.symm, by rw [a3, b3, h.eq], a2, b2⟩

theorem decodeImbe4400_sim {E : Env F} (lax : Bool) (d : Nat → Int) (cur prev : Parms F) {t t' : Tls F}
    (h : Sim E t t') : Rel (decodeImbe4400 lax d cur prev t) (decodeImbe4400 lax d cur prev t') (SimDec E) := by
  unfold decodeImbe4400
  refine Rel.same fun b0 => Rel.ite (fun _ => Rel.pure ⟨rfl, rfl, rfl, h⟩) fun _ => Rel.same fun L =>
    Rel.ite (fun _ => Rel.pure ⟨rfl, rfl, rfl, h⟩) fun _ => Rel.same fun K => ?_
  unfold imbeDecodeBody
  obtain ⟨h1, h2⟩ := imbeGetCache_sim h
  dsimp only
  rw [h1]
  exact Rel.same fun _ => Rel.same fun _ => Rel.same fun _ => Rel.same fun _ => Rel.same fun _ => Rel.same fun _ =>
    Rel.same fun _ => Rel.same fun _ => Rel.same fun _ => Rel.pure ⟨rfl, rfl, rfl, h2⟩

theorem decodeAmbe2450_sim {E : Env F} (lax : Bool) (d : Nat → Int) (te : Int) (cur prev : Parms F) {t t' : Tls F}
    (h : Sim E t t') :
    Rel (decodeAmbe2450 lax d te cur prev t) (decodeAmbe2450 lax d te cur prev t') (SimDec E) := by
  unfold decodeAmbe2450
  refine Rel.same fun _ => Rel.same fun b0 => Rel.ite (fun _ => Rel.pure ⟨rfl, rfl, rfl, h⟩) fun _ =>
    Rel.ite (fun _ => Rel.pure ⟨rfl, rfl, rfl, h⟩) fun _ => Rel.ite (fun _ => Rel.pure ⟨rfl, rfl, rfl, h⟩) fun _ => ?_
  unfold ambe2450Voice
  obtain ⟨h1, h2⟩ := ambe2450GetCache_sim h
  dsimp only
  rw [h1]
  exact Rel.same fun _ => Rel.same fun _ => Rel.same fun _ => Rel.same fun _ => Rel.same fun _ => Rel.pure ⟨rfl, rfl, rfl, h2⟩

theorem decodeAmbe2400_sim {E : Env F} (lax : Bool) (d : Nat → Int) (cur prev : Parms F) {t t' : Tls F}
    (h : Sim E t t') : Rel (decodeAmbe2400 lax d cur prev t) (decodeAmbe2400 lax d cur prev t') (SimDec E) := by
  unfold decodeAmbe2400
  refine Rel.same fun b0 => Rel.ite (fun _ => Rel.same fun b1 => Rel.ite (fun _ => Rel.pure ⟨rfl, rfl, rfl, h⟩) fun _ =>
    Rel.ite (fun _ => Rel.pure ⟨rfl, rfl, rfl, h⟩) fun _ => Rel.same fun _ => Rel.pure ⟨rfl, rfl, rfl, h⟩) fun _ => ?_
  unfold ambe2400Voice
  obtain ⟨h1, h2⟩ := ambe2400GetCache_sim h
  dsimp only
  rw [h1]
  exact Rel.same fun _ => Rel.same fun _ => Rel.same fun _ => Rel.same fun _ => Rel.same fun _ => Rel.same fun _ => 
    Rel.pure ⟨rfl, rfl, rfl, h2⟩

/-! ## Decoder states -/

/-- Decoder states that agree up to the caches. -/
structure SimSt (E : Env F) (s s' : St F) : Prop where
  cur : s.cur = s'.cur
  prev : s.prev = s'.prev
  enh : s.enh = s'.enh
  tls : Sim E s.tls s'.tls

/-- Outputs that agree up to the caches. -/
structure SimOut (E : Env F) (o o' : Out F) : Prop where
  pcm : o.pcm = o'.pcm
  str : o.str = o'.str
  st : SimSt E o.st o'.st

theorem initMbeState_sim {E : Env F} {s s' : St F} (h : SimSt E s s') :
    Rel (initMbeState s) (initMbeState s') (SimSt E) := by
  unfold initMbeState
  rw [h.prev]
  exact Rel.same fun _ => Rel.pure ⟨rfl, rfl, rfl, h.tls⟩

theorem initAmbeState_sim {E : Env F} {s s' : St F} (h : SimSt E s s') :
    Rel (initAmbeState s) (initAmbeState s') (SimSt E) := by
  unfold initAmbeState
  rw [h.prev]
  exact Rel.same fun _ => Rel.pure ⟨rfl, rfl, rfl, h.tls⟩

theorem noiseAndReset_sim {E : Env F} (C : Call F) {s s' : St F} (h : SimSt E s s') :
    Rel (noiseAndReset C s) (noiseAndReset C s') fun r r' => r.1 = r'.1 ∧ SimSt E r.2 r'.2 := by
  unfold noiseAndReset
  refine (comfortNoisef_sim C.buf h.tls).bind fun r r' hr => ?_
  refine (initAmbeState_sim (s := { s with tls := r.2 }) (s' := { s' with tls := r'.2 })
    ⟨h.cur, h.prev, h.enh, hr.2⟩).bind fun a b hab => Rel.pure ⟨hr.1, hab⟩

theorem speak_sim {E : Env F} (C : Call F) {s s' : St F} (h : SimSt E s s') :
    Rel (speak E C s) (speak E C s') fun r r' => r.1 = r'.1 ∧ SimSt E r.2 r'.2 := by
  unfold speak
  rw [h.cur, h.enh]
  refine (spectralAmpEnhance_sim C.pc s'.cur h.tls).bind ?_
  rintro ⟨c, t⟩ ⟨c', t'⟩ ⟨h1, h2⟩
  dsimp only at h1 h2 ⊢
  subst h1
  refine (synthesizeSpeechf_sim C.pc C.buf c s'.enh C.uvquality h2).bind fun r r' hr => ?_
  exact Rel.pure ⟨hr.out, hr.cur, rfl, hr.cur, hr.tls⟩

theorem replayEnhanced_sim {E : Env F} (C : Call F) {s s' : St F} (h : SimSt E s s') :
    Rel (replayEnhanced E C s) (replayEnhanced E C s') fun r r' => r.1 = r'.1 ∧ SimSt E r.2 r'.2 := by
  unfold replayEnhanced
  rw [h.enh]
  exact (synthesizeSpeechf_sim C.ps C.buf s'.enh s'.enh C.uvquality h.tls).bind fun r r' hr => 
    Rel.pure ⟨hr.out, h.cur, h.prev, hr.cur, hr.tls⟩

theorem processImbe4400_sim {E : Env F} (C : Call F) (c0 : Option Int) (errs2 : Int) (d : Nat → Int) {s s' : St F}
    (h : SimSt E s s') : Rel (processImbe4400 E C c0 errs2 d s) (processImbe4400 E C c0 errs2 d s') (SimOut E) := by
  obtain ⟨c, p, e, t⟩ := s
  obtain ⟨c', p', e', t'⟩ := s'
  obtain ⟨h1, h2, h3, h4⟩ := h
  dsimp only at h1 h2 h3 h4
  subst h1 h2 h3
  unfold processImbe4400 imbePrepare
  dsimp only
  refine Rel.same fun str => (decodeImbe4400_sim E.lax d _ p h4).bind fun r r' hr => ?_
  rw [hr.bad, hr.cur, hr.prev]
  refine Rel.same fun cur => Rel.same fun str => ?_
  refine (speak_sim C (s := ⟨cur, r'.prev, e, r.tls⟩) (s' := ⟨cur, r'.prev, e, r'.tls⟩)
    ⟨rfl, rfl, rfl, hr.tls⟩).bind fun o o' ho => ?_
  exact Rel.same fun _ => Rel.same fun _ => Rel.pure ⟨ho.1, rfl, ho.2⟩

theorem ambePrepare_sim {E : Env F} (errs2 : Int) {s s' : St F} (h : SimSt E s s') :
    Rel (ambePrepare errs2 s) (ambePrepare errs2 s') (SimSt E) := by
  unfold ambePrepare ensureAmbeDefaults
  rw [h.prev]
  refine Rel.bind (P := SimSt E) (Rel.ite (fun _ => initAmbeState_sim h) fun _ => Rel.pure h) fun a b hab => ?_
  rw [hab.cur, hab.prev]
  exact Rel.pure ⟨rfl, rfl, hab.enh, hab.tls⟩

theorem ambe2450Render_sim {E : Env F} (C : Call F) (bad : Int) (d : Nat → Int) {s s' : St F} (h : SimSt E s s') :
    Rel (ambe2450Render E C bad d s) (ambe2450Render E C bad d s')
      fun r r' => r.1 = r'.1 ∧ r.2.1 = r'.2.1 ∧ SimSt E r.2.2 r'.2.2 := by
  unfold ambe2450Render
  rw [h.cur, h.prev]
  refine Rel.ite (fun _ => Rel.ite (fun _ => ?_) fun _ => ?_) fun _ => Rel.ite (fun _ => Rel.same fun v =>
    Rel.ite (fun _ => Rel.same fun r => ?_) fun _ => Rel.ite (fun _ => ?_) fun _ => ?_) fun _ =>
    Rel.ite (fun _ => ?_) fun _ => ?_
  · exact (speak_sim C h).bind fun o o' ho => Rel.pure ⟨ho.1, rfl, ho.2⟩
  · exact (noiseAndReset_sim C h).bind fun o o' ho => Rel.pure ⟨ho.1, rfl, ho.2⟩
  · exact Rel.pure ⟨rfl, rfl, rfl, rfl, h.enh, h.tls⟩
  · exact (noiseAndReset_sim C h).bind fun o o' ho => Rel.pure ⟨ho.1, rfl, ho.2⟩
  · exact (replayEnhanced_sim C h).bind fun o o' ho => Rel.pure ⟨ho.1, rfl, ho.2⟩
  · exact (comfortNoisef_sim C.buf h.tls).bind fun o o' ho => Rel.pure ⟨ho.1, rfl, rfl, rfl, rfl, ho.2⟩
  · exact (noiseAndReset_sim C h).bind fun o o' ho => Rel.pure ⟨ho.1, rfl, ho.2⟩

theorem ambe2400Render_sim {E : Env F} (C : Call F) (bad : Int) {s s' : St F} (h : SimSt E s s') :
    Rel (ambe2400Render E C bad s) (ambe2400Render E C bad s')
      fun r r' => r.1 = r'.1 ∧ r.2.1 = r'.2.1 ∧ SimSt E r.2.2 r'.2.2 := by
  unfold ambe2400Render
  rw [h.cur]
  refine Rel.ite (fun _ => Rel.ite (fun _ => ?_) fun _ => ?_) fun _ => Rel.ite (fun _ => ?_) fun _ => ?_
  · exact (speak_sim C h).bind fun o o' ho => Rel.pure ⟨ho.1, rfl, ho.2⟩
  · exact (noiseAndReset_sim C h).bind fun o o' ho => Rel.pure ⟨ho.1, rfl, ho.2⟩
  · exact (comfortNoisef_sim C.buf h.tls).bind fun o o' ho => Rel.pure ⟨ho.1, rfl, rfl, rfl, rfl, ho.2⟩
  · exact (noiseAndReset_sim C h).bind fun o o' ho => Rel.pure ⟨ho.1, rfl, ho.2⟩

theorem processAmbe2450_sim {E : Env F} (C : Call F) (c0 : Option Int) (errs2 : Int) (d : Nat → Int) {s s' : St F}
    (h : SimSt E s s') : Rel (processAmbe2450 E C c0 errs2 d s) (processAmbe2450 E C c0 errs2 d s') (SimOut E) := by
  unfold processAmbe2450
  refine (ambePrepare_sim errs2 h).bind fun s s' h => ?_
  refine Rel.same fun str => ?_
  rw [h.cur, h.prev, h.enh]
  refine (decodeAmbe2450_sim E.lax d errs2 _ _ h.tls).bind fun r r' hr => ?_
  rw [hr.bad, hr.cur, hr.prev]
  refine Rel.same fun v => Rel.same fun str => ?_
  refine (ambe2450Render_sim C r'.bad d (s := ⟨v.1, r'.prev, s'.enh, r.tls⟩) (s' := ⟨v.1, r'.prev, s'.enh, r'.tls⟩)
    ⟨rfl, rfl, rfl, hr.tls⟩).bind fun o o' ho => ?_
  rw [ho.2.1]
  exact Rel.same fun _ => Rel.same fun _ => Rel.pure ⟨ho.1, rfl, ho.2.2⟩

theorem processAmbe2400_sim {E : Env F} (C : Call F) (errs errs2 : Int) (d : Nat → Int) {s s' : St F}
    (h : SimSt E s s') :
    Rel (processAmbe2400 E C errs errs2 d s) (processAmbe2400 E C errs errs2 d s') (SimOut E) := by
  unfold processAmbe2400
  refine (ambePrepare_sim errs2 h).bind fun s s' h => ?_
  refine Rel.same fun str => ?_
  rw [h.cur, h.prev, h.enh]
  refine (decodeAmbe2400_sim E.lax d _ _ h.tls).bind fun r r' hr => ?_
  rw [hr.bad, hr.cur, hr.prev]
  refine Rel.same fun v => Rel.same fun str => ?_
  refine (ambe2400Render_sim { C with buf := v.buf } r'.bad (s := ⟨v.cur, v.prev, s'.enh, r.tls⟩)
    (s' := ⟨v.cur, v.prev, s'.enh, r'.tls⟩) ⟨rfl, rfl, rfl, hr.tls⟩).bind fun o o' ho => ?_
  rw [ho.2.1]
  exact Rel.same fun _ => Rel.same fun _ => Rel.pure ⟨ho.1, rfl, ho.2.2⟩

theorem SimSt.seen {E : Env F} {s s' : St F} (h : SimSt E s s') : St.dropCaches s = St.dropCaches s' := by
  unfold St.dropCaches
  rw [h.cur, h.prev, h.enh, h.tls.eq]

theorem SimOut.seen {E : Env F} {o o' : Out F} (h : SimOut E o o') : Out.seen o = Out.seen o' := by
  unfold Out.seen
  rw [h.pcm, h.str, h.st.seen]

theorem SimSt.c4 {E : Env F} {s s' : St F} (h : SimSt E s s') (n : Int) :
    SimSt E { s with cur := { s.cur with errorCount4 := n } } { s' with cur := { s'.cur with errorCount4 := n } } := by
  refine ⟨?_, h.prev, h.enh, h.tls⟩
  dsimp only
  rw [h.cur]

theorem imbeOp_sim {E : Env F} (op : ImbeOp F) {s s' : St F} (h : SimSt E s s') :
    Rel (op.run E s) (op.run E s') (SimOut E) := by
  unfold ImbeOp.run
  cases op.counts with
  | none => exact processImbe4400_sim _ _ _ _ h
  | some c => exact processImbe4400_sim _ _ _ _ (h.c4 c.2)

theorem ambeOp_sim {E : Env F} (op : AmbeOp F) {s s' : St F} (h : SimSt E s s') :
    Rel (op.run E s) (op.run E s') (SimOut E) := by
  cases op with
  | v2450 C c0 e d => exact processAmbe2450_sim _ _ _ _ h
  | v2400 C e e2 d => exact processAmbe2400_sim _ _ _ _ h

/-- Frame outputs that agree up to the caches. -/
def SimFrame (E : Env F) (o o' : FrameOut F) : Prop := o.ecc = o'.ecc ∧ SimOut E o.out o'.out

theorem imbe7200Frame_sim {E : Env F} (C : Call F) (fr : Frame) (d : Nat → Int) {s s' : St F} (h : SimSt E s s') :
    Rel (processImbe7200Framef E C fr d s) (processImbe7200Framef E C fr d s') (SimFrame E) := by
  unfold processImbe7200Framef
  exact Rel.same fun e => (processImbe4400_sim _ _ _ _ (h.c4 _)).bind fun o o' ho => Rel.pure ⟨rfl, ho⟩

theorem imbe7100Frame_sim {E : Env F} (C : Call F) (fr : Frame) (d : Nat → Int) {s s' : St F} (h : SimSt E s s') :
    Rel (processImbe7100Framef E C fr d s) (processImbe7100Framef E C fr d s') (SimFrame E) := by
  unfold processImbe7100Framef
  exact Rel.same fun e => Rel.same fun d => (processImbe4400_sim _ _ _ _ (h.c4 _)).bind fun o o' ho => Rel.pure ⟨rfl, ho⟩

theorem ambe2450Frame_sim {E : Env F} (C : Call F) (fr : Frame) (d : Nat → Int) {s s' : St F} (h : SimSt E s s') :
    Rel (processAmbe2450Framef E C fr d s) (processAmbe2450Framef E C fr d s') (SimFrame E) := by
  unfold processAmbe2450Framef
  exact Rel.same fun e => (processAmbe2450_sim _ _ _ _ h).bind fun o o' ho => Rel.pure ⟨rfl, ho⟩

theorem ambe2400Frame_sim {E : Env F} (C : Call F) (fr : Frame) (d : Nat → Int) {s s' : St F} (h : SimSt E s s') :
    Rel (processAmbe2400Framef E C fr d s) (processAmbe2400Framef E C fr d s') (SimFrame E) := by
  unfold processAmbe2400Framef
  exact Rel.same fun e => (processAmbe2400_sim _ _ _ _ h).bind fun o o' ho => Rel.pure ⟨rfl, ho⟩

theorem setThreadRngSeed_sim {E : Env F} (n : Nat) {t t' : Tls F} (h : Sim E t t') :
    Sim E (setThreadRngSeed n t) (setThreadRngSeed n t') :=
  h.upd (setThreadRngSeed n) fun _ _ _ _ _ => rfl

theorem api_sim {E : Env F} (a : Api F) {s s' : St F} (h : SimSt E s s') :
    Rel (a.run E s) (a.run E s') (SimSt E) := by
  cases a with
  | imbe7200Frame C fr d => exact (imbe7200Frame_sim C fr d h).bind fun o o' ho => Rel.pure ho.2.st
  | imbe7100Frame C fr d => exact (imbe7100Frame_sim C fr d h).bind fun o o' ho => Rel.pure ho.2.st
  | ambe2450Frame C fr d => exact (ambe2450Frame_sim C fr d h).bind fun o o' ho => Rel.pure ho.2.st
  | ambe2400Frame C fr d => exact (ambe2400Frame_sim C fr d h).bind fun o o' ho => Rel.pure ho.2.st
  | imbeData C e e2 d => exact (processImbe4400_sim C none e2 d h).bind fun o o' ho => Rel.pure ho.st
  | ambe2450Data C e e2 d => exact (processAmbe2450_sim C none e2 d h).bind fun o o' ho => Rel.pure ho.st
  | ambe2400Data C e e2 d => exact (processAmbe2400_sim C e e2 d h).bind fun o o' ho => Rel.pure ho.st
  | initMbe => exact initMbeState_sim h
  | initAmbe => exact initAmbeState_sim h
  | seed n => exact Rel.pure ⟨h.cur, h.prev, h.enh, setThreadRngSeed_sim n h.tls⟩

theorem runApi_sim {E : Env F} (as : List (Api F)) {s s' : St F} (h : SimSt E s s') :
    Rel (runApi E as s) (runApi E as s') (SimSt E) := by
  induction as generalizing s s' with
  | nil => exact Rel.pure h
  | cons a as ih => exact (api_sim a h).bind fun s s' h => ih h

theorem fresh_cacheOk {E : Env F} {s : St F} (h : Fresh s) : CacheOk E s.tls := by
  obtain ⟨s0, ht, h | h⟩ := h
  · obtain ⟨p, _, hp⟩ := bind_ok h
    cases ok_inj hp
    show CacheOk E s0.tls
    rw [ht]; exact CacheOk.start E
  · obtain ⟨p, _, hp⟩ := bind_ok h
    cases ok_inj hp
    show CacheOk E s0.tls
    rw [ht]; exact CacheOk.start E

/-- After any calls on a thread that started with empty caches, the caches are in order. -/
theorem runApi_cacheOk {E : Env F} (as : List (Api F)) {s s' : St F} (h : CacheOk E s.tls) (hr : runApi E as s = .ok s') :
    CacheOk E s'.tls := by
  obtain ⟨b, hb, hs⟩ := (runApi_sim as (s := s) (s' := s) ⟨rfl, rfl, rfl, Sim.refl h⟩).of_ok hr
  exact hs.tls.l

end Verif.Model
