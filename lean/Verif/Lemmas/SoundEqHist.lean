import Verif.Lemmas.SoundEq
import Verif.Lemmas.RepeatHist
import Verif.Lemmas.FinEnh
import Verif.Lemmas.Payload

/-!
# Calls with few errors
-/

set_option linter.unusedSectionVars false

namespace Verif.Model
open Verif Verif.Gen Verif.Spec Verif.Num Arith

section
variable {F : Type} [Arith F]

/-- The relation holds between the results if both computations are defined. -/
def Both {α β : Type} (x : Exec α) (y : Exec β) (P : α → β → Prop) : Prop := ∀ a b, x = .ok a → y = .ok b → P a b

theorem Both.bind {α β γ δ} {x : Exec α} {y : Exec β} {f : α → Exec γ} {g : β → Exec δ} (P : α → β → Prop)
    {Q : γ → δ → Prop} (h : Both x y P) (hf : ∀ a b, P a b → Both (f a) (g b) Q) : Both (x >>= f) (y >>= g) Q := by
  intro c d hc hd
  obtain ⟨a, ha, ha'⟩ := bind_ok hc
  obtain ⟨b, hb, hb'⟩ := bind_ok hd
  exact hf a b (h a b ha hb) c d ha' hb'

/-- Parts whose results do not matter. -/
theorem Both.skip {α β γ δ} {x : Exec α} {y : Exec β} {f : α → Exec γ} {g : β → Exec δ} {Q : γ → δ → Prop}
    (hf : ∀ a b, Both (f a) (g b) Q) : Both (x >>= f) (y >>= g) Q :=
  Both.bind (fun _ _ => True) (fun _ _ _ _ => trivial) fun a b _ => hf a b

theorem Both.pure {α β} {a : α} {b : β} {P : α → β → Prop} (h : P a b) : Both (Except.ok a : Exec α) (Except.ok b : Exec β) P := by
  intro x y hx hy
  rw [← ok_inj hx, ← ok_inj hy]
  exact h

theorem Both.of {α β} {x : Exec α} {y : Exec β} {P : α → β → Prop} (h : Rel x y P) : Both x y P := by
  intro a b ha hb
  obtain ⟨b', e, hp⟩ := h.of_ok ha
  rw [e] at hb
  rwa [← ok_inj hb]

theorem Both.weaken {α β} {x : Exec α} {y : Exec β} {P Q : α → β → Prop} (h : Rel x y P) (hpq : ∀ a b, P a b → Q a b) : Both x y Q :=
  fun a b ha hb => hpq a b (Both.of h a b ha hb)

theorem Both.ite {α β} {c : Prop} [Decidable c] {x x' : Exec α} {y y' : Exec β} {P : α → β → Prop}
    (h : c → Both x y P) (h' : ¬ c → Both x' y' P) : Both (if c then x else x') (if c then y else y') P := by
  split
  · exact h ‹_›
  · exact h' ‹_›

theorem imbeReset_e {τ : Tok F} (hmu : τ.mu = mutingImbe) {c c' : Parms F} (h : RE τ c c') :
    Rel (imbeResetHeadroomDefaults c) (imbeResetHeadroomDefaults c') (RE τ) := by
  obtain ⟨c1, c2, c3, c4, rfl⟩ := h
  unfold imbeResetHeadroomDefaults Tok.put
  dsimp only
  refine Rel.same fun L => Rel.bind (P := RE τ) (loop_rel (P := RE τ) ⟨c1, c2, c3, c4, rfl⟩ fun i s t hst => ?_) fun s t hst => ?_
  · obtain ⟨c1, c2, c3, c4, rfl⟩ := hst
    unfold Tok.put
    dsimp only
    exact Rel.same fun _ => Rel.same fun _ => Rel.same fun _ => Rel.pure ⟨c1, c2, c3, c4, rfl⟩
  · obtain ⟨c1, c2, c3, c4, rfl⟩ := hst
    exact Rel.pure ⟨c1, c2, c3, hmu.symm, rfl⟩

/-- A call has few errors: its repeat decision depends on the payload alone, and smoothing and muting are off. -/
structure Faint1 (c0 : Option Int) (errs2 : Int) (x : F) : Prop where
  rep : ∀ bad, imbeRepeatRequired bad c0 errs2 x = decide (bad = 1)
  tot : errs2 ≤ 4
  rate : le x (lit 5 1000) = true
  mute : lt mutingImbe x = false

theorem agree_of {τ : Tok F} (h1 : le τ.r0 (lit 5 1000) = true) (h2 : le τ.r1 (lit 5 1000) = true) (h3 : τ.t0 ≤ 4) (h4 : τ.t1 ≤ 4)
    (h5 : lt τ.mu τ.r0 = false) (h6 : lt τ.mu τ.r1 = false) : τ.Agree := by
  refine ⟨fun en => ?_, fun pt => ?_, by rw [h5, h6]⟩
  · unfold smoothVM
    rw [if_pos ⟨h2, h4⟩, if_pos ⟨h1, h3⟩]
  · unfold smoothTm
    dsimp only
    rw [if_pos (c := _ ∧ τ.t1 ≤ 6) ⟨h2, by omega⟩, if_pos (c := _ ∧ τ.t0 ≤ 6) ⟨h1, by omega⟩]

theorem imbePrepare_e {c0 c0' : Option Int} {e e' : Int} {s s' : St F} (h : ESt s s') :
    ∃ τ : Tok F, RE τ (imbePrepare c0 e s).cur (imbePrepare c0' e' s').cur ∧ τ.r0 = imbeErrorRate s.prev.errorRate e ∧
      τ.r1 = imbeErrorRate s'.prev.errorRate e' ∧ τ.t0 = e ∧ τ.t1 = e' ∧ τ.mu = mutingImbe := by
  obtain ⟨⟨τ, h1⟩, _⟩ := h
  refine ⟨⟨imbeErrorRate s.prev.errorRate e, e, if c0.isNone then 0 else τ.k0, imbeErrorRate s'.prev.errorRate e', e',
    if c0'.isNone then 0 else τ.k1, mutingImbe⟩, ?_, rfl, rfl, rfl, rfl, rfl⟩
  obtain ⟨c1, c2, c3, c4, c5⟩ := h1
  unfold imbePrepare
  dsimp only
  rw [c5]
  cases c0 <;> cases c0'
  · exact ⟨rfl, rfl, rfl, rfl, rfl⟩
  · exact ⟨rfl, rfl, rfl, rfl, rfl⟩
  · exact ⟨rfl, rfl, c3, rfl, rfl⟩
  · exact ⟨rfl, rfl, c3, rfl, rfl⟩

/-- Outputs with equal samples and states that agree but for the error figures. -/
structure EOut (o o' : Out F) : Prop where
  pcm : o'.pcm = o.pcm
  st : ESt o.st o'.st

theorem processImbe4400_e (E : Env F) (C : Call F) {c0 c0' : Option Int} {e e' : Int} (d : Nat → Int) {s s' : St F} (h : ESt s s')
    (f : Faint1 c0 e (imbeErrorRate s.prev.errorRate e)) (f' : Faint1 c0' e' (imbeErrorRate s'.prev.errorRate e')) :
    Both (processImbe4400 E C c0 e d s) (processImbe4400 E C c0' e' d s') EOut := by
  obtain ⟨τ, hτ, r0, r1, t0, t1, mu⟩ := imbePrepare_e (c0 := c0) (c0' := c0') (e := e) (e' := e') h
  have ag : τ.Agree := agree_of (r0 ▸ f.rate) (r1 ▸ f'.rate) (t0 ▸ f.tot) (t1 ▸ f'.tot) (by rw [mu, r0]; exact f.mute)
    (by rw [mu, r1]; exact f'.mute)
  obtain ⟨σ, hσ, hag⟩ := h.prev
  have ep : ∀ (c0 : Option Int) (e : Int) (s : St F), (imbePrepare c0 e s).prev = s.prev ∧ (imbePrepare c0 e s).enh = s.enh ∧
      (imbePrepare c0 e s).tls = s.tls := fun _ _ _ => ⟨rfl, rfl, rfl⟩
  unfold processImbe4400
  dsimp only
  generalize hP : imbePrepare c0 e s = P at hτ
  generalize hP' : imbePrepare c0' e' s' = P' at hτ
  have eP := ep c0 e s
  have eP' := ep c0' e' s'
  rw [hP] at eP
  rw [hP'] at eP'
  rw [eP.1, eP.2.1, eP.2.2, eP'.1, eP'.2.1, eP'.2.2, h.tls]
  refine Both.skip fun str str' => ?_
  refine Both.bind (EDec τ σ) (.of (decodeImbe4400_e E.lax d s.tls hτ hσ)) fun r r' hr => ?_
  have er : r.cur.errorRate = imbeErrorRate s.prev.errorRate e := hr.cur.rate.trans r0
  have er' : r'.cur.errorRate = imbeErrorRate s'.prev.errorRate e' := by rw [hr.cur.eq]; exact r1
  rw [er, er', f.rep, f'.rep, hr.bad]
  refine Both.bind EE ?_ fun c c' hc => ?_
  · have hp : r'.prev.repeatCount = r.prev.repeatCount := by rw [hr.prev.eq]; rfl
    unfold imbeRepeat
    rw [hp]
    refine Both.ite (fun _ => Both.ite (fun _ => ?_) fun _ => ?_) fun _ => ?_
    · exact .weaken (imbeReset_e mu hr.cur) fun _ _ k => ⟨τ, k, ag⟩
    · exact .weaken (repeatLast_e hr.prev) fun _ _ k => ⟨σ, k, hag⟩
    · obtain ⟨c1, c2, c3, c4, c5⟩ := hr.cur
      rw [c5]
      exact Both.pure ⟨τ, ⟨c1, c2, c3, c4, rfl⟩, ag⟩
  · refine Both.skip fun str str' => ?_
    refine Both.bind (fun (r r' : Arr 160 F × St F) => r'.1 = r.1 ∧ ESt r.2 r'.2)
      (.of (speak_e E C (s := ⟨c, r.prev, s.enh, r.tls⟩) (s' := ⟨c', r'.prev, s'.enh, r'.tls⟩) hc h.enh hr.tls)) fun o o' ho => ?_
    exact Both.skip fun _ _ => Both.skip fun _ _ => Both.pure ⟨ho.1, ho.2⟩

/-! ## AMBE -/

theorem renderTonef_e {τ : Tok F} (out : Arr 160 F) {c c' : Parms F} (h : RE τ c c') (f1 f2 : F) (amp : Int) :
    Rel (renderTonef out c f1 f2 amp) (renderTonef out c' f1 f2 amp) fun r r' => r'.1 = r.1 ∧ RE τ r.2 r'.2 := by
  have h' := h
  obtain ⟨c1, c2, c3, c4, rfl⟩ := h
  unfold renderTonef
  refine Rel.ite (fun _ => Rel.pure ⟨rfl, h'⟩) fun _ => Rel.same fun s1 => Rel.same fun s2 => ?_
  unfold Tok.put
  dsimp only
  exact Rel.same fun r => Rel.pure ⟨rfl, c1, c2, c3, c4, rfl⟩

theorem synthesizeTonef_e {τ : Tok F} (out : Arr 160 F) (d : Nat → Int) {c c' : Parms F} (h : RE τ c c') :
    Rel (synthesizeTonef out d c) (synthesizeTonef out d c') fun r r' => r'.1 = r.1 ∧ RE τ r.2 r'.2 := by
  unfold synthesizeTonef
  refine Rel.same fun _ => Rel.same fun _ => Rel.same fun _ => Rel.same fun _ => Rel.ite (fun _ => ?_) fun _ => Rel.pure ⟨rfl, h⟩
  exact renderTonef_e out h _ _ _

theorem noiseAndReset_e (C : Call F) {s s' : St F} (ht : s'.tls = s.tls) :
    Both (noiseAndReset C s) (noiseAndReset C s') fun r r' => r'.1 = r.1 ∧ ESt r.2 r'.2 := by
  rw [noiseAndReset_tls C C ht]
  intro a b ha hb
  rw [ha] at hb
  rw [← ok_inj hb]
  exact ⟨rfl, .refl _⟩

theorem ambe2450Verdict_e {τ σ : Tok F} (ag : τ.Agree) {bad : Int} {c0 c0' : Option Int} {e e' : Int}
    (f : ambe2450RepeatRequired c0 e = false) (f' : ambe2450RepeatRequired c0' e' = false) {c c' p p' : Parms F} (hc : RE τ c c')
    (hp : RE σ p p') : Both (ambe2450Verdict bad c0 e c p) (ambe2450Verdict bad c0' e' c' p') fun r r' => EE r.1 r'.1 := by
  have z : RE τ { c with repeat_ := 0, repeatCount := 0 } { c' with repeat_ := 0, repeatCount := 0 } := by
    obtain ⟨c1, c2, c3, c4, rfl⟩ := hc
    exact ⟨c1, c2, c3, c4, rfl⟩
  unfold ambe2450Verdict
  rw [f, f']
  refine Both.ite (fun _ => ?_) fun _ => Both.ite (fun _ => Both.pure ⟨τ, z, ag⟩) fun _ => Both.ite (fun k => by cases k) fun _ =>
    Both.pure ⟨τ, z, ag⟩
  exact Both.bind (RE τ) (.of (setAmbeErasureParms_e z hp)) fun _ _ k => Both.pure ⟨τ, k, ag⟩

theorem ambe2450Render_e (E : Env F) (C : Call F) (bad : Int) (d : Nat → Int) {s s' : St F} (hc : EE s.cur s'.cur) (hp : EE s.prev s'.prev)
    (he : EE s.enh s'.enh) (ht : s'.tls = s.tls) :
    Both (ambe2450Render E C bad d s) (ambe2450Render E C bad d s') fun r r' => r'.1 = r.1 ∧ ESt r.2.2 r'.2.2 := by
  have h1 : s'.cur.repeat_ = s.cur.repeat_ := by obtain ⟨τ, k, _⟩ := hc; rw [k.eq]; rfl
  have h2 : isMaxFrameRepeat s'.prev = isMaxFrameRepeat s.prev := by obtain ⟨τ, k, _⟩ := hp; rw [k.eq]; rfl
  have nr : ∀ l : Option Char, Both (noiseAndReset C s >>= fun o => .ok (o.1, l, o.2) : Exec (Arr 160 F × Option Char × St F))
      (noiseAndReset C s' >>= fun o => .ok (o.1, l, o.2)) fun r r' => r'.1 = r.1 ∧ ESt r.2.2 r'.2.2 := fun l =>
    Both.bind _ (noiseAndReset_e C ht) fun _ _ k => Both.pure k
  unfold ambe2450Render
  rw [h1, h2]
  refine Both.ite (fun _ => Both.ite (fun _ => ?_) fun _ => nr _) fun _ => Both.ite (fun _ => ?_) fun _ =>
    Both.ite (fun _ => ?_) fun _ => nr _
  · exact Both.bind _ (.of (speak_e E C hc he ht)) fun _ _ k => Both.pure k
  · refine Both.bind (fun a b => b = a) (fun a b ha hb => by rw [ha] at hb; exact (ok_inj hb).symm) fun v v' e => ?_
    subst e
    refine Both.ite (fun _ => ?_) fun _ => Both.ite (fun _ => nr _) fun _ => ?_
    · obtain ⟨τ, k, _⟩ := hc
      exact Both.bind _ (.of (synthesizeTonef_e C.buf d k)) fun _ _ hr => Both.pure ⟨hr.1, ⟨τ, hr.2⟩, hp, he, ht⟩
    · obtain ⟨τ, k, _⟩ := hc
      exact Both.bind _ (.of (replayEnhanced_e E C ⟨⟨τ, k⟩, hp, he, ht⟩)) fun _ _ k => Both.pure k
  · rw [ht]
    refine Both.bind (fun a b => b = a) (fun a b ha hb => by rw [ha] at hb; exact (ok_inj hb).symm) fun r r' e => ?_
    subst e
    obtain ⟨τ, k, ag⟩ := hc
    exact Both.pure ⟨rfl, ⟨τ, k⟩, ⟨τ, k, ag⟩, ⟨τ, k, ag⟩, rfl⟩

theorem ambe2400Verdict_e (C : Call F) {τ σ : Tok F} (ag : τ.Agree) (hag : σ.Agree) {bad errs errs' e e' : Int}
    (f : e ≤ 3) (f' : e' ≤ 3) (d : Nat → Int) {c c' p p' : Parms F} (hc : RE τ c c') (hp : RE σ p p') :
    Both (ambe2400Verdict C bad errs e d c p) (ambe2400Verdict C bad errs' e' d c' p') fun r r' =>
      7 ≤ bad ∨ (EE r.cur r'.cur ∧ EE r.prev r'.prev ∧ r'.buf = r.buf) := by
  have z : RE τ { c with repeat_ := 0, repeatCount := 0 } { c' with repeat_ := 0, repeatCount := 0 } := by
    obtain ⟨c1, c2, c3, c4, rfl⟩ := hc
    exact ⟨c1, c2, c3, c4, rfl⟩
  by_cases hb : 7 ≤ bad
  · exact fun _ _ _ _ => .inl hb
  unfold ambe2400Verdict
  refine Both.ite (fun _ => ?_) fun _ => Both.ite (fun _ => Both.pure (.inr ⟨⟨τ, z, ag⟩, ⟨σ, hp, hag⟩, rfl⟩)) fun _ => ?_
  · exact Both.bind (RE τ) (.of (setAmbeErasureParms_e z hp)) fun _ _ k => Both.pure (.inr ⟨⟨τ, k, ag⟩, ⟨σ, hp, hag⟩, rfl⟩)
  · rw [if_neg (by omega), if_neg (by omega), if_neg (by omega), if_neg (by omega)]
    exact Both.pure (.inr ⟨⟨τ, z, ag⟩, ⟨σ, hp, hag⟩, rfl⟩)

theorem ambe2400Render_e (E : Env F) (C : Call F) (bad : Int) {s s' : St F} (hc : EE s.cur s'.cur)
    (he : EE s.enh s'.enh) (ht : s'.tls = s.tls) :
    Both (ambe2400Render E C bad s) (ambe2400Render E C bad s') fun r r' => r'.1 = r.1 ∧ ESt r.2.2 r'.2.2 := by
  have h1 : s'.cur.repeat_ = s.cur.repeat_ := by obtain ⟨τ, k, _⟩ := hc; rw [k.eq]; rfl
  have nr : ∀ l : Option Char, Both (noiseAndReset C s >>= fun o => .ok (o.1, l, o.2) : Exec (Arr 160 F × Option Char × St F))
      (noiseAndReset C s' >>= fun o => .ok (o.1, l, o.2)) fun r r' => r'.1 = r.1 ∧ ESt r.2.2 r'.2.2 := fun l =>
    Both.bind _ (noiseAndReset_e C ht) fun _ _ k => Both.pure k
  unfold ambe2400Render
  rw [h1]
  refine Both.ite (fun _ => Both.ite (fun _ => ?_) fun _ => nr _) fun _ => Both.ite (fun _ => ?_) fun _ => nr _
  · exact Both.bind _ (.of (speak_e E C hc he ht)) fun _ _ k => Both.pure k
  · rw [ht]
    refine Both.bind (fun a b => b = a) (fun a b ha hb => by rw [ha] at hb; exact (ok_inj hb).symm) fun r r' e => ?_
    subst e
    obtain ⟨τ, k, ag⟩ := hc
    exact Both.pure ⟨rfl, ⟨τ, k⟩, ⟨τ, k, ag⟩, ⟨τ, k, ag⟩, rfl⟩

end

variable {m : Libm}

theorem faint_rng {x : IEEE m} (h0 : le (lit 0 1) x = true) (h1 : le x (lit 5 1000) = true) : ∃ q, Val x q ∧ 0 ≤ q ∧ q ≤ 1 / 100 := by
  obtain ⟨a, va, a1, _⟩ := rng_of (show rngB (lit 0 1 : IEEE m) 0 0 = true from (by decide +kernel : rngB (lit 0 1 : IEEE libm0) 0 0 = true))
  obtain ⟨b, vb, _, b2⟩ := rng_of (show rngB (lit 5 1000 : IEEE m) 0 (1 / 100) = true from
    (by decide +kernel : rngB (lit 5 1000 : IEEE libm0) 0 (1 / 100) = true))
  obtain ⟨sa, ea⟩ := va
  obtain ⟨sb, eb⟩ := vb
  change FP.leB (lit 0 1 : IEEE m) x = true at h0
  change FP.leB x (lit 5 1000 : IEEE m) = true at h1
  rw [ea] at h0
  rw [eb] at h1
  change FP.leB (FP.fin sa a) (x : FP) = true at h0
  change FP.leB (x : FP) (FP.fin sb b) = true at h1
  cases hx : (x : FP) with
  | nan => rw [hx] at h0; cases h0
  | inf s =>
    rw [hx] at h0 h1
    cases s
    · cases h1
    · cases h0
  | fin s q =>
    rw [hx] at h0 h1
    exact ⟨q, ⟨s, rfl⟩, a1.trans (of_decide_eq_true h0), (of_decide_eq_true h1).trans b2⟩

theorem faint_mute {x : IEEE m} (h0 : le (lit 0 1) x = true) (h1 : le x (lit 5 1000) = true) :
    lt mutingImbe x = false ∧ lt mutingAmbe x = false := by
  obtain ⟨q, vq, _, q1⟩ := faint_rng h0 h1
  obtain ⟨a, va, a1, _⟩ := rng_of (show rngB (mutingImbe : IEEE m) (1 / 50) 1 = true from
    (by decide +kernel : rngB (mutingImbe : IEEE libm0) (1 / 50) 1 = true))
  obtain ⟨b, vb, b1, _⟩ := rng_of (show rngB (mutingAmbe : IEEE m) (1 / 50) 1 = true from
    (by decide +kernel : rngB (mutingAmbe : IEEE libm0) (1 / 50) 1 = true))
  rw [Val.lt va vq, Val.lt vb vq]
  constructor <;> refine decide_eq_false (not_lt.2 ?_) <;> linarith

theorem faint1_of {c0 : Option Int} {e : Int} {x : IEEE m} (hp : 0 ≤ e) (he : e ≤ 4) (h0 : le (lit 0 1) x = true) (h1 : le x (lit 5 1000) = true) :
    Faint1 c0 e x := by
  refine ⟨fun bad => ?_, he, h1, (faint_mute h0 h1).1⟩
  unfold imbeRepeatRequired
  dsimp only
  by_cases hb : bad = 1
  · rw [if_pos hb, decide_eq_true hb]
  · rw [if_neg hb, decide_eq_false hb]
    cases c0 with
    | none => exact decide_eq_false (by omega)
    | some c =>
      obtain ⟨q, vq, q0, q1⟩ := faint_rng h0 h1
      have v10 : Val (lit 10 1 : IEEE m) 10 := by
        obtain ⟨a, va, a1, a2⟩ := rng_of (show rngB (lit 10 1 : IEEE m) 10 10 = true from
          (by decide +kernel : rngB (lit 10 1 : IEEE libm0) 10 10 = true))
        rwa [le_antisymm a2 a1] at va
      have v40 : Val (lit 40 1 : IEEE m) 40 := by
        obtain ⟨a, va, a1, a2⟩ := rng_of (show rngB (lit 40 1 : IEEE m) 40 40 = true from
          (by decide +kernel : rngB (lit 40 1 : IEEE libm0) 40 40 = true))
        rwa [le_antisymm a2 a1] at va
      have hbig : (100 : ℚ) ≤ Val.big := by rw [Val.big_eq]; norm_num
      have n1 : rnd F32 1 = 1 := by have := rnd_int F32_p F32_emin (n := 1) (by decide); exact_mod_cast this
      have n10 : rnd F32 10 = 10 := by have := rnd_int F32_p F32_emin (n := 10) (by decide); exact_mod_cast this
      have m1 := Val.mul (m := m) v40 vq (by rw [abs_of_nonneg (by positivity)]; linarith)
      have r0 : 0 ≤ rnd F32 (40 * q) := rnd_nonneg (by positivity)
      have r1 : rnd F32 (40 * q) ≤ 1 := by rw [← n1]; exact rnd_mono F32_p (by linarith)
      have a1 := Val.add (m := m) v10 m1 (by rw [abs_of_nonneg (by linarith)]; linarith)
      have t1 : 10 ≤ rnd F32 (10 + rnd F32 (40 * q)) := by
        conv_lhs => rw [← n10]
        exact rnd_mono F32_p (by linarith)
      have ve := Val.ofInt (m := m) (n := e) (by rw [abs_of_nonneg hp]; omega)
      rw [Val.le a1 ve]
      have he' : (e : ℚ) ≤ 4 := by exact_mod_cast he
      have : decide (rnd F32 (10 + rnd F32 (40 * q)) ≤ (e : ℚ)) = false := decide_eq_false (not_le.2 (by linarith))
      rw [this]
      exact Bool.and_false _

/-! ## Histories -/

theorem imbeRun_e (E : Env (IEEE m)) {op op' : ImbeOp (IEEE m)} (hs : op.SameTx op') {s s' : St (IEEE m)} (h : ESt s s')
    (f : ∀ c0, Faint1 c0 op.errs2 (imbeErrorRate s.prev.errorRate op.errs2))
    (f' : ∀ c0, Faint1 c0 op'.errs2 (imbeErrorRate s'.prev.errorRate op'.errs2)) : Both (op.run E s) (op'.run E s') EOut := by
  obtain ⟨C, c, e, d⟩ := op
  obtain ⟨C', c', e', d'⟩ := op'
  obtain ⟨rfl, rfl⟩ := hs
  have hk : ∀ (a b : Option Int), ESt { s with cur := { s.cur with errorCount4 := a.getD s.cur.errorCount4 } }
      { s' with cur := { s'.cur with errorCount4 := b.getD s'.cur.errorCount4 } } := by
    intro a b
    obtain ⟨⟨τ, c1, c2, c3, c4, c5⟩, h2, h3, h4⟩ := h
    refine ⟨⟨⟨τ.r0, τ.t0, a.getD s.cur.errorCount4, τ.r1, τ.t1, b.getD s'.cur.errorCount4, τ.mu⟩, c1, c2, rfl, c4, ?_⟩, h2, h3, h4⟩
    rw [c5]
    rfl
  have go := fun (c0 c0' a b) => processImbe4400_e E C (c0 := c0) (c0' := c0') d (hk a b) (f c0) (f' c0')
  cases c <;> cases c'
  · exact go none none none none
  · exact go none (some _) none (some _)
  · exact go (some _) none (some _) none
  · exact go (some _) (some _) (some _) (some _)

theorem imbeHeard_e (E : Env (IEEE m)) {ops ops' : List (ImbeOp (IEEE m))} (hs : List.Forall₂ ImbeOp.SameTx ops ops')
    (hd : ∀ op ∈ ops, Bits 88 op.d) {a a' : ImbeAbs (IEEE m)} (hf : FaintImbe a ops) (hf' : FaintImbe a' ops') {s s' : St (IEEE m)}
    (h : ESt s s') (hI : ImbeInv a s) (hI' : ImbeInv a' s') :
    Both (heard (ImbeOp.run E) ops s) (heard (ImbeOp.run E) ops' s') fun r r' => r'.1 = r.1 ∧ ESt r.2 r'.2 := by
  induction hs generalizing a a' s s' with
  | nil => exact Both.pure ⟨rfl, h⟩
  | @cons op op' ops ops' hop _ ih =>
    obtain ⟨p0, p1, p2, p3, p4⟩ := hf
    obtain ⟨q0, q1, q2, q3, q4⟩ := hf'
    have e : op'.d = op.d := hop.2.symm
    intro r r' hr hr'
    obtain ⟨o, ho, hr⟩ := bind_ok hr
    obtain ⟨x, hx, hr⟩ := bind_ok hr
    obtain ⟨o', ho', hr'⟩ := bind_ok hr'
    obtain ⟨x', hx', hr'⟩ := bind_ok hr'
    have k := imbeRun_e E hop h (fun c0 => faint1_of p0 p1 (by rw [hI.rate]; exact p2) (by rw [hI.rate]; exact p3))
      (fun c0 => faint1_of q0 q1 (by rw [hI'.rate]; exact q2) (by rw [hI'.rate]; exact q3)) o o' ho ho'
    have kk := ih (fun x hx => hd x (.tail _ hx)) p4 q4 k.st (imbeInv_step (hd op (.head _)) hI ho)
      (imbeInv_step (e ▸ hd op (.head _)) hI' ho') x x' hx hx'
    rw [← ok_inj hr, ← ok_inj hr']
    exact ⟨by rw [k.pcm, kk.1], kk.2⟩

theorem ambeRun_e (E : Env (IEEE m)) {op op' : AmbeOp (IEEE m)} (hs : op.SameTx op') (hk : op.Few) (hk' : op'.Few)
    {s s' : St (IEEE m)} (h : ESt s s') (ht : s.prev.mutingThreshold = mutingAmbe)
    (f0 : le (lit 0 1) (ambeRate s.prev.errorRate op.errs2) = true) (f1 : le (ambeRate s.prev.errorRate op.errs2) (lit 5 1000) = true)
    (g0 : le (lit 0 1) (ambeRate s'.prev.errorRate op'.errs2) = true) (g1 : le (ambeRate s'.prev.errorRate op'.errs2) (lit 5 1000) = true) :
    Both (op.run E s) (op'.run E s') EOut := by
  obtain ⟨⟨κ, hκ⟩, ⟨σ, hσ, hag⟩, he, htl⟩ := h
  have ht' : s'.prev.mutingThreshold = mutingAmbe := by rw [hσ.eq]; exact ht
  have prep : ∀ e e' : Int, e ≤ 3 → e' ≤ 3 → le (lit 0 1) (ambeRate s.prev.errorRate e) = true →
      le (ambeRate s.prev.errorRate e) (lit 5 1000) = true → le (lit 0 1) (ambeRate s'.prev.errorRate e') = true →
      le (ambeRate s'.prev.errorRate e') (lit 5 1000) = true →
      ∃ τ : Tok (IEEE m), RE τ (ambePreparedCur e s) (ambePreparedCur e' s') ∧ τ.Agree := by
    intro e e' he he' f0 f1 g0 g1
    refine ⟨⟨ambeErrorRate s.prev.errorRate e, e, 0, ambeErrorRate s'.prev.errorRate e', e', 0, mutingAmbe⟩, ⟨rfl, rfl, rfl, rfl, ?_⟩,
      agree_of f1 g1 (show e ≤ 4 by omega) (show e' ≤ 4 by omega) (faint_mute f0 f1).2 (faint_mute g0 g1).2⟩
    unfold ambePreparedCur
    rw [hκ.eq]
    rfl
  cases op with
  | v2450 C c0 e d =>
    cases op' with
    | v2400 => cases hs
    | v2450 C' c0' e' d' =>
      obtain ⟨rfl, rfl⟩ := hs
      obtain ⟨k1, k2⟩ := hk
      obtain ⟨k1', k2'⟩ := hk'
      obtain ⟨τ, hτ, ag⟩ := prep e e' k1 k1' f0 f1 g0 g1
      have nr : ∀ (c0 : Option Int) (e : Int), e ≤ 3 → (∀ c, c0 = some c → c ≤ 3) → ambe2450RepeatRequired c0 e = false := by
        intro c0 e k1 k2
        unfold ambe2450RepeatRequired
        cases c0 with
        | none => exact decide_eq_false (by omega)
        | some c => have := k2 c rfl; exact decide_eq_false (by omega)
      show Both (processAmbe2450 E C c0 e d s) (processAmbe2450 E C c0' e' d s') EOut
      unfold processAmbe2450
      rw [ambePrepare_same ht, ambePrepare_same ht', ok_bind, ok_bind]
      dsimp only
      rw [htl]
      refine Both.skip fun _ _ => ?_
      refine Both.bind (EDec τ σ) (.of (decodeAmbe2450_e E.lax d (by omega) (by omega) s.tls hτ hσ)) fun r r' hr => ?_
      rw [hr.bad]
      refine Both.bind _ (ambe2450Verdict_e ag (nr c0 e k1 k2) (nr c0' e' k1' k2') hr.cur hr.prev) fun v v' hv => Both.skip fun _ _ => ?_
      refine Both.bind _ (ambe2450Render_e E C r.bad d (s := ⟨v.1, r.prev, s.enh, r.tls⟩) (s' := ⟨v'.1, r'.prev, s'.enh, r'.tls⟩) hv
        ⟨σ, hr.prev, hag⟩ he hr.tls) fun o o' ho => ?_
      exact Both.skip fun _ _ => Both.skip fun _ _ => Both.pure ⟨ho.1, ho.2⟩
  | v2400 C e0 e d =>
    cases op' with
    | v2450 => cases hs
    | v2400 C' e0' e' d' =>
      obtain ⟨rfl, rfl⟩ := hs
      obtain ⟨τ, hτ, ag⟩ := prep e e' hk hk' f0 f1 g0 g1
      show Both (processAmbe2400 E C e0 e d s) (processAmbe2400 E C e0' e' d s') EOut
      unfold processAmbe2400
      rw [ambePrepare_same ht, ambePrepare_same ht', ok_bind, ok_bind]
      dsimp only
      rw [htl]
      refine Both.skip fun _ _ => ?_
      refine Both.bind (EDec τ σ) (.of (decodeAmbe2400_e E.lax d s.tls hτ hσ)) fun r r' hr => ?_
      rw [hr.bad]
      refine Both.bind _ (ambe2400Verdict_e C ag hag hk hk' d hr.cur hr.prev) fun v v' hv => Both.skip fun _ _ => ?_
      refine Both.bind (fun (r r' : Arr 160 (IEEE m) × Option Char × St (IEEE m)) => r'.1 = r.1 ∧ ESt r.2.2 r'.2.2) ?_ fun o o' ho => ?_
      · rcases hv with hb | ⟨hc, hp, hbuf⟩
        · unfold ambe2400Render
          rw [if_neg (by omega), if_neg (by omega), if_neg (by omega), if_neg (by omega),
            noiseAndReset_tls { C with buf := v.buf } { C with buf := v'.buf } (s := ⟨v.cur, v.prev, s.enh, r.tls⟩)
              (s' := ⟨v'.cur, v'.prev, s'.enh, r'.tls⟩) hr.tls]
          refine Both.bind (fun a b => b = a) (fun a b ha hb => by rw [ha] at hb; exact (ok_inj hb).symm) fun r r' e => ?_
          subst e
          exact Both.pure ⟨rfl, .refl _⟩
        · rw [hbuf]
          exact ambe2400Render_e E _ r.bad hc he hr.tls
      · exact Both.skip fun _ _ => Both.skip fun _ _ => Both.pure ⟨ho.1, ho.2⟩

end Verif.Model
