import Verif.Lemmas.Cache
import Verif.Lemmas.SynthSafe

/-!
# C48: the caches are invisible
-/

namespace Verif.Props
open Verif Verif.Spec Verif.Model Verif.Gen Arith

variable {F : Type} [Arith F]

/-- Whatever documented or undocumented calls were made on a thread, each cache is empty or holds exactly what an empty
cache would be filled with. -/
theorem C48_reachable (E : Env F) (as : List (Api F)) (s0 s : St F) (hf : Fresh s0) (hr : runApi E as s0 = .ok s) :
    CacheOk E s.tls := runApi_cacheOk as (fresh_cacheOk hf) hr

/-- A call on a reachable state and the same call after discarding the caches give the same samples, status text and
decoder state, or fail in the same way. -/
theorem C48_invisible (E : Env F) (as : List (Api F)) (s0 s : St F) (hf : Fresh s0) (hr : runApi E as s0 = .ok s) :
    (∀ op : ImbeOp F, (op.run E s).map Out.seen = (op.run E (St.dropCaches s)).map Out.seen) ∧
    (∀ op : AmbeOp F, (op.run E s).map Out.seen = (op.run E (St.dropCaches s)).map Out.seen) ∧
    ∀ (C : Call F) (fr : Frame) (d : Nat → Int),
      (processImbe7200Framef E C fr d s).map (fun o => (o.ecc, Out.seen o.out)) =
        (processImbe7200Framef E C fr d (St.dropCaches s)).map (fun o => (o.ecc, Out.seen o.out)) ∧
      (processImbe7100Framef E C fr d s).map (fun o => (o.ecc, Out.seen o.out)) =
        (processImbe7100Framef E C fr d (St.dropCaches s)).map (fun o => (o.ecc, Out.seen o.out)) ∧
      (processAmbe2450Framef E C fr d s).map (fun o => (o.ecc, Out.seen o.out)) =
        (processAmbe2450Framef E C fr d (St.dropCaches s)).map (fun o => (o.ecc, Out.seen o.out)) ∧
      (processAmbe2400Framef E C fr d s).map (fun o => (o.ecc, Out.seen o.out)) =
        (processAmbe2400Framef E C fr d (St.dropCaches s)).map (fun o => (o.ecc, Out.seen o.out)) := by
  have h : SimSt E s (St.dropCaches s) := ⟨rfl, rfl, rfl, Sim.drop (C48_reachable E as s0 s hf hr)⟩
  have hfr : ∀ o o' : FrameOut F, SimFrame E o o' → (o.ecc, Out.seen o.out) = (o'.ecc, Out.seen o'.out) := by
    intro o o' ho
    rw [ho.1, ho.2.seen]
  exact ⟨fun op => (imbeOp_sim op h).map_eq fun o o' ho => ho.seen, fun op => (ambeOp_sim op h).map_eq fun o o' ho => ho.seen,
    fun C fr d => ⟨(imbe7200Frame_sim C fr d h).map_eq hfr, (imbe7100Frame_sim C fr d h).map_eq hfr,
      (ambe2450Frame_sim C fr d h).map_eq hfr, (ambe2400Frame_sim C fr d h).map_eq hfr⟩⟩

/-- The same for every later program: it cannot tell whether the caches were discarded at some point. -/
theorem C48_programs (E : Env F) (as bs : List (Api F)) (s0 s : St F) (hf : Fresh s0) (hr : runApi E as s0 = .ok s) :
    (runApi E bs s).map St.dropCaches = (runApi E bs (St.dropCaches s)).map St.dropCaches :=
  (runApi_sim bs (s := s) (s' := St.dropCaches s) ⟨rfl, rfl, rfl, Sim.drop (C48_reachable E as s0 s hf hr)⟩).map_eq
    fun _ _ h => h.seen

/-- The functions below the process calls that use a cache, on any state with caches in order: the three parameter
decoders and the synthesiser. -/
theorem C48_parts (E : Env F) (t : Tls F) (h : CacheOk E t) (cur prev : Parms F) (d : Nat → Int) (te : Int) :
    (decodeImbe4400 E.lax d cur prev t).map (fun r => (r.bad, r.cur, r.prev, dropCaches r.tls)) =
      (decodeImbe4400 E.lax d cur prev (dropCaches t)).map (fun r => (r.bad, r.cur, r.prev, dropCaches r.tls)) ∧
    (decodeAmbe2450 E.lax d te cur prev t).map (fun r => (r.bad, r.cur, r.prev, dropCaches r.tls)) =
      (decodeAmbe2450 E.lax d te cur prev (dropCaches t)).map (fun r => (r.bad, r.cur, r.prev, dropCaches r.tls)) ∧
    (decodeAmbe2400 E.lax d cur prev t).map (fun r => (r.bad, r.cur, r.prev, dropCaches r.tls)) =
      (decodeAmbe2400 E.lax d cur prev (dropCaches t)).map (fun r => (r.bad, r.cur, r.prev, dropCaches r.tls)) ∧
    ∀ (a : Nat) (out : Arr 160 F) (q : Int),
      (synthesizeSpeechf E a out cur prev t q).map (fun r => (r.out, r.cur, r.prev, dropCaches r.tls)) =
        (synthesizeSpeechf E a out cur prev (dropCaches t) q).map (fun r => (r.out, r.cur, r.prev, dropCaches r.tls)) := by
  have hs : Sim E t (dropCaches t) := Sim.drop h
  have hd : ∀ r r' : DecodeRes F, SimDec E r r' →
      (r.bad, r.cur, r.prev, dropCaches r.tls) = (r'.bad, r'.cur, r'.prev, dropCaches r'.tls) := by
    intro r r' h
    rw [h.bad, h.cur, h.prev, h.tls.eq]
  have hr : ∀ r r' : SynthRes F, SimRes E r r' →
      (r.out, r.cur, r.prev, dropCaches r.tls) = (r'.out, r'.cur, r'.prev, dropCaches r'.tls) := by
    intro r r' h
    rw [h.out, h.cur, h.prev, h.tls.eq]
  exact ⟨(decodeImbe4400_sim _ _ _ _ hs).map_eq hd, (decodeAmbe2450_sim _ _ _ _ _ hs).map_eq hd,
    (decodeAmbe2400_sim _ _ _ _ hs).map_eq hd, fun a out q => (synthesizeSpeechf_sim a out cur prev q hs).map_eq hr⟩

/-- A thread state in which all four caches are filled meets the hypothesis of `C48_parts`. -/
example (E : Env F) (ha : E.alloc = true) : ∃ t : Tls F, CacheOk E t ∧ t.imbeCache ≠ none ∧ t.ambe2450Cache ≠ none ∧
    t.ambe2400Cache ≠ none ∧ t.plan ≠ none := by
  obtain ⟨P, hP, _⟩ := planFill_fine (F := F) planRaw
  refine ⟨{ Tls.start with imbeCache := some (fillCache 7 11), ambe2450Cache := some (fillCache 9 18),
                           ambe2400Cache := some (fillCache 9 18), plan := some P },
    ⟨?_, ?_, ?_, ?_⟩, nofun, nofun, nofun, nofun⟩
  · intro c hc; cases hc; rfl
  · intro c hc; cases hc; rfl
  · intro c hc; cases hc; rfl
  · intro c hc; cases hc; exact ⟨ha, hP⟩

/-- A decoder that has just been initialised is a state the hypotheses of `C48_invisible` allow. -/
example (E : Env F) (s s0 : St F) (h0 : s0.tls = Tls.start) (h : initAmbeState s0 = .ok s) :
    ∃ as s', runApi E as s = .ok s' ∧ Fresh s := ⟨[], s, rfl, s0, h0, .inr h⟩

end Verif.Props
