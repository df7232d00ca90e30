import Verif.Model.Threads
import Verif.Spec.Simd

/-!
# Specification vocabulary for threads
-/

namespace Verif.Spec
open Verif Verif.Model Arith

variable {F : Type} [Arith F]

/-- The part of the process state that belongs to thread `t`, which owns the parameter sets satisfying `own t`, is the
same in both worlds. -/
def SameFor (own : Nat → Nat → Prop) (t : Nat) (w v : World F) : Prop :=
  w.tls t = v.tls t ∧ ∀ a, own t a → w.heap a = v.heap a

/-- No parameter set is owned by two threads. -/
def Disjoint2 (own : Nat → Nat → Prop) : Prop := ∀ t u a, own t a → own u a → t = u

/-- Every call accesses only parameter sets of the calling thread, and different arguments are different objects. -/
def Owned (own : Nat → Nat → Prop) (xs : List (Nat × Act F)) : Prop :=
  ∀ x ∈ xs, (∀ a ∈ x.2.addrs, own x.1 a) ∧ x.2.addrs.Nodup

/-- The entries that belong to thread `t`. -/
def only {α : Type} (t : Nat) (xs : List (Nat × α)) : List (Nat × α) := xs.filter fun x => x.1 == t

/-- The decoder that a thread sees through three pointers. -/
def view (p : Ptrs) (t : Nat) (w : World F) : St F := ⟨w.heap p.cur, w.heap p.prev, w.heap p.enh, w.tls t⟩

/-- The thread's call `a` is the call `x` on the decoder with the parameter sets `p`; `b` is the buffer for 16-bit samples,
if the call has one. -/
inductive Does (p : Ptrs) : Option (Arr 160 Int) → Act F → Api F → Prop
  | imbe7200f (C fr d) : Does p none (.imbe7200Framef p C fr d) (.imbe7200Frame { C with pc := p.cur } fr d)
  | imbe7100f (C fr d) : Does p none (.imbe7100Framef p C fr d) (.imbe7100Frame { C with pc := p.cur } fr d)
  | ambe2450f (C fr d) : Does p none (.ambe2450Framef p C fr d) (.ambe2450Frame { C with pc := p.cur } fr d)
  | ambe2400f (C fr d) : Does p none (.ambe2400Framef p C fr d) (.ambe2400Frame { C with pc := p.cur } fr d)
  | imbe7200 (C b fr d) : Does p (some b) (.imbe7200Frame p C b fr d) (.imbe7200Frame { C with pc := p.cur } fr d)
  | imbe7100 (C b fr d) : Does p (some b) (.imbe7100Frame p C b fr d) (.imbe7100Frame { C with pc := p.cur } fr d)
  | ambe2450 (C b fr d) : Does p (some b) (.ambe2450Frame p C b fr d) (.ambe2450Frame { C with pc := p.cur } fr d)
  | ambe2400 (C b fr d) : Does p (some b) (.ambe2400Frame p C b fr d) (.ambe2400Frame { C with pc := p.cur } fr d)
  | imbeDataf (C e e2 d) : Does p none (.imbe4400Dataf p C e e2 d) (.imbeData { C with pc := p.cur } e e2 d)
  | ambe2450Dataf (C e e2 d) : Does p none (.ambe2450Dataf p C e e2 d) (.ambe2450Data { C with pc := p.cur } e e2 d)
  | ambe2400Dataf (C e e2 d) : Does p none (.ambe2400Dataf p C e e2 d) (.ambe2400Data { C with pc := p.cur } e e2 d)
  | imbeData (C b e e2 d) : Does p (some b) (.imbe4400Data p C b e e2 d) (.imbeData { C with pc := p.cur } e e2 d)
  | ambe2450Data (C b e e2 d) : Does p (some b) (.ambe2450Data p C b e e2 d) (.ambe2450Data { C with pc := p.cur } e e2 d)
  | ambe2400Data (C b e e2 d) : Does p (some b) (.ambe2400Data p C b e e2 d) (.ambe2400Data { C with pc := p.cur } e e2 d)
  | init : Does p none (.initMbe p) .initMbe
  | seed (n) : Does p none (.seed n) (.seed n)

/-- What a thread's call hands back is what the call on the decoder delivers: the samples, or their conversion to 16 bits,
and the status string. -/
def Hands : Option (Arr 160 Int) → Res F → Option (Arr 160 F × List Char) → Prop
  | _, r, none => r.pcm = none ∧ r.short = none
  | none, r, some x => r.pcm = some x.1 ∧ r.short = none ∧ r.str = x.2
  | some b, r, some x => r.pcm = none ∧ r.str = x.2 ∧ ∃ q, floatToShort x.1 b = .ok q ∧ r.short = some q

/-- The meaning of the calls that are not calls on a whole decoder, by the parameter sets `h` and the thread-local
variables `z` before the call, and `h'` and `z'` after it. -/
def Means (E : Env F) : Act F → (Nat → Parms F) → Tls F → Res F → (Nat → Parms F) → Tls F → Prop
  | .decodeImbe4400 c p d, h, z, r, h', z' => ∃ o, decodeImbe4400 E.lax d (h c) (h p) z = .ok o ∧
      r.ret = o.bad ∧ h' c = o.cur ∧ h' p = o.prev ∧ z' = o.tls
  | .decodeAmbe2450 c p d, h, z, r, h', z' => ∃ o, decodeAmbe2450Public E.lax d (h c) (h p) z = .ok o ∧
      r.ret = o.bad ∧ h' c = o.cur ∧ h' p = o.prev ∧ z' = o.tls
  | .decodeAmbe2400 c p d, h, z, r, h', z' => ∃ o, decodeAmbe2400 E.lax d (h c) (h p) z = .ok o ∧
      r.ret = o.bad ∧ h' c = o.cur ∧ h' p = o.prev ∧ z' = o.tls
  | .move src dst, h, z, _, h', z' => h' dst = h src ∧ h' src = h src ∧ z' = z
  | .useLast dst src, h, z, _, h', z' => h' dst = h src ∧ h' src = h src ∧ z' = z
  | .enhance c, h, z, _, h', z' => spectralAmpEnhance c (h c) z = .ok (h' c, z')
  | .smooth c p, h, z, _, h', z' => applySmoothing c (h c) (h p) z = .ok (h' c, z') ∧ h' p = h p
  | .speechf c p out uvq, h, z, r, h', z' => ∃ o, r.pcm = some o ∧
      synthesizeSpeechf E c out (h c) (h p) z uvq = .ok ⟨o, h' c, h' p, z'⟩
  | .speech c p out uvq, h, z, r, h', z' => ∃ q o, r.short = some q ∧
      synthesizeSpeech E c out (h c) (h p) z uvq = .ok (q, ⟨o, h' c, h' p, z'⟩)
  | .tonef c out d, h, z, r, h', z' => ∃ o, r.pcm = some o ∧ synthesizeTonef out d (h c) = .ok (o, h' c) ∧ z' = z
  | .tonefdstar c out d id, h, z, r, h', z' => ∃ o, r.pcm = some o ∧ synthesizeTonefdstar out d (h c) id = .ok (o, h' c) ∧ z' = z
  | .requiresMuting c, h, z, r, h', z' => (r.ret ≠ 0 ↔ requiresMuting (h c) = true) ∧ h' c = h c ∧ z' = z
  | .isMaxFrameRepeat c, h, z, r, h', z' => (r.ret ≠ 0 ↔ isMaxFrameRepeat (h c) = true) ∧ h' c = h c ∧ z' = z
  | .requiresSmoothing c, h, z, r, h', z' => (r.ret ≠ 0 ↔ requiresSmoothing (h c) = true) ∧ h' c = h c ∧ z' = z
  | .comfortNoisef out, _, z, r, _, z' => ∃ o, r.pcm = some o ∧ comfortNoisef out z = .ok (o, z')
  | .comfortNoise out, _, z, r, _, z' => ∃ o, r.short = some o ∧ comfortNoise out z = .ok (o, z')
  | _, _, _, _, _, _ => True

end Verif.Spec
