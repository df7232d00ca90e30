import Verif.Spec.History

/-!
# Specification vocabulary for the caches

The decoder keeps four lazily computed objects per thread: three cosine tables and the FFT plan.
-/

namespace Verif.Spec
open Verif Verif.Model Arith

variable {F : Type} [Arith F]

/-- The thread state with every cache discarded. -/
def dropCaches (t : Tls F) : Tls F :=
  { t with imbeCache := none, ambe2450Cache := none, ambe2400Cache := none, plan := none }

/-- The decoder state with every cache discarded. -/
def St.dropCaches (s : St F) : St F := { s with tls := Spec.dropCaches s.tls }

/-- What a caller can observe of a process call: the samples, the status text and the decoder state, apart from the
caches. -/
def Out.seen (o : Out F) : Arr 160 F × List Char × St F := (o.pcm, o.str, St.dropCaches o.st)

/-- Every cache is empty or holds what the thread would compute; a plan needs an allocator that works. -/
def CacheOk (E : Env F) (t : Tls F) : Prop :=
  (∀ c, t.imbeCache = some c → c = fillCache 7 11) ∧ (∀ c, t.ambe2450Cache = some c → c = fillCache 9 18) ∧
    (∀ c, t.ambe2400Cache = some c → c = fillCache 9 18) ∧
    ∀ P, t.plan = some P → E.alloc = true ∧ planFill planRaw = .ok P

end Verif.Spec
