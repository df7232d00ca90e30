import Verif.Model.Heap

/-!
# Blocks of a plan
-/

namespace Verif.Spec
open Verif.Model

/-- A heap on which every live block was requested before and is live once. -/
def Heap.Sane (h : Heap) : Prop := (∀ p ∈ h.live, p < h.req) ∧ h.live.Nodup

/-- The blocks that a plan owns. -/
def owned (p : PlanPtr) : List Nat :=
  p.addr :: (p.setup.toList.flatMap fun s => s.addr :: s.data.toList) ++
    (p.uw.toList ++ p.uwFft.toList ++ p.uwOut.toList ++ p.work.toList)

/-- No pointer of the plan is null. -/
def Complete (p : PlanPtr) : Prop :=
  (∃ s, p.setup = some s ∧ s.data.isSome) ∧ p.uw.isSome ∧ p.uwFft.isSome ∧ p.uwOut.isSome ∧ p.work.isSome

end Verif.Spec
