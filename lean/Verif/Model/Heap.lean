/-!
# Model of the allocation and release of the FFT plan

The rest of the model takes the plan as a value. Here only the blocks of memory matter: which are live, in which order
they are requested and released, and what happens when a request fails. Block contents other than pointers are left out.
-/

namespace Verif.Model

/-- What can go wrong with memory blocks. For src/external/pffft/pffft.c:347-363 and src/core/mbe_unvoiced_fft.c:130-202. -/
inductive HeapUB
  /-- access through a null pointer -/
  | nullDeref
  /-- access to a block that is not live -/
  | useAfterFree
  /-- release of a block that is not live -/
  | badFree
  deriving DecidableEq, Repr

/-- The heap: the number of requests so far and the live blocks. Blocks are named by the number of their request.
What src/external/pffft/pffft.c:349-349, 361-361, 1371-1371, 1422-1422 work on. -/
structure Heap where
  req : Nat
  live : List Nat
  deriving DecidableEq, Repr

/-- A computation on the heap. For src/external/pffft/pffft.c:347-363 and src/core/mbe_unvoiced_fft.c:130-202. -/
abbrev HExec (α : Type) := StateT Heap (Except HeapUB) α

/-- `malloc`; the system grants the k-th request iff `grant k`. src/external/pffft/pffft.c:349-349, 1371-1371. -/
def hmalloc (grant : Nat → Bool) : HExec (Option Nat) := fun h =>
  if grant h.req then .ok (some h.req, ⟨h.req + 1, h.req :: h.live⟩) else .ok (none, ⟨h.req + 1, h.live⟩)

/-- `free` of a non-null pointer. src/external/pffft/pffft.c:361-361, 1422-1422. -/
def hfree (p : Nat) : HExec Unit := fun h =>
  if p ∈ h.live then .ok ((), ⟨h.req, h.live.erase p⟩) else .error .badFree

/-- Access to the block that a pointer points to. E.g. src/core/mbe_unvoiced_fft.c:151-154. -/
def hderef (p : Option Nat) : HExec Nat := fun h =>
  match p with
  | none => .error .nullDeref
  | some p => if p ∈ h.live then .ok (p, h) else .error .useAfterFree

/-- `pffft_aligned_malloc`, src/external/pffft/pffft.c:347-356: one `malloc`, checked. -/
def alignedMalloc (grant : Nat → Bool) : HExec (Option Nat) := hmalloc grant

/-- `pffft_aligned_free`, src/external/pffft/pffft.c:358-363. -/
def alignedFree (p : Option Nat) : HExec Unit :=
  match p with
  | none => pure ()
  | some p => hfree p

/-- `PFFFT_Setup`: the block and its pointer to the twiddle factors. src/external/pffft/pffft.c:1349-1358. -/
structure FftSetup where
  addr : Nat
  data : Option Nat
  deriving DecidableEq, Repr

/-- `pffft_destroy_setup`, src/external/pffft/pffft.c:1419-1423. -/
def destroySetup (s : FftSetup) : HExec Unit := do
  let _ ← hderef (some s.addr)
  alignedFree s.data
  hfree s.addr

/-- `pffft_new_setup(256, PFFFT_REAL)`, src/external/pffft/pffft.c:1360-1417. Neither allocation is checked: `s->N = N`
is the first access through the first, `s->e[..] = ..` through the second. `factors` says whether the prime factors found
for 64 multiply up to 64. -/
def newSetup (grant : Nat → Bool) (factors : Bool) : HExec (Option FftSetup) := do
  let p ← hmalloc grant
  let s ← hderef p
  let data ← alignedMalloc grant
  let _ ← hderef data
  let st : FftSetup := ⟨s, data⟩
  if factors then pure (some st)
  else do
    destroySetup st
    pure none

/-- `struct mbe_fft_plan`, src/core/mbe_unvoiced_fft.c:96-125: the block and its pointers. -/
structure PlanPtr where
  addr : Nat
  setup : Option FftSetup
  uw : Option Nat
  uwFft : Option Nat
  uwOut : Option Nat
  work : Option Nat
  deriving DecidableEq, Repr

/-- `mbe_fft_plan_free`, src/core/mbe_unvoiced_fft.c:181-201. -/
def planFree (plan : Option PlanPtr) : HExec Unit :=
  match plan with
  | none => pure ()
  | some p => do
    let _ ← hderef (some p.addr)
    match p.setup with
    | some s => destroySetup s
    | none => pure ()
    let _ ← hderef (some p.addr)
    if p.uw.isSome then alignedFree p.uw
    let _ ← hderef (some p.addr)
    if p.uwFft.isSome then alignedFree p.uwFft
    let _ ← hderef (some p.addr)
    if p.uwOut.isSome then alignedFree p.uwOut
    let _ ← hderef (some p.addr)
    if p.work.isSome then alignedFree p.work
    alignedFree (some p.addr)

/-- `mbe_fft_plan_alloc`, src/core/mbe_unvoiced_fft.c:127-179; the tables filled at the end are `planFill`. -/
def planAlloc (grant : Nat → Bool) (factors : Bool) : HExec (Option PlanPtr) := do
  match ← alignedMalloc grant with
  | none => pure none
  | some a => do
    let _ ← hderef (some a)
    match ← newSetup grant factors with
    | none => do
      alignedFree (some a)
      pure none
    | some s => do
      let uw ← alignedMalloc grant
      let uwFft ← alignedMalloc grant
      let uwOut ← alignedMalloc grant
      let work ← alignedMalloc grant
      let plan : PlanPtr := ⟨a, some s, uw, uwFft, uwOut, work⟩
      if uw.isNone || uwFft.isNone || uwOut.isNone || work.isNone then do
        planFree (some plan)
        pure none
      else do
        let _ ← hderef (some a)
        pure (some plan)

/-- `mbe_get_fft_plan` on a thread whose pointer is `inst`, src/core/mbelib.c:67-74; returns the new pointer. -/
def getPlanPtr (grant : Nat → Bool) (factors : Bool) (inst : Option PlanPtr) : HExec (Option PlanPtr) :=
  match inst with
  | some p => pure (some p)
  | none => planAlloc grant factors

/-- The unvoiced synthesis of `n` frames on one thread, as far as blocks are concerned: each call gets the plan, and uses
all its buffers if there is one, src/core/mbelib.c:1055-1058 and src/core/mbe_unvoiced_fft.c:668-783. -/
def planFrames (grant : Nat → Bool) (factors : Bool) : Nat → Option PlanPtr → HExec (Option PlanPtr)
  | 0, inst => pure inst
  | n + 1, inst => do
    let inst ← planFrames grant factors n inst
    let inst ← getPlanPtr grant factors inst
    match inst with
    | none => pure none
    | some p => do
      let _ ← hderef (some p.addr)
      let _ ← hderef (p.setup.map (·.addr))
      let _ ← hderef (p.setup.bind (·.data))
      let _ ← hderef p.uw
      let _ ← hderef p.uwFft
      let _ ← hderef p.uwOut
      let _ ← hderef p.work
      pure (some p)

end Verif.Model
