/-!
# Execution monad, loops and arrays

C functions are modelled as `Exec α`: either a result or the kind of undefined
behaviour that was hit first. Loops are structural recursions with an invariant rule. These are constructs of C rather
than code of the library; a typical use of all of them is src/core/mbelib.c:358-366 (a loop that reads two arrays).
-/

namespace Verif

/-- Kinds of undefined behaviour that the model distinguishes. -/
inductive UB
  /-- read outside an array -/
  | oobRead
  /-- write outside an array -/
  | oobWrite
  /-- read of an uninitialised automatic variable -/
  | uninit
  /-- float to integer conversion of NaN or of an out-of-range value -/
  | floatToInt
  /-- signed integer overflow -/
  | signedOverflow
  /-- a failing `assert` -/
  | assertFail
  /-- not undefined: a branch that the model leaves out -/
  | notModelled
  deriving DecidableEq, Repr

/-- A C computation: a value, or undefined behaviour. -/
abbrev Exec (α : Type) := Except UB α

instance {α : Type} [DecidableEq α] : DecidableEq (Exec α)
  | .ok a, .ok b => if h : a = b then isTrue (by rw [h]) else isFalse (by intro e; injection e; contradiction)
  | .error a, .error b => if h : a = b then isTrue (by rw [h]) else isFalse (by intro e; injection e; contradiction)
  | .ok _, .error _ => isFalse (by intro e; injection e)
  | .error _, .ok _ => isFalse (by intro e; injection e)

/-- The computation ends without undefined behaviour and its result satisfies `P`. -/
def Ok {α : Type} (x : Exec α) (P : α → Prop) : Prop := ∃ a, x = .ok a ∧ P a

theorem Ok.mono {α} {x : Exec α} {P Q : α → Prop} (h : Ok x P) (hpq : ∀ a, P a → Q a) : Ok x Q := by
  obtain ⟨a, ha, hp⟩ := h; exact ⟨a, ha, hpq a hp⟩

theorem Ok.pure {α} {a : α} {P : α → Prop} (h : P a) : Ok (Pure.pure a : Exec α) P := ⟨a, rfl, h⟩

theorem Ok.ok {α} {a : α} {P : α → Prop} (h : P a) : Ok (Except.ok a : Exec α) P := ⟨a, rfl, h⟩

theorem Ok.bind {α β} {x : Exec α} {f : α → Exec β} {P : α → Prop} {Q : β → Prop}
    (hx : Ok x P) (hf : ∀ a, P a → Ok (f a) Q) : Ok (x >>= f) Q := by
  obtain ⟨a, rfl, hp⟩ := hx; exact hf a hp

theorem Ok.bind_eq {α β} {x : Exec α} {f : α → Exec β} {a : α} {Q : β → Prop}
    (hx : x = .ok a) (hf : Ok (f a) Q) : Ok (x >>= f) Q := by
  subst hx; exact hf

theorem Ok.ite {α} {c : Prop} [Decidable c] {x y : Exec α} {P : α → Prop}
    (h1 : c → Ok x P) (h2 : ¬c → Ok y P) : Ok (if c then x else y) P := by
  by_cases h : c
  · rw [if_pos h]; exact h1 h
  · rw [if_neg h]; exact h2 h

@[simp] theorem ok_bind {α β} (a : α) (f : α → Exec β) : ((Except.ok a : Exec α) >>= f) = f a := rfl
@[simp] theorem pure_eq_ok {α} (a : α) : (Pure.pure a : Exec α) = .ok a := rfl
@[simp] theorem error_bind {α β} (e : UB) (f : α → Exec β) : ((Except.error e : Exec α) >>= f) = .error e := rfl

/-- Bounds-checked read `a[i]` of an array of length `n`. -/
def rd {α : Type} (n : Nat) (a : Nat → α) (i : Nat) : Exec α :=
  if i < n then .ok (a i) else .error .oobRead

/-- Bounds-checked read with a C `int` index. -/
def rdI {α : Type} (n : Nat) (a : Nat → α) (i : Int) : Exec α :=
  if 0 ≤ i ∧ i < n then .ok (a i.toNat) else .error .oobRead

/-- Read of a constant table with bounds check. -/
def tab {α : Type} (t : List α) (i : Nat) : Exec α :=
  match t[i]? with
  | some a => .ok a
  | none => .error .oobRead

/-- Read of a constant table with a C `int` index. -/
def tabI {α : Type} (t : List α) (i : Int) : Exec α :=
  if 0 ≤ i then tab t i.toNat else .error .oobRead

/-- Function update: the array `a` after the store `a[i] = v`. -/
def upd {α : Type} (a : Nat → α) (i : Nat) (v : α) : Nat → α := fun j => if j = i then v else a j

/-- Bounds-checked store `a[i] = v` to an array of length `n`. -/
def wr {α : Type} (n : Nat) (a : Nat → α) (i : Nat) (v : α) : Exec (Nat → α) :=
  if i < n then .ok (upd a i v) else .error .oobWrite

/-- Bounds-checked store with a C `int` index. -/
def wrI {α : Type} (n : Nat) (a : Nat → α) (i : Int) (v : α) : Exec (Nat → α) :=
  if 0 ≤ i ∧ i < n then .ok (upd a i.toNat v) else .error .oobWrite

/-- Read of a local that must have been initialised. -/
def init? {α : Type} : Option α → Exec α
  | some a => .ok a
  | none => .error .uninit

@[simp] theorem upd_same {α} (a : Nat → α) (i : Nat) (v : α) : upd a i v i = v := by simp [upd]
theorem upd_ne {α} (a : Nat → α) {i j : Nat} (v : α) (h : j ≠ i) : upd a i v j = a j := by simp [upd, h]

theorem rd_ok {α} {n : Nat} {a : Nat → α} {i : Nat} (h : i < n) : rd n a i = .ok (a i) := by simp [rd, h]
theorem wr_ok {α} {n : Nat} {a : Nat → α} {i : Nat} {v : α} (h : i < n) : wr n a i v = .ok (upd a i v) := by
  simp [wr, h]
theorem rdI_ok {α} {n : Nat} {a : Nat → α} {i : Int} (h0 : 0 ≤ i) (h : i < n) : rdI n a i = .ok (a i.toNat) := by
  simp [rdI, h, h0]
theorem wrI_ok {α} {n : Nat} {a : Nat → α} {i : Int} {v : α} (h0 : 0 ≤ i) (h : i < n) :
    wrI n a i v = .ok (upd a i.toNat v) := by simp [wrI, h, h0]

/-- `for (i = 0; i < n; i++)` -/
def loop {σ : Type} : (n : Nat) → (f : Nat → σ → Exec σ) → σ → Exec σ
  | 0, _, s => .ok s
  | n + 1, f, s => loop n f s >>= fun s => f n s

/-- Pure `for (i = 0; i < n; i++)`. -/
def ploop {σ : Type} : (n : Nat) → (f : Nat → σ → σ) → σ → σ
  | 0, _, s => s
  | n + 1, f, s => f n (ploop n f s)

/-- `for (i = lo; i <= hi; i++)` -/
def loopFT {σ : Type} (lo hi : Nat) (f : Nat → σ → Exec σ) (s : σ) : Exec σ :=
  loop (hi + 1 - lo) (fun k s => f (lo + k) s) s

/-- Pure `for (i = lo; i <= hi; i++)`. -/
def ploopFT {σ : Type} (lo hi : Nat) (f : Nat → σ → σ) (s : σ) : σ :=
  ploop (hi + 1 - lo) (fun k s => f (lo + k) s) s

/-- Pure `for (i = n-1; i >= 0; i--)`. -/
def ploopDown {σ : Type} : (n : Nat) → (f : Nat → σ → σ) → σ → σ
  | 0, _, s => s
  | n + 1, f, s => ploopDown n f (f n s)

/-- `for (i = n-1; i >= 0; i--)` -/
def loopDown {σ : Type} : (n : Nat) → (f : Nat → σ → Exec σ) → σ → Exec σ
  | 0, _, s => .ok s
  | n + 1, f, s => f n s >>= fun s => loopDown n f s

@[simp] theorem loop_zero {σ} (f : Nat → σ → Exec σ) (s : σ) : loop 0 f s = .ok s := rfl
theorem loop_succ {σ} (n : Nat) (f : Nat → σ → Exec σ) (s : σ) :
    loop (n + 1) f s = loop n f s >>= fun s => f n s := rfl
@[simp] theorem ploop_zero {σ} (f : Nat → σ → σ) (s : σ) : ploop 0 f s = s := rfl
theorem ploop_succ {σ} (n : Nat) (f : Nat → σ → σ) (s : σ) : ploop (n + 1) f s = f n (ploop n f s) := rfl
@[simp] theorem ploopDown_zero {σ} (f : Nat → σ → σ) (s : σ) : ploopDown 0 f s = s := rfl
theorem ploopDown_succ {σ} (n : Nat) (f : Nat → σ → σ) (s : σ) :
    ploopDown (n + 1) f s = ploopDown n f (f n s) := rfl

/-- Invariant rule for `loop`. -/
theorem loop_inv {σ} {n : Nat} {f : Nat → σ → Exec σ} {s : σ} (Inv : Nat → σ → Prop)
    (h0 : Inv 0 s) (hs : ∀ i, i < n → ∀ s, Inv i s → Ok (f i s) (Inv (i + 1))) :
    Ok (loop n f s) (Inv n) := by
  induction n with
  | zero => exact Ok.ok h0
  | succ n ih =>
    rw [loop_succ]
    exact Ok.bind (ih fun i hi => hs i (Nat.lt_succ_of_lt hi)) fun a ha => hs n (Nat.lt_succ_self n) a ha

/-- Invariant rule for `loopFT`; the invariant is indexed by the next loop value. -/
theorem loopFT_inv {σ} {lo hi : Nat} {f : Nat → σ → Exec σ} {s : σ} (Inv : Nat → σ → Prop)
    (hle : lo ≤ hi + 1) (h0 : Inv lo s)
    (hs : ∀ i, lo ≤ i → i ≤ hi → ∀ s, Inv i s → Ok (f i s) (Inv (i + 1))) :
    Ok (loopFT lo hi f s) (Inv (hi + 1)) := by
  have := loop_inv (n := hi + 1 - lo) (f := fun k s => f (lo + k) s) (s := s) (fun k s => Inv (lo + k) s)
    (by simpa using h0) (fun i hi' s hI => hs (lo + i) (by omega) (by omega) s hI)
  have e : lo + (hi + 1 - lo) = hi + 1 := by omega
  rw [e] at this
  exact this

theorem ploop_inv {σ} {n : Nat} {f : Nat → σ → σ} {s : σ} (Inv : Nat → σ → Prop)
    (h0 : Inv 0 s) (hs : ∀ i, i < n → ∀ s, Inv i s → Inv (i + 1) (f i s)) : Inv n (ploop n f s) := by
  induction n with
  | zero => exact h0
  | succ n ih =>
    rw [ploop_succ]
    exact hs n (Nat.lt_succ_self n) _ (ih fun i hi => hs i (Nat.lt_succ_of_lt hi))

theorem ploopDown_inv {σ} {n : Nat} {f : Nat → σ → σ} {s : σ} (Inv : Nat → σ → Prop)
    (h0 : Inv n s) (hs : ∀ i, i < n → ∀ s, Inv (i + 1) s → Inv i (f i s)) : Inv 0 (ploopDown n f s) := by
  induction n generalizing s with
  | zero => exact h0
  | succ n ih =>
    rw [ploopDown_succ]
    exact ih (hs n (Nat.lt_succ_self n) _ h0) fun i hi => hs i (Nat.lt_succ_of_lt hi)

theorem loopDown_inv {σ} {n : Nat} {f : Nat → σ → Exec σ} {s : σ} (Inv : Nat → σ → Prop)
    (h0 : Inv n s) (hs : ∀ i, i < n → ∀ s, Inv (i + 1) s → Ok (f i s) (Inv i)) :
    Ok (loopDown n f s) (Inv 0) := by
  induction n generalizing s with
  | zero => exact Ok.ok h0
  | succ n ih =>
    unfold loopDown
    exact Ok.bind (hs n (Nat.lt_succ_self n) _ h0) fun a ha => ih ha fun i hi => hs i (Nat.lt_succ_of_lt hi)

/-- Two loops with equal bodies on the visited range are equal. -/
theorem loop_congr {σ} {n : Nat} {f g : Nat → σ → Exec σ} {s : σ} (h : ∀ i, i < n → f i = g i) :
    loop n f s = loop n g s := by
  induction n with
  | zero => rfl
  | succ n ih => rw [loop_succ, loop_succ, ih fun i hi => h i (Nat.lt_succ_of_lt hi), h n (Nat.lt_succ_self n)]

/-- A loop whose body never fails is the pure loop. -/
theorem loop_eq_ploop {σ} {n : Nat} {f : Nat → σ → Exec σ} {g : Nat → σ → σ} {s : σ}
    (h : ∀ i, i < n → ∀ s, f i s = .ok (g i s)) : loop n f s = .ok (ploop n g s) := by
  induction n with
  | zero => rfl
  | succ n ih =>
    rw [loop_succ, ih fun i hi => h i (Nat.lt_succ_of_lt hi)]
    simp [ploop_succ, h n (Nat.lt_succ_self n)]

end Verif
