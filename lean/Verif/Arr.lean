import Verif.Basic

/-!
# Fixed-size arrays

An array of `n` elements is a function on `Fin n`, so two arrays are equal exactly when all their elements are.
Subscripts are C `int` values; a subscript outside `0 .. n-1` is undefined behaviour. `Loc` is an automatic array whose
elements start uninitialised. These are constructs of C rather than code of the library: members such as `Ml` at
include/mbelib-neo/mbelib.h:84-135 are modelled by `Arr`, automatic arrays such as `Gm` at src/ambe/ambe3600x2450.c:349-379
by `Loc`.
-/

namespace Verif

/-- An array of `n` elements. -/
abbrev Arr (n : Nat) (α : Type) := Fin n → α

namespace Arr
variable {n : Nat} {α : Type}

/-- `a[i]` -/
def rd (a : Arr n α) (i : Int) : Exec α :=
  if h : 0 ≤ i ∧ i < n then .ok (a ⟨i.toNat, by omega⟩) else .error .oobRead

/-- `a` after `a[i] = v`, for a valid subscript. -/
def set (a : Arr n α) (i : Nat) (v : α) : Arr n α := fun j => if j.val = i then v else a j

/-- `a[i] = v` -/
def wr (a : Arr n α) (i : Int) (v : α) : Exec (Arr n α) :=
  if 0 ≤ i ∧ i < n then .ok (a.set i.toNat v) else .error .oobWrite

theorem rd_ok {a : Arr n α} {i : Int} (h0 : 0 ≤ i) (h : i < n) :
    a.rd i = .ok (a ⟨i.toNat, by omega⟩) := by simp [rd, h0, h]

theorem rd_nat {a : Arr n α} {i : Nat} (h : i < n) : a.rd (i : Int) = .ok (a ⟨i, h⟩) := by
  have : (i : Int) < n := by omega
  simp [rd, this]

theorem wr_ok {a : Arr n α} {i : Int} {v : α} (h0 : 0 ≤ i) (h : i < n) :
    a.wr i v = .ok (a.set i.toNat v) := by simp [wr, h0, h]

theorem wr_nat {a : Arr n α} {i : Nat} {v : α} (h : i < n) : a.wr (i : Int) v = .ok (a.set i v) := by
  have : (i : Int) < n := by omega
  simp [wr, this]

theorem rd_error {a : Arr n α} {i : Int} (h : ¬ (0 ≤ i ∧ i < n)) : a.rd i = .error .oobRead := by
  simp only [rd, h, dite_false]

theorem wr_error {a : Arr n α} {i : Int} {v : α} (h : ¬ (0 ≤ i ∧ i < n)) : a.wr i v = .error .oobWrite := by
  simp only [wr, h, if_false]

theorem set_same {a : Arr n α} {i : Nat} {v : α} {j : Fin n} (h : j.val = i) : a.set i v j = v := by
  simp [set, h]

theorem set_ne {a : Arr n α} {i : Nat} {v : α} {j : Fin n} (h : j.val ≠ i) : a.set i v j = a j := by
  simp [set, h]

/-- All elements equal to `v`. -/
def const (n : Nat) (v : α) : Arr n α := fun _ => v

/-- Element `i`, or `d` outside the array; used in specifications only. -/
def getD (a : Arr n α) (i : Nat) (d : α) : α := if h : i < n then a ⟨i, h⟩ else d

theorem getD_lt {a : Arr n α} {i : Nat} {d : α} (h : i < n) : a.getD i d = a ⟨i, h⟩ := by simp [getD, h]

/-- Overwriting every element by a loop gives the constant array. -/
theorem fill_loop (a : Arr n α) (v : α) :
    loop n (fun (i : Nat) (a : Arr n α) => a.wr (i : Int) v) a = .ok (const n v) := by
  have := loop_inv (n := n) (f := fun (i : Nat) (a : Arr n α) => a.wr (i : Int) v) (s := a)
    (fun k s => ∀ j : Fin n, j.val < k → s j = v) (by intro j h; omega) (by
      intro i hi s hs
      rw [wr_nat hi]
      refine Ok.ok fun j hj => ?_
      by_cases e : j.val = i
      · exact set_same e
      · rw [set_ne e]; exact hs j (by omega))
  obtain ⟨s, hs, h⟩ := this
  rw [hs]
  exact congrArg _ (funext fun j => h j j.isLt)

end Arr

/-- An automatic array of `n` elements, each possibly still uninitialised. -/
abbrev Loc (n : Nat) (α : Type) := Arr n (Option α)

namespace Loc
variable {n m : Nat} {α : Type}

/-- `a[i]`, undefined if the element has not been written. -/
def rd (a : Loc n α) (i : Int) : Exec α := do init? (← Arr.rd a i)

/-- `a[i] = v` -/
def wr (a : Loc n α) (i : Int) (v : α) : Exec (Loc n α) := Arr.wr a i (some v)

/-- A fresh automatic array. -/
def fresh (n : Nat) (α : Type) : Loc n α := fun _ => none

/-- `a[i][j]` for `a[m][n]` -/
def rd2 (a : Arr m (Loc n α)) (i j : Int) : Exec α := do Loc.rd (← Arr.rd a i) j

/-- `a[i][j] = v` for `a[m][n]` -/
def wr2 (a : Arr m (Loc n α)) (i j : Int) (v : α) : Exec (Arr m (Loc n α)) := do
  let r ← match Arr.rd a i with
    | .ok r => Except.ok r
    | .error _ => .error .oobWrite
  Arr.wr a i (← Loc.wr r j v)

/-- A fresh automatic array with two subscripts. -/
def fresh2 (m n : Nat) (α : Type) : Arr m (Loc n α) := fun _ => Loc.fresh n α

theorem rd_nat {a : Loc n α} {i : Nat} (h : i < n) {v : α} (hv : a ⟨i, h⟩ = some v) :
    Loc.rd a (i : Int) = .ok v := by
  simp [Loc.rd, Arr.rd_nat h, hv, init?]

theorem wr_nat {a : Loc n α} {i : Nat} {v : α} (h : i < n) :
    Loc.wr a (i : Int) v = .ok (Arr.set a i (some v)) := by
  simp [Loc.wr, Arr.wr_nat h]

theorem rd2_nat {a : Arr m (Loc n α)} {i j : Nat} (hi : i < m) (hj : j < n) {v : α}
    (hv : a ⟨i, hi⟩ ⟨j, hj⟩ = some v) : Loc.rd2 a (i : Int) (j : Int) = .ok v := by
  simp only [Loc.rd2, Arr.rd_nat hi, ok_bind]
  exact Loc.rd_nat hj hv

/-- The array after `a[i][j] = v`, for valid subscripts. -/
def set2 (a : Arr m (Loc n α)) (i j : Nat) (v : α) : Arr m (Loc n α) :=
  fun p q => if p.val = i ∧ q.val = j then some v else a p q

theorem wr2_nat {a : Arr m (Loc n α)} {i j : Nat} {v : α} (hi : i < m) (hj : j < n) :
    Loc.wr2 a (i : Int) (j : Int) v = .ok (set2 a i j v) := by
  simp only [Loc.wr2, Arr.rd_nat hi, ok_bind, Loc.wr_nat hj, Arr.wr_nat hi]
  congr 1
  funext p q
  simp only [Arr.set, set2]
  by_cases hp : p.val = i
  · subst hp
    by_cases hq : q.val = j <;> simp [hq, Arr.set]
  · simp [hp]

end Loc

end Verif
