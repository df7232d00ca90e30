import Verif.Spec.Params
import Verif.Model.Ambe
import Verif.Lemmas.Exec

/-!
# Multi-bit payload fields
-/

namespace Verif.Model
open Verif Verif.Spec

theorem fieldVal_acc (d : Nat → Int) (is : List Nat) (a : Nat) :
    is.foldl (fun a i => 2 * a + (d i).toNat) a = a * 2 ^ is.length + fieldVal d is := by
  induction is generalizing a with
  | nil => simp [fieldVal]
  | cons i is ih =>
    unfold fieldVal
    rw [List.foldl_cons, List.foldl_cons, ih, ih (2 * 0 + _), List.length_cons, Nat.pow_succ]
    simp only [Nat.mul_zero, Nat.zero_add, Nat.add_mul]
    rw [Nat.mul_comm 2 a, Nat.mul_assoc, Nat.mul_comm 2 (2 ^ is.length), Nat.add_assoc]

theorem fieldVal_cons (d : Nat → Int) (i : Nat) (is : List Nat) :
    fieldVal d (i :: is) = (d i).toNat * 2 ^ is.length + fieldVal d is := by
  have := fieldVal_acc d is ((d i).toNat)
  unfold fieldVal at this ⊢
  rw [List.foldl_cons]
  simpa using this

theorem fieldVal_lt {d : Nat → Int} {is : List Nat} (h : ∀ i ∈ is, d i = 0 ∨ d i = 1) :
    fieldVal d is < 2 ^ is.length := by
  induction is with
  | nil => simp [fieldVal]
  | cons i is ih =>
    have h1 := ih fun j hj => h j (List.mem_cons_of_mem _ hj)
    rw [fieldVal_cons, List.length_cons, Nat.pow_succ]
    rcases h i List.mem_cons_self with e | e <;> rw [e] <;> simp <;> omega

theorem strtol2_map {cs : List Int} {d : Nat → Int} {is : List Nat} (h : ∀ i ∈ is, d i = 0 ∨ d i = 1)
    (hc : cs = is.map fun i => d i + 48) (a : Nat) :
    strtol2 cs a = is.foldl (fun a i => 2 * a + (d i).toNat) a := by
  subst hc
  induction is generalizing a with
  | nil => rfl
  | cons i is ih =>
    rw [List.map_cons, List.foldl_cons, strtol2]
    rcases h i List.mem_cons_self with e | e <;> rw [e] <;>
      simpa using ih (fun j hj => h j (List.mem_cons_of_mem _ hj)) _

theorem mapM_dig {n : Nat} {d : Nat → Int} {is : List Nat} (h : ∀ i ∈ is, i < n) :
    is.mapM (dig n d) = .ok (is.map fun i => d i + 48) := by
  induction is with
  | nil => rfl
  | cons i is ih =>
    rw [List.mapM_cons, ih fun j hj => h j (List.mem_cons_of_mem _ hj)]
    simp only [dig, rd_ok (h i List.mem_cons_self), ok_bind]
    rfl

theorem bitsField_eq {n : Nat} {d : Nat → Int} {is : List Nat} (hd : Bits n d) (h : ∀ i ∈ is, i < n) :
    bitsField n d is = .ok (fieldVal d is) := by
  unfold bitsField
  rw [mapM_dig h, ok_bind, strtol2_map (fun i hi => hd i (h i hi)) rfl]
  rfl

theorem shl_or_bit (a : Nat) {c : Int} (h : c = 0 ∨ c = 1) : (a <<< 1) ||| c.toNat = 2 * a + c.toNat := by
  rcases h with e | e <;> subst e
  · simp [Nat.shiftLeft_eq, Nat.mul_comm]
  · have : (a <<< 1) ||| 1 = (a <<< 1) + 1 := by
      rw [Nat.shiftLeft_eq, Nat.pow_one]
      have := Nat.two_pow_add_eq_or_of_lt (i := 1) (b := 1) (by decide) a
      rw [Nat.mul_comm a 2]
      simpa using this.symm
    simpa [Nat.shiftLeft_eq, Nat.mul_comm] using this

theorem orField_eq {d : Nat → Int} {is : List Nat} (hd : Bits 49 d) (h : ∀ i ∈ is, i < 49) :
    orField d is = .ok (fieldVal d is) := by
  unfold orField fieldVal
  generalize 0 = a
  induction is generalizing a with
  | nil => rfl
  | cons i is ih =>
    have hi := h i List.mem_cons_self
    have hb := hd i hi
    rw [List.foldlM_cons, List.foldl_cons, rd_ok hi]
    simp only [ok_bind]
    rw [if_neg (by rcases hb with e | e <;> rw [e] <;> decide), ok_bind, shl_or_bit a hb]
    exact ih (fun j hj => h j (List.mem_cons_of_mem _ hj)) _

end Verif.Model
