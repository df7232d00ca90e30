import Verif.Model.Dump
import Verif.Spec.Dump
import Verif.Lemmas.Exec

/-!
# Lemmas about the printing functions
-/

namespace Verif.Model
open Verif Verif.Spec

theorem intText_bit {v : Int} (h : v = 0 ∨ v = 1) : intText v = [bitChar v] := by
  rcases h with rfl | rfl <;> decide

theorem bitChar_inj {v w : Int} (hv : v = 0 ∨ v = 1) (hw : w = 0 ∨ w = 1) (h : bitChar v = bitChar w) : v = w := by
  rcases hv with rfl | rfl <;> rcases hw with rfl | rfl <;> first | rfl | exact absurd h (by decide)

theorem bitChar_ne (v : Int) : bitChar v ≠ ' ' := by unfold bitChar; split <;> decide

theorem flatMap_congr' {α β : Type} {l : List α} {f g : α → List β} (h : ∀ a ∈ l, f a = g a) : l.flatMap f = l.flatMap g := by
  induction l with
  | nil => rfl
  | cons a l ih => rw [List.flatMap_cons, List.flatMap_cons, h a (by simp), ih fun b hb => h b (by simp [hb])]

/-- The text of a payload, whatever its contents. -/
def dataText (n : Nat) (seps : List Nat) (t : Nat → List Char) : List Char :=
  (List.range n).flatMap fun i => (if i ∈ seps then [' '] else []) ++ t i

theorem loop_text (n : Nat) (f : Nat → List Char → Exec (List Char)) (t : Nat → List Char)
    (h : ∀ i < n, ∀ o, f i o = .ok (o ++ t i)) (o : List Char) : loop n f o = .ok (o ++ (List.range n).flatMap t) := by
  induction n with
  | zero => simp
  | succ n ih =>
    rw [loop_succ, ih fun i hi => h i (by omega), ok_bind, h n (by omega), List.range_succ, List.flatMap_append,
      List.append_assoc]
    simp

theorem loopDown_text (n : Nat) (f : Nat → List Char → Exec (List Char)) (t : Nat → List Char)
    (h : ∀ i < n, ∀ o, f i o = .ok (o ++ t i)) (o : List Char) :
    loopDown n f o = .ok (o ++ (List.range n).flatMap fun k => t (n - 1 - k)) := by
  induction n generalizing o with
  | zero => simp [loopDown]
  | succ n ih =>
    show (f n o >>= fun s => loopDown n f s) = _
    rw [h n (by omega), ok_bind, ih fun i hi => h i (by omega), List.range_succ_eq_map, List.flatMap_cons,
      List.flatMap_map, List.append_assoc]
    congr 4
    funext k
    rw [show n + 1 - 1 - k.succ = n - 1 - k by omega]

theorem printData_eq (n : Nat) (seps : List Nat) (d : Nat → Int) (o : List Char) :
    printData n seps d o = .ok (o ++ dataText n seps fun i => intText (d i)) := by
  refine loop_text n _ (fun i => (if i ∈ seps then [' '] else []) ++ intText (d i)) (fun i hi o => ?_) o
  rw [rd_ok hi, ok_bind]
  split <;> simp

/-- The text of a codeword. -/
def rowText (n : Nat) (sep : Option Nat) (t : Nat → List Char) : List Char :=
  (List.range n).flatMap fun k => (if sep = some (n - 1 - k) then [' '] else []) ++ t (n - 1 - k)

theorem printRow_eq {R C : Nat} (fr : Frame) {i n : Nat} (hi : i < R) (hn : n ≤ C) (sep : Option Nat) (o : List Char) :
    printRow R C fr i n sep o = .ok (o ++ rowText n sep fun j => intText (fr i j)) := by
  refine loopDown_text n _ (fun j => (if sep = some j then [' '] else []) ++ intText (fr i j)) (fun j hj o => ?_) o
  rw [show rdF R C fr i j = .ok (fr i j) from if_pos ⟨hi, by omega⟩, ok_bind]
  split <;> simp

theorem dataText_congr {n : Nat} {seps : List Nat} {t u : Nat → List Char} (h : ∀ i < n, t i = u i) :
    dataText n seps t = dataText n seps u :=
  flatMap_congr' fun i hi => by rw [h i (List.mem_range.1 hi)]

theorem rowText_congr {n : Nat} {sep : Option Nat} {t u : Nat → List Char} (h : ∀ i < n, t i = u i) :
    rowText n sep t = rowText n sep u :=
  flatMap_congr' fun i hi => by
    have := List.mem_range.1 hi
    rw [h _ (by omega)]

theorem filter_seps (n : Nat) (s : Nat → List Char) (t : Nat → Char) (hs : ∀ i, s i = [] ∨ s i = [' '])
    (ht : ∀ i, t i ≠ ' ') :
    ((List.range n).flatMap fun i => s i ++ [t i]).filter (· ≠ ' ') = (List.range n).map t := by
  rw [List.filter_flatMap]
  rw [List.map_eq_flatMap]
  refine flatMap_congr' fun i _ => ?_
  rw [List.filter_append]
  rcases hs i with h | h <;> rw [h] <;> simp [ht i]

theorem dataText_inj {n : Nat} {seps : List Nat} {d d' : Nat → Int} (h : Bits n d) (h' : Bits n d')
    (e : (dataText n seps fun i => [bitChar (d i)]) = dataText n seps fun i => [bitChar (d' i)]) : ∀ k < n, d k = d' k := by
  intro k hk
  have e := congrArg (List.filter (· ≠ ' ')) e
  unfold dataText at e
  have hs : ∀ i, (if i ∈ seps then [' '] else []) = [] ∨ (if i ∈ seps then [' '] else []) = [' '] := fun i => by
    split <;> simp
  rw [filter_seps n _ (fun i => bitChar (d i)) hs fun _ => bitChar_ne _,
    filter_seps n _ (fun i => bitChar (d' i)) hs fun _ => bitChar_ne _] at e
  exact bitChar_inj (h k hk) (h' k hk) (List.map_eq_map_iff.1 e k (List.mem_range.2 hk))

theorem rowText_inj {n : Nat} {sep : Option Nat} {d d' : Nat → Int} (h : Bits n d) (h' : Bits n d')
    (e : (rowText n sep fun i => [bitChar (d i)]) = rowText n sep fun i => [bitChar (d' i)]) : ∀ k < n, d k = d' k := by
  intro k hk
  have e := congrArg (List.filter (· ≠ ' ')) e
  unfold rowText at e
  have hs : ∀ i, (if sep = some (n - 1 - i) then [' '] else []) = [] ∨ (if sep = some (n - 1 - i) then [' '] else []) = [' '] :=
    fun i => by split <;> simp
  rw [filter_seps n _ (fun i => bitChar (d (n - 1 - i))) hs fun _ => bitChar_ne _,
    filter_seps n _ (fun i => bitChar (d' (n - 1 - i))) hs fun _ => bitChar_ne _] at e
  have := List.map_eq_map_iff.1 e (n - 1 - k) (List.mem_range.2 (by omega))
  rw [show n - 1 - (n - 1 - k) = k by omega] at this
  exact bitChar_inj (h k hk) (h' k hk) this

theorem rowText_length (n : Nat) (sep : Option Nat) (d d' : Nat → Int) :
    (rowText n sep fun i => [bitChar (d i)]).length = (rowText n sep fun i => [bitChar (d' i)]).length := by
  unfold rowText
  rw [List.length_flatMap, List.length_flatMap]
  simp

/-- The text of a 7200x4400 frame. -/
def text7200 (t : Nat → Nat → List Char) : List Char :=
  rowText 23 none (t 0) ++ ([' '] ++ (rowText 23 none (t 1) ++ ([' '] ++ (rowText 23 none (t 2) ++ ([' '] ++ (rowText 23 none (t 3) ++
    ([' '] ++ (rowText 15 none (t 4) ++ ([' '] ++ (rowText 15 none (t 5) ++ ([' '] ++ (rowText 15 none (t 6) ++ ([' '] ++
      rowText 7 none (t 7))))))))))))))

/-- The text of a 7100x4400 frame. -/
def text7100 (t : Nat → Nat → List Char) : List Char :=
  rowText 19 (some 11) (t 0) ++ ([' '] ++ (rowText 24 (some 11) (t 1) ++ ([' '] ++ (rowText 23 (some 10) (t 2) ++ ([' '] ++
    (rowText 23 (some 10) (t 3) ++ ([' '] ++ (rowText 15 (some 3) (t 4) ++ ([' '] ++ (rowText 15 (some 3) (t 5) ++ ([' '] ++
      rowText 23 none (t 6))))))))))))

/-- The text of an AMBE frame. -/
def textAmbe (t : Nat → Nat → List Char) : List Char :=
  "ambe_fr c0: ".toList ++ (rowText 24 none (t 0) ++ (" ".toList ++ ("ambe_fr c1: ".toList ++ (rowText 23 none (t 1) ++
    (" ".toList ++ ("ambe_fr c2: ".toList ++ (rowText 11 none (t 2) ++ (" ".toList ++ ("ambe_fr c3: ".toList ++
      (rowText 14 none (t 3) ++ " ".toList))))))))))

theorem dumpImbe7200Frame_eq (fr : Frame) : dumpImbe7200Frame fr = .ok (text7200 fun i j => intText (fr i j)) := by
  unfold dumpImbe7200Frame text7200
  simp only [loop, ok_bind, Nat.reduceAdd]
  simp only [printRow_eq, ok_bind, Nat.reduceLT, Nat.reduceLeDiff, List.append_assoc, List.nil_append]

theorem dumpImbe7100Frame_eq (fr : Frame) : dumpImbe7100Frame fr = .ok (text7100 fun i j => intText (fr i j)) := by
  unfold dumpImbe7100Frame text7100
  simp only [loop, ok_bind, Nat.reduceAdd]
  simp only [printRow_eq, ok_bind, Nat.reduceLT, Nat.reduceLeDiff, List.append_assoc, List.nil_append]

theorem dumpAmbeFrame_eq (fr : Frame) : dumpAmbeFrame fr = .ok (textAmbe fun i j => intText (fr i j)) := by
  unfold dumpAmbeFrame textAmbe
  simp only [printRow_eq, ok_bind, Nat.reduceLT, Nat.reduceLeDiff, List.append_assoc]

theorem rowText_bits {n : Nat} {sep : Option Nat} {d : Nat → Int} (h : Bits n d) :
    (rowText n sep fun j => intText (d j)) = rowText n sep fun j => [bitChar (d j)] :=
  rowText_congr fun j hj => intText_bit (h j hj)

theorem text7200_bits {fr : Frame} (h : RowBits rows7200 fr) :
    (text7200 fun i j => intText (fr i j)) = text7200 fun i j => [bitChar (fr i j)] := by
  unfold text7200
  rw [rowText_bits (show Bits 23 (fr 0) from h 0 (by decide)), rowText_bits (show Bits 23 (fr 1) from h 1 (by decide)), rowText_bits (show Bits 23 (fr 2) from h 2 (by decide)),
    rowText_bits (show Bits 23 (fr 3) from h 3 (by decide)), rowText_bits (show Bits 15 (fr 4) from h 4 (by decide)), rowText_bits (show Bits 15 (fr 5) from h 5 (by decide)),
    rowText_bits (show Bits 15 (fr 6) from h 6 (by decide)), rowText_bits (show Bits 7 (fr 7) from h 7 (by decide))]

theorem text7100_bits {fr : Frame} (h : RowBits rows7100 fr) :
    (text7100 fun i j => intText (fr i j)) = text7100 fun i j => [bitChar (fr i j)] := by
  unfold text7100
  rw [rowText_bits (show Bits 19 (fr 0) from h 0 (by decide)), rowText_bits (show Bits 24 (fr 1) from h 1 (by decide)), rowText_bits (show Bits 23 (fr 2) from h 2 (by decide)),
    rowText_bits (show Bits 23 (fr 3) from h 3 (by decide)), rowText_bits (show Bits 15 (fr 4) from h 4 (by decide)), rowText_bits (show Bits 15 (fr 5) from h 5 (by decide)),
    rowText_bits (show Bits 23 (fr 6) from h 6 (by decide))]

theorem textAmbe_bits {fr : Frame} (h : RowBits rowsAmbe fr) :
    (textAmbe fun i j => intText (fr i j)) = textAmbe fun i j => [bitChar (fr i j)] := by
  unfold textAmbe
  rw [rowText_bits (show Bits 24 (fr 0) from h 0 (by decide)), rowText_bits (show Bits 23 (fr 1) from h 1 (by decide)), rowText_bits (show Bits 11 (fr 2) from h 2 (by decide)),
    rowText_bits (show Bits 14 (fr 3) from h 3 (by decide))]

end Verif.Model
