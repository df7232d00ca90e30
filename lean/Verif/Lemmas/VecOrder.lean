import Verif.Lemmas.VecWhole

/-!
# The order of the bins in the vector build
-/

set_option linter.unusedSectionVars false

namespace Verif.Model.Vec
open Verif Verif.Model Arith

section
variable {α β : Type}

/-- The pair of interleaved vectors from `p` on. -/
def ilv (c : Int → Vec4 α) (p : Int) : Vec4 α × Vec4 α := interleave (c p) (c (p + 1))

/-- The stores of `reversed_copy`. -/
def revW (c : Int → Vec4 α) (p o : Int) : List (Int × Vec4 α) :=
  [(o - 1, swapHL (ilv c p).1 (ilv c p).2)] ++
  ((List.range 7).flatMap fun t : Nat =>
    [(o - 2 * (t : Int) - 2, swapHL (ilv c (p + 8 * (t : Int))).2 (ilv c (p + 8 * ((t : Int) + 1))).1),
     (o - 2 * (t : Int) - 3, swapHL (ilv c (p + 8 * ((t : Int) + 1))).1 (ilv c (p + 8 * ((t : Int) + 1))).2)]) ++
  [(o - 16, swapHL (ilv c (p + 56)).2 (ilv c p).1)]

/-- The stores of `pffft_zreorder`, forward. -/
def zW (c : Int → Vec4 α) : List (Int × Vec4 α) :=
  ((List.range 8).flatMap fun k : Nat =>
    [(2 * (k : Int), (ilv c (8 * (k : Int))).1), (2 * (k : Int) + 1, (ilv c (8 * (k : Int))).2),
     (32 + 2 * (k : Int), (ilv c (8 * (k : Int) + 4)).1), (32 + 2 * (k : Int) + 1, (ilv c (8 * (k : Int) + 4)).2)]) ++ revW c 2 32 ++ revW c 6 64

/-- The stores of `unreversed_copy`. -/
def unrevW (c : Int → Vec4 α) (p o : Int) : List (Int × Vec4 α) :=
  ((List.range 7).flatMap fun t : Nat =>
    [(o - 8 * (t : Int), (uninterleave (swapHL (c (p + 1 + 2 * (t : Int))) (c (p + 2 + 2 * (t : Int)))) (swapHL (c (p + 2 * (t : Int))) (c (p + 1 + 2 * (t : Int))))).1),
     (o - 8 * (t : Int) + 1, (uninterleave (swapHL (c (p + 1 + 2 * (t : Int))) (c (p + 2 + 2 * (t : Int)))) (swapHL (c (p + 2 * (t : Int))) (c (p + 1 + 2 * (t : Int))))).2)]) ++
  [(o - 56, (uninterleave (swapHL (c (p + 15)) (c p)) (swapHL (c (p + 14)) (c (p + 15)))).1),
   (o - 55, (uninterleave (swapHL (c (p + 15)) (c p)) (swapHL (c (p + 14)) (c (p + 15)))).2)]

/-- The stores of `pffft_zreorder`, backward. -/
def zWB (c : Int → Vec4 α) : List (Int × Vec4 α) :=
  ((List.range 8).flatMap fun k : Nat =>
    [(8 * (k : Int), (uninterleave (c (2 * (k : Int))) (c (2 * (k : Int) + 1))).1), (8 * (k : Int) + 1, (uninterleave (c (2 * (k : Int))) (c (2 * (k : Int) + 1))).2),
     (8 * (k : Int) + 4, (uninterleave (c (32 + 2 * (k : Int))) (c (32 + 2 * (k : Int) + 1))).1),
     (8 * (k : Int) + 5, (uninterleave (c (32 + 2 * (k : Int))) (c (32 + 2 * (k : Int) + 1))).2)]) ++ unrevW c 16 58 ++ unrevW c 48 62

def zA : List Int := (zW (α := Unit) fun _ _ => ()).map Prod.fst
def zAB : List Int := (zWB (α := Unit) fun _ _ => ()).map Prod.fst

theorem zW_addr (c : Int → Vec4 α) : (zW c).map Prod.fst = zA := by
  simp only [zA, zW, revW, List.map_append, List.map_flatMap, List.map_cons, List.map_nil]

theorem zWB_addr (c : Int → Vec4 α) : (zWB c).map Prod.fst = zAB := by
  simp only [zAB, zWB, unrevW, List.map_append, List.map_flatMap, List.map_cons, List.map_nil]

theorem zA_bits : bitSet zA 0 = some (2 ^ 64 - 1) ∧ bitSet zAB 0 = some (2 ^ 64 - 1) := by decide +kernel

/-- The order as a function. -/
def zF (c : Int → Vec4 α) : Int → Vec4 α := valAt (c 0) (zW c)
def zB (c : Int → Vec4 α) : Int → Vec4 α := valAt (c 0) (zWB c)

/-- A function applied to all lanes. -/
def lmap (g : α → β) (v : Vec4 α) : Vec4 β := fun i => g (v i)

theorem lmap_v4 (g : α → β) (a b c d : α) : lmap g (v4 a b c d) = v4 (g a) (g b) (g c) (g d) := by
  funext i
  match i with
  | 0 => rfl
  | 1 => rfl
  | 2 => rfl
  | 3 => rfl

theorem lmap_swap (g : α → β) (a b : Vec4 α) : lmap g (swapHL a b) = swapHL (lmap g a) (lmap g b) := lmap_v4 ..
theorem lmap_ilv1 (g : α → β) (c : Int → Vec4 α) (p : Int) : lmap g (ilv c p).1 = (ilv (fun a => lmap g (c a)) p).1 := lmap_v4 ..
theorem lmap_ilv2 (g : α → β) (c : Int → Vec4 α) (p : Int) : lmap g (ilv c p).2 = (ilv (fun a => lmap g (c a)) p).2 := lmap_v4 ..
theorem lmap_un1 (g : α → β) (a b : Vec4 α) : lmap g (uninterleave a b).1 = (uninterleave (lmap g a) (lmap g b)).1 := lmap_v4 ..
theorem lmap_un2 (g : α → β) (a b : Vec4 α) : lmap g (uninterleave a b).2 = (uninterleave (lmap g a) (lmap g b)).2 := lmap_v4 ..

theorem zF_map (g : α → β) (c : Int → Vec4 α) (a : Int) (i : Fin 4) : g (zF c a i) = zF (fun a => lmap g (c a)) a i := by
  have e := valAt_map (c 0) (lmap g) (zW c) a
  have h : (zW c).map (fun p => (p.1, lmap g p.2)) = zW fun a => lmap g (c a) := by
    simp only [zW, revW, List.map_append, List.map_flatMap, List.map_cons, List.map_nil, lmap_swap, lmap_ilv1, lmap_ilv2]
  rw [h] at e
  exact congrFun e i

theorem zB_map (g : α → β) (c : Int → Vec4 α) (a : Int) (i : Fin 4) : g (zB c a i) = zB (fun a => lmap g (c a)) a i := by
  have e := valAt_map (c 0) (lmap g) (zWB c) a
  have h : (zWB c).map (fun p => (p.1, lmap g p.2)) = zWB fun a => lmap g (c a) := by
    simp only [zWB, unrevW, List.map_append, List.map_flatMap, List.map_cons, List.map_nil, lmap_swap, lmap_un1, lmap_un2]
  rw [h] at e
  exact congrFun e i

/-- The place of a float in the output of `pffft_real_finalize`: bin `m` below 32 lies in lane `m % 4` of block `m / 4`,
together with the bins `64 - m`, `64 + m` and `128 - m`; for `m = 0` these are 0, 128, 64, and 32, 96 in their stead. -/
def place (a : Int) : Int :=
  let M := a / 2
  let s := a % 2
  let at' (m i : Int) : Int := 4 * (8 * (m / 4) + i + s) + m % 4
  if M = 32 then at' 0 2 else if M = 96 then at' 0 6 else if M < 32 then at' M 0 else if M < 64 then at' (64 - M) 2
  else if M < 96 then at' (M - 64) 4 else at' (128 - M) 6

/-- The float at subscript `a` of a block of vectors. -/
def fl (c : Int → Vec4 α) (a : Int) : α := c (a / 4) ⟨(a % 4).toNat, by omega⟩

/-- The block of vectors that holds these floats. -/
def vecs (c : Int → α) (a : Int) : Vec4 α := fun i => c (4 * a + (i.val : Int))

theorem vecs_fl (c : Int → Vec4 α) : vecs (fl c) = c := by
  funext a i
  have h1 : (4 * a + (i.val : Int)) / 4 = a := by omega
  have h2 : (⟨((4 * a + (i.val : Int)) % 4).toNat, by omega⟩ : Fin 4) = i := Fin.ext (by dsimp only; omega)
  show c ((4 * a + (i.val : Int)) / 4) ⟨((4 * a + (i.val : Int)) % 4).toNat, by omega⟩ = _
  rw [h1, h2]

theorem place_ok : ∀ a : Fin 256, fl (zF (vecs (fun a : Int => a))) (a.val : Int) = place (a.val : Int) := by decide +kernel
theorem place_okB : ∀ a : Fin 256, fl (zB (vecs (fun a : Int => a))) (place (a.val : Int)) = (a.val : Int) := by decide +kernel

theorem fl_zF (c : Int → Vec4 α) {a : Int} (h0 : 0 ≤ a) (h : a < 256) : fl (zF c) a = fl c (place a) := by
  have e := zF_map (fl c) (vecs fun a : Int => a) (a / 4) ⟨(a % 4).toNat, by omega⟩
  have p := place_ok ⟨a.toNat, by omega⟩
  dsimp only at p
  rw [Int.toNat_of_nonneg h0] at p
  have h : (fun a : Int => lmap (fl c) (vecs (fun a : Int => a) a)) = c := vecs_fl c
  rw [h] at e
  rw [← p]
  exact e.symm

theorem fl_zB (c : Int → Vec4 α) {a : Int} (h0 : 0 ≤ a) (h : a < 256) : fl (zB c) (place a) = fl c a := by
  have e := zB_map (fl c) (vecs fun a : Int => a) (place a / 4) ⟨(place a % 4).toNat, by omega⟩
  have p := place_okB ⟨a.toNat, by omega⟩
  dsimp only at p
  rw [Int.toNat_of_nonneg h0] at p
  have h : (fun a : Int => lmap (fl c) (vecs (fun a : Int => a) a)) = c := vecs_fl c
  rw [h] at e
  conv_rhs => rw [← p]
  exact e.symm

end

variable {F : Type} [Arith F]

theorem bits64 {W : List Int} (h : bitSet W 0 = some (2 ^ 64 - 1)) : W.Nodup ∧ (∀ a ∈ W, 0 ≤ a) ∧ ∀ j : Nat, j < 64 → (j : Int) ∈ W := by
  obtain ⟨h1, h2, h3⟩ := bitSet_spec h
  refine ⟨h1, fun a ha => (h2 a ha).1, fun j hj => ?_⟩
  rcases h3 j (by rw [Nat.testBit_two_pow_sub_one]; exact decide_eq_true hj) with h | h
  · rw [Nat.zero_testBit] at h; cases h
  · exact h

theorem reversedCopy_eq (c : Int → Vec4 F) (out : Loc 64 (Vec4 F)) {p o : Int} (hp : 0 ≤ p) (hp' : p ≤ 6) (ho : 16 ≤ o) (ho' : o ≤ 64) :
    reversedCopy 8 (full 64 c) p 8 out o = .ok (stores out (revW c p o)) := by
  unfold reversedCopy
  rw [rd_full (by omega) (by omega), ok_bind, rd_full (by omega) (by omega), ok_bind]
  dsimp only
  rw [wr_stores (by omega) (by omega), ok_bind]
  have h7 : ((8 : Int) - 1).toNat = 7 := rfl
  have key : ∀ t : Nat, t ≤ 7 → loop t (fun t (s : Vec4 F × Loc 64 (Vec4 F)) => do
      let p := p + 8 * ((t : Int) + 1)
      let h := interleave (← (full 64 c).rd p) (← (full 64 c).rd (p + 1))
      let out ← s.2.wr (o - 2 * (t : Int) - 2) (swapHL s.1 h.1)
      let out ← out.wr (o - 2 * (t : Int) - 3) (swapHL h.1 h.2)
      .ok (h.2, out)) ((interleave (c p) (c (p + 1))).2, stores out [(o - 1, swapHL (interleave (c p) (c (p + 1))).1 (interleave (c p) (c (p + 1))).2)]) =
      .ok ((ilv c (p + 8 * (t : Int))).2, stores out ([(o - 1, swapHL (ilv c p).1 (ilv c p).2)] ++
        ((List.range t).flatMap fun t : Nat =>
          [(o - 2 * (t : Int) - 2, swapHL (ilv c (p + 8 * (t : Int))).2 (ilv c (p + 8 * ((t : Int) + 1))).1),
           (o - 2 * (t : Int) - 3, swapHL (ilv c (p + 8 * ((t : Int) + 1))).1 (ilv c (p + 8 * ((t : Int) + 1))).2)]))) := by
    intro t ht
    induction t with
    | zero =>
      rw [show p + 8 * ((0 : Nat) : Int) = p by omega]
      rfl
    | succ t ih =>
      rw [loop_succ, ih (by omega), ok_bind]
      dsimp only
      rw [rd_full (by omega) (by omega), ok_bind, rd_full (by omega) (by omega), ok_bind, wr_stores (by omega) (by omega), ok_bind,
        wr_stores (by omega) (by omega), ok_bind, stores_stores, stores_stores, List.range_succ, List.flatMap_append, List.append_assoc,
        List.flatMap_singleton]
      push_cast
      rfl
  rw [h7, key 7 (by omega), ok_bind, wr_stores (by omega) (by omega), stores_stores]
  rfl

theorem zreorderFwdV_eq (c : Int → Vec4 F) (out : Loc 64 (Vec4 F)) : zreorderFwdV 256 (full 64 c) out = .ok (full 64 (zF c)) := by
  unfold zreorderFwdV
  have h8 : (Int.tdiv 256 32).toNat = 8 := rfl
  have d8 : Int.tdiv 256 32 = 8 := rfl
  have t1 : Int.tdiv (Int.tdiv 256 2) 4 = 32 := rfl
  have t2 : Int.tdiv 256 4 = 64 := rfl
  dsimp only
  rw [d8, t1, t2]
  have h8' : (8 : Int).toNat = 8 := rfl
  rw [h8', loop_stores (fun k : Nat => [(2 * (k : Int), (ilv c (8 * (k : Int))).1), (2 * (k : Int) + 1, (ilv c (8 * (k : Int))).2),
     (32 + 2 * (k : Int), (ilv c (8 * (k : Int) + 4)).1), (32 + 2 * (k : Int) + 1, (ilv c (8 * (k : Int) + 4)).2)]) (by
    intro t ht s
    rw [rd_full (by omega) (by omega), ok_bind, rd_full (by omega) (by omega), ok_bind, wr_stores (by omega) (by omega), ok_bind,
      wr_stores (by omega) (by omega), ok_bind, rd_full (by omega) (by omega), ok_bind, rd_full (by omega) (by omega), ok_bind,
      wr_stores (by omega) (by omega), ok_bind, wr_stores (by omega) (by omega), stores_stores, stores_stores, stores_stores]
    have a1 : 2 * (0 * 8 + (t : Int)) + 0 = 2 * (t : Int) := by omega
    have a2 : 2 * (0 * 8 + (t : Int)) + 1 = 2 * (t : Int) + 1 := by omega
    have a3 : 2 * (2 * 8 + (t : Int)) + 0 = 32 + 2 * (t : Int) := by omega
    have a4 : 2 * (2 * 8 + (t : Int)) + 1 = 32 + 2 * (t : Int) + 1 := by omega
    have b1 : (t : Int) * 8 + 0 = 8 * (t : Int) := by omega
    have b2 : (t : Int) * 8 + 1 = 8 * (t : Int) + 1 := by omega
    have b3 : (t : Int) * 8 + 4 = 8 * (t : Int) + 4 := by omega
    have b4 : (t : Int) * 8 + 5 = 8 * (t : Int) + 4 + 1 := by omega
    rw [a1, a2, a3, a4, b1, b2, b3, b4]
    rfl), ok_bind, reversedCopy_eq c _ (by omega) (by omega) (by omega) (by omega), ok_bind,
    reversedCopy_eq c _ (by omega) (by omega) (by omega) (by omega), stores_stores, stores_stores]
  obtain ⟨h1, h2, h3⟩ := bits64 zA_bits.1
  have hW := stores_full (c 0) out (W := zW c) (by rw [zW_addr]; exact h1) (by rw [zW_addr]; exact h2) (by rw [zW_addr]; exact h3)
  rw [← List.append_assoc]
  exact congrArg _ hW

theorem unreversedCopy_eq (c : Int → Vec4 F) (out : Loc 64 (Vec4 F)) {p o : Int} (hp : 0 ≤ p) (hp' : p ≤ 48) (ho : 56 ≤ o) (ho' : o ≤ 62) :
    unreversedCopy 8 (full 64 c) p out o (-8) = .ok (stores out (unrevW c p o)) := by
  unfold unreversedCopy
  rw [rd_full (by omega) (by omega), ok_bind]
  have h7 : ((8 : Int) - 1).toNat = 7 := rfl
  have key : ∀ t : Nat, t ≤ 7 → loop t (fun t (s : Vec4 F × Loc 64 (Vec4 F)) => do
      let h0 ← (full 64 c).rd (p + 1 + 2 * (t : Int))
      let h1 ← (full 64 c).rd (p + 2 + 2 * (t : Int))
      let u := uninterleave (swapHL h0 h1) (swapHL s.1 h0)
      let out ← s.2.wr (o + (-8) * (t : Int)) u.1
      let out ← out.wr (o + (-8) * (t : Int) + 1) u.2
      .ok (h1, out)) (c p, out) =
      .ok (c (p + 2 * (t : Int)), stores out (
        ((List.range t).flatMap fun t : Nat =>
    [(o - 8 * (t : Int), (uninterleave (swapHL (c (p + 1 + 2 * (t : Int))) (c (p + 2 + 2 * (t : Int)))) (swapHL (c (p + 2 * (t : Int))) (c (p + 1 + 2 * (t : Int))))).1),
     (o - 8 * (t : Int) + 1, (uninterleave (swapHL (c (p + 1 + 2 * (t : Int))) (c (p + 2 + 2 * (t : Int)))) (swapHL (c (p + 2 * (t : Int))) (c (p + 1 + 2 * (t : Int))))).2)]))) := by
    intro t ht
    induction t with
    | zero =>
      rw [show p + 2 * ((0 : Nat) : Int) = p by omega]
      rfl
    | succ t ih =>
      rw [loop_succ, ih (by omega), ok_bind]
      dsimp only
      rw [rd_full (by omega) (by omega), ok_bind, rd_full (by omega) (by omega), ok_bind, show o + (-8) * (t : Int) = o - 8 * (t : Int) by omega,
        wr_stores (by omega) (by omega), ok_bind,
        wr_stores (by omega) (by omega), ok_bind, stores_stores, stores_stores, List.range_succ, List.flatMap_append,
        List.flatMap_singleton, show p + 2 * ((t + 1 : Nat) : Int) = p + 2 + 2 * (t : Int) by omega]
      rfl
  rw [h7, key 7 (by omega), ok_bind, rd_full (by omega) (by omega), ok_bind]
  dsimp only
  rw [wr_stores (by omega) (by omega), ok_bind, wr_stores (by omega) (by omega), stores_stores, stores_stores,
    show p + 2 * 8 - 1 = p + 15 by omega, show o + -8 * ((8 : Int) - 1) = o - 56 by omega, show o - 56 + 1 = o - 55 by omega]
  rfl

theorem zreorderBwdV_eq (c : Int → Vec4 F) (out : Loc 64 (Vec4 F)) : zreorderBwdV 256 (full 64 c) out = .ok (full 64 (zB c)) := by
  unfold zreorderBwdV
  have d8 : Int.tdiv 256 32 = 8 := rfl
  have t1 : Int.tdiv (Int.tdiv 256 4) 4 = 16 := rfl
  have t2 : Int.tdiv (Int.tdiv (3 * 256) 4) 4 = 48 := rfl
  have t3 : Int.tdiv (256 - 6 * 4) 4 = 58 := rfl
  have t4 : Int.tdiv (256 - 2 * 4) 4 = 62 := rfl
  dsimp only
  rw [d8, t1, t2, t3, t4]
  have h8' : (8 : Int).toNat = 8 := rfl
  rw [h8', loop_stores (fun k : Nat =>
    [(8 * (k : Int), (uninterleave (c (2 * (k : Int))) (c (2 * (k : Int) + 1))).1), (8 * (k : Int) + 1, (uninterleave (c (2 * (k : Int))) (c (2 * (k : Int) + 1))).2),
     (8 * (k : Int) + 4, (uninterleave (c (32 + 2 * (k : Int))) (c (32 + 2 * (k : Int) + 1))).1),
     (8 * (k : Int) + 5, (uninterleave (c (32 + 2 * (k : Int))) (c (32 + 2 * (k : Int) + 1))).2)]) (by
    intro t ht s
    rw [rd_full (by omega) (by omega), ok_bind, rd_full (by omega) (by omega), ok_bind, wr_stores (by omega) (by omega), ok_bind,
      wr_stores (by omega) (by omega), ok_bind, rd_full (by omega) (by omega), ok_bind, rd_full (by omega) (by omega), ok_bind,
      wr_stores (by omega) (by omega), ok_bind, wr_stores (by omega) (by omega), stores_stores, stores_stores, stores_stores]
    have a1 : 2 * (0 * 8 + (t : Int)) + 0 = 2 * (t : Int) := by omega
    have a2 : 2 * (0 * 8 + (t : Int)) + 1 = 2 * (t : Int) + 1 := by omega
    have a3 : 2 * (2 * 8 + (t : Int)) + 0 = 32 + 2 * (t : Int) := by omega
    have a4 : 2 * (2 * 8 + (t : Int)) + 1 = 32 + 2 * (t : Int) + 1 := by omega
    have b1 : (t : Int) * 8 + 0 = 8 * (t : Int) := by omega
    have b2 : (t : Int) * 8 + 1 = 8 * (t : Int) + 1 := by omega
    have b3 : (t : Int) * 8 + 4 = 8 * (t : Int) + 4 := by omega
    have b4 : (t : Int) * 8 + 5 = 8 * (t : Int) + 5 := by omega
    rw [a1, a2, a3, a4, b1, b2, b3, b4]
    rfl), ok_bind, unreversedCopy_eq c _ (by omega) (by omega) (by omega) (by omega), ok_bind,
    unreversedCopy_eq c _ (by omega) (by omega) (by omega) (by omega), stores_stores, stores_stores]
  obtain ⟨h1, h2, h3⟩ := bits64 zA_bits.2
  have hW := stores_full (c 0) out (W := zWB c) (by rw [zWB_addr]; exact h1) (by rw [zWB_addr]; exact h2) (by rw [zWB_addr]; exact h3)
  rw [← List.append_assoc]
  exact congrArg _ hW

end Verif.Model.Vec
