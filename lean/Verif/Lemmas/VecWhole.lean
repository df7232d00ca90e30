import Verif.Lemmas.VecPass

/-!
# The steps between the lanes, and the whole transform, as functions
-/

set_option linter.unusedSectionVars false

namespace Verif.Model.Vec
open Verif Verif.Model Arith

/-! ## Filling a block from some place on -/

section
variable {n : Nat} {α : Type}

/-- A block whose elements from `lo` to `hi` are those of `f`. -/
def fill (s : Loc n α) (lo hi : Int) (f : Int → α) : Loc n α := fun j => if lo ≤ (j.val : Int) ∧ (j.val : Int) < hi then some (f (j.val : Int)) else s j

theorem fill_empty (s : Loc n α) (lo : Int) (f : Int → α) : fill s lo lo f = s := funext fun j => if_neg (by omega)

theorem fill_full (s : Loc n α) (f : Int → α) : fill s 0 n f = full n f := funext fun j => if_pos (by have := j.isLt; omega)

theorem fill_congr (s : Loc n α) {lo hi : Int} {f g : Int → α} (h : ∀ a, lo ≤ a → a < hi → f a = g a) : fill s lo hi f = fill s lo hi g := by
  funext j
  unfold fill
  split
  · rename_i h'; rw [h _ h'.1 h'.2]
  · rfl

theorem rd_fill (s : Loc n α) {lo hi i : Int} {f : Int → α} (h0 : 0 ≤ i) (hn : i < n) (h1 : lo ≤ i) (h2 : i < hi) : Loc.rd (fill s lo hi f) i = .ok (f i) := by
  obtain ⟨j, rfl⟩ : ∃ j : Nat, i = (j : Int) := ⟨i.toNat, by omega⟩
  exact Loc.rd_nat (by omega) (if_pos ⟨h1, h2⟩)

theorem wr_fill (s : Loc n α) {lo hi i : Int} {f : Int → α} {v : α} (he : hi = i) (h0 : 0 ≤ i) (hn : i < n) (hl : lo ≤ i) (hv : v = f i) :
    Loc.wr (fill s lo hi f) i v = .ok (fill s lo (i + 1) f) := by
  subst he
  rw [wr_stores h0 hn]
  congr 1
  funext j
  subst hv
  have : stores (fill s lo hi f) [(hi, f hi)] j = if j.val = hi.toNat then some (f hi) else fill s lo hi f j := rfl
  rw [this]
  unfold fill
  split
  · rename_i e
    rw [if_pos (by omega)]
    congr 2; omega
  · exact if_congr (by omega) rfl rfl

theorem wr_fill_lo (s : Loc n α) {lo hi : Int} {f : Int → α} {v : α} (h0 : 0 ≤ lo) (hn : lo < n) (hl : lo < hi) (hv : v = f lo) :
    Loc.wr (fill s (lo + 1) hi f) lo v = .ok (fill s lo hi f) := by
  rw [wr_stores h0 hn]
  congr 1
  funext j
  subst hv
  have : stores (fill s (lo + 1) hi f) [(lo, f lo)] j = if j.val = lo.toNat then some (f lo) else fill s (lo + 1) hi f j := rfl
  rw [this]
  unfold fill
  split
  · rename_i e
    rw [if_pos (by omega)]
    congr 2; omega
  · exact if_congr (by omega) rfl rfl

theorem wr_fill_in (s : Loc n α) {lo hi i : Int} {f : Int → α} {v : α} (h0 : 0 ≤ i) (hn : i < n) (h1 : lo ≤ i) (h2 : i < hi) :
    Loc.wr (fill s lo hi f) i v = .ok (fill s lo hi (fun a => if a = i then v else f a)) := by
  rw [wr_stores h0 hn]
  congr 1
  funext j
  have : stores (fill s lo hi f) [(i, v)] j = if j.val = i.toNat then some v else fill s lo hi f j := rfl
  rw [this]
  unfold fill
  split
  · rename_i e
    rw [if_pos (by omega)]
    dsimp only
    rw [if_pos (by omega)]
  · rename_i e
    have hne : ¬ ((j.val : Int) = i) := by omega
    simp only [hne, if_false]

end

variable {F : Type} [Arith F]

/-! ## After the forward passes -/

/-- The eight values of `pffft_real_finalize_4x4`, in any arithmetic. -/
def fin8 {G : Type} [Arith G] (r i : Fin 4 → G) (e : Fin 6 → G) : Fin 8 → G :=
  let c1 := mulCplx (r 1) (i 1) (e 0) (e 1)
  let c2 := mulCplx (r 2) (i 2) (e 2) (e 3)
  let c3 := mulCplx (r 3) (i 3) (e 4) (e 5)
  fun n => match n with
  | 0 => (r 0 +ᶠ c2.1) +ᶠ (c1.1 +ᶠ c3.1)
  | 1 => (i 0 +ᶠ c2.2) +ᶠ (c1.2 +ᶠ c3.2)
  | 2 => (r 0 -ᶠ c2.1) +ᶠ (c3.2 -ᶠ c1.2)
  | 3 => (c3.1 -ᶠ c1.1) -ᶠ (i 0 -ᶠ c2.2)
  | 4 => (r 0 -ᶠ c2.1) -ᶠ (c3.2 -ᶠ c1.2)
  | 5 => (c3.1 -ᶠ c1.1) +ᶠ (i 0 -ᶠ c2.2)
  | 6 => (r 0 +ᶠ c2.1) -ᶠ (c1.1 +ᶠ c3.1)
  | 7 => (c1.2 +ᶠ c3.2) -ᶠ (i 0 +ᶠ c2.2)

theorem fin8_lane (r i : Fin 4 → Vec4 F) (e : Fin 6 → Vec4 F) (n : Fin 8) (b : Fin 4) :
    fin8 r i e n b = fin8 (fun t => r t b) (fun t => i t b) (fun t => e t b) n := by
  match n with
  | 0 => rfl
  | 1 => rfl
  | 2 => rfl
  | 3 => rfl
  | 4 => rfl
  | 5 => rfl
  | 6 => rfl
  | 7 => rfl

/-- The remainder of a subscript. -/
def low8 (a : Int) : Fin 8 := ⟨(a % 8).toNat, by omega⟩

theorem finalize4x4_eq {r0 i0 : Vec4 F} {c e : Int → Vec4 F} {out : Loc 64 (Vec4 F)} {f : Int → Vec4 F} {k : Int} (h0 : 0 ≤ k) (h8 : k < 8)
    (hf : ∀ n : Fin 8, f (8 * k + (n.val : Int)) = fin8 (transpose4 r0 (c (8 * k + 1)) (c (8 * k + 1 + 2)) (c (8 * k + 1 + 4)))
      (transpose4 i0 (c (8 * k + 1 + 1)) (c (8 * k + 1 + 3)) (c (8 * k + 1 + 5))) (fun t => e (6 * k + (t.val : Int))) n) :
    finalize4x4 r0 i0 (full 64 c) (8 * k + 1) (full 48 e) (6 * k) (fill out 0 (8 * k) f) (8 * k) = .ok (fill out 0 (8 * k + 8) f) := by
  unfold finalize4x4
  rw [rd_full (by omega) (by omega), ok_bind, rd_full (by omega) (by omega), ok_bind, rd_full (by omega) (by omega), ok_bind,
    rd_full (by omega) (by omega), ok_bind, rd_full (by omega) (by omega), ok_bind, rd_full (by omega) (by omega), ok_bind]
  dsimp only
  rw [rd_full (by omega) (by omega), ok_bind, rd_full (by omega) (by omega), ok_bind, rd_full (by omega) (by omega), ok_bind,
    rd_full (by omega) (by omega), ok_bind, rd_full (by omega) (by omega), ok_bind, rd_full (by omega) (by omega), ok_bind]
  have e0 : e (6 * k) = e (6 * k + ((0 : Fin 6).val : Int)) := by congr 1; exact (Int.add_zero _).symm
  have g0 := hf 0
  rw [show (8 * k : Int) + ((0 : Fin 8).val : Int) = 8 * k from Int.add_zero _] at g0
  rw [e0, wr_fill out rfl (by omega) (by omega) (by omega) (by exact g0.symm), ok_bind,
    wr_fill out rfl (by omega) (by omega) (by omega) (by exact (hf 1).symm), ok_bind,
    wr_fill out (by omega) (by omega) (by omega) (by omega) (by exact (hf 2).symm), ok_bind,
    wr_fill out (by omega) (by omega) (by omega) (by omega) (by exact (hf 3).symm), ok_bind,
    wr_fill out (by omega) (by omega) (by omega) (by omega) (by exact (hf 4).symm), ok_bind,
    wr_fill out (by omega) (by omega) (by omega) (by omega) (by exact (hf 5).symm), ok_bind,
    wr_fill out (by omega) (by omega) (by omega) (by omega) (by exact (hf 6).symm), ok_bind,
    wr_fill out (by omega) (by omega) (by omega) (by omega) (by exact (hf 7).symm), show 8 * k + 7 + 1 = 8 * k + 8 by omega]

theorem setLane0_fill (out : Loc 64 (Vec4 F)) (f : Int → Vec4 F) {i : Int} (x : F) (h0 : 0 ≤ i) (h8 : i < 8) :
    setLane0 (fill out 0 8 f) i x = .ok (fill out 0 8 (fun a => if a = i then v4 x (f i 1) (f i 2) (f i 3) else f a)) := by
  unfold setLane0
  rw [rd_fill out h0 (by omega) h0 h8, ok_bind, wr_fill_in out h0 (by omega) h0 h8]

/-- The eight values for the bins 0, 32, 64, 96 and 128. -/
def edge8 (cr ci : Vec4 F) : Fin 8 → F := fun n => match n with
  | 0 => (cr 0 +ᶠ cr 2) +ᶠ (cr 1 +ᶠ cr 3)
  | 1 => (cr 0 +ᶠ cr 2) -ᶠ (cr 1 +ᶠ cr 3)
  | 2 => ci 0 +ᶠ (sqrtHalf *ᶠ (ci 1 -ᶠ ci 3))
  | 3 => neg (ci 2) -ᶠ (sqrtHalf *ᶠ (ci 1 +ᶠ ci 3))
  | 4 => cr 0 -ᶠ cr 2
  | 5 => cr 3 -ᶠ cr 1
  | 6 => ci 0 -ᶠ (sqrtHalf *ᶠ (ci 1 -ᶠ ci 3))
  | 7 => ci 2 -ᶠ (sqrtHalf *ᶠ (ci 1 +ᶠ ci 3))

theorem finalizeEdge_eq (cr ci : Vec4 F) (out : Loc 64 (Vec4 F)) (f : Int → Vec4 F) :
    finalizeEdge cr ci (fill out 0 8 f) = .ok (fill out 0 8 (fun a => v4 (edge8 cr ci (low8 a)) (f a 1) (f a 2) (f a 3))) := by
  unfold finalizeEdge
  rw [setLane0_fill _ _ _ (by omega) (by omega), ok_bind, setLane0_fill _ _ _ (by omega) (by omega), ok_bind,
    setLane0_fill _ _ _ (by omega) (by omega), ok_bind, setLane0_fill _ _ _ (by omega) (by omega), ok_bind,
    setLane0_fill _ _ _ (by omega) (by omega), ok_bind, setLane0_fill _ _ _ (by omega) (by omega), ok_bind,
    setLane0_fill _ _ _ (by omega) (by omega), ok_bind, setLane0_fill _ _ _ (by omega) (by omega)]
  congr 1
  refine fill_congr _ fun a h1 h2 => ?_
  rcases (show a = 0 ∨ a = 1 ∨ a = 2 ∨ a = 3 ∨ a = 4 ∨ a = 5 ∨ a = 6 ∨ a = 7 by omega) with rfl | rfl | rfl | rfl | rfl | rfl | rfl | rfl <;> rfl

/-- The vectors `r` of a block. -/
def finR (c : Int → Vec4 F) (k : Int) : Fin 4 → Vec4 F :=
  transpose4 (if k = 0 then fun _ => fi 0 else c (8 * k - 1)) (c (8 * k + 1)) (c (8 * k + 1 + 2)) (c (8 * k + 1 + 4))

/-- The vectors `i` of a block. -/
def finI (c : Int → Vec4 F) (k : Int) : Fin 4 → Vec4 F :=
  transpose4 (if k = 0 then fun _ => fi 0 else c (8 * k)) (c (8 * k + 1 + 1)) (c (8 * k + 1 + 3)) (c (8 * k + 1 + 5))

/-- The result without the bins of `finalizeEdge`. -/
def finV0 (c e : Int → Vec4 F) (a : Int) : Vec4 F :=
  fin8 (finR c (a / 8)) (finI c (a / 8)) (fun t => e (6 * (a / 8) + (t.val : Int))) (low8 a)

/-- The result of `pffft_real_finalize` as a function. -/
def finV (c e : Int → Vec4 F) (a : Int) : Vec4 F :=
  if a < 8 then v4 (edge8 (c 0) (c 63) (low8 a)) (finV0 c e a 1) (finV0 c e a 2) (finV0 c e a 3) else finV0 c e a

theorem finV0_at (c e : Int → Vec4 F) {k : Int} (n : Fin 8) :
    finV0 c e (8 * k + (n.val : Int)) = fin8 (finR c k) (finI c k) (fun t => e (6 * k + (t.val : Int))) n := by
  have h1 : (8 * k + (n.val : Int)) / 8 = k := by omega
  have h2 : low8 (8 * k + (n.val : Int)) = n := Fin.ext (by show ((8 * k + (n.val : Int)) % 8).toNat = n.val; omega)
  rw [finV0, h1, h2]

theorem realFinalize_eq (c e : Int → Vec4 F) (out : Loc 64 (Vec4 F)) : realFinalize 32 (full 64 c) (full 48 e) out = .ok (full 64 (finV c e)) := by
  unfold realFinalize
  have hz : (Int.tdiv 32 4 - 1).toNat = 7 := rfl
  have h63 : (32 : Int) * 2 - 1 = 63 := rfl
  dsimp only
  have first := finalize4x4_eq (k := 0) (r0 := fun _ => fi 0) (i0 := fun _ => fi 0) (c := c) (e := e) (out := out) (f := finV0 c e) (by omega) (by omega)
    (fun n => finV0_at c e n)
  rw [Int.mul_zero, Int.mul_zero, fill_empty, Int.zero_add, Int.zero_add] at first
  rw [rd_full (by omega) (by omega), ok_bind, rd_full (by omega) (by omega), ok_bind, h63, rd_full (by omega) (by omega), ok_bind, first,
    ok_bind, finalizeEdge_eq, ok_bind, hz]
  have start : fill out 0 8 (fun a => v4 (edge8 (c 0) (c 63) (low8 a)) (finV0 c e a 1) (finV0 c e a 2) (finV0 c e a 3)) = fill out 0 8 (finV c e) :=
    fill_congr _ fun a h1 h2 => by rw [finV, if_pos h2]
  rw [start]
  have key : ∀ t : Nat, t ≤ 7 → loop t (fun t (s : Vec4 F × Loc 64 (Vec4 F)) => do
      let k := (t : Int) + 1
      let next ← (full 64 c).rd (8 * k + 7)
      let out ← finalize4x4 s.1 (← (full 64 c).rd (8 * k)) (full 64 c) (8 * k + 1) (full 48 e) (k * 6) s.2 (k * 8)
      .ok (next, out)) (c 7, fill out 0 8 (finV c e)) = .ok (c (8 * (t : Int) + 7), fill out 0 (8 * (t : Int) + 8) (finV c e)) := by
    intro t ht
    induction t with
    | zero => rfl
    | succ t ih =>
      rw [loop_succ, ih (by omega), ok_bind]
      dsimp only
      rw [rd_full (by omega) (by omega), ok_bind, rd_full (by omega) (by omega), ok_bind]
      have h := finalize4x4_eq (k := (t : Int) + 1) (r0 := c (8 * (t : Int) + 7)) (i0 := c (8 * ((t : Int) + 1))) (c := c) (e := e) (out := out) (f := finV c e)
        (by omega) (by omega) (fun n => by
          rw [finV, if_neg (by omega), finV0_at, finR, finI, if_neg (by omega), if_neg (by omega), show 8 * ((t : Int) + 1) - 1 = 8 * (t : Int) + 7 by omega])
      rw [show ((t : Int) + 1) * 6 = 6 * ((t : Int) + 1) by omega, show ((t : Int) + 1) * 8 = 8 * ((t : Int) + 1) by omega,
        show 8 * (t : Int) + 8 = 8 * ((t : Int) + 1) by omega, h, ok_bind]
      push_cast
      rfl
  rw [key 7 (by omega), ok_bind]
  exact congrArg _ (fill_full out _)

/-! ## Before the backward passes -/

/-- The four pairs of `pffft_real_preprocess_4x4` before they are transposed, in any arithmetic. -/
def pre4 {G : Type} [Arith G] (v : Fin 8 → G) (e : Fin 6 → G) : Fin 4 → G × G :=
  let sr0 := v 0 +ᶠ v 6
  let dr0 := v 0 -ᶠ v 6
  let sr1 := v 2 +ᶠ v 4
  let dr1 := v 2 -ᶠ v 4
  let si0 := v 1 +ᶠ v 7
  let di0 := v 1 -ᶠ v 7
  let si1 := v 3 +ᶠ v 5
  let di1 := v 3 -ᶠ v 5
  fun t => match t with
  | 0 => (sr0 +ᶠ sr1, di0 -ᶠ di1)
  | 1 => mulConj (dr0 -ᶠ si1) (si0 -ᶠ dr1) (e 0) (e 1)
  | 2 => mulConj (sr0 -ᶠ sr1) (di0 +ᶠ di1) (e 2) (e 3)
  | 3 => mulConj (dr0 +ᶠ si1) (si0 +ᶠ dr1) (e 4) (e 5)

theorem pre4_lane (v : Fin 8 → Vec4 F) (e : Fin 6 → Vec4 F) (t b : Fin 4) :
    (pre4 v e t).1 b = (pre4 (fun n => v n b) (fun n => e n b) t).1 ∧ (pre4 v e t).2 b = (pre4 (fun n => v n b) (fun n => e n b) t).2 := by
  match t with
  | 0 => exact ⟨rfl, rfl⟩
  | 1 => exact ⟨rfl, rfl⟩
  | 2 => exact ⟨rfl, rfl⟩
  | 3 => exact ⟨rfl, rfl⟩

/-- The pairs of a block. -/
def preP (c e : Int → Vec4 F) (k : Int) : Fin 4 → Vec4 F × Vec4 F := pre4 (fun n => c (8 * k + (n.val : Int))) (fun n => e (6 * k + (n.val : Int)))

def preR (c e : Int → Vec4 F) (k : Int) : Fin 4 → Vec4 F := transpose4 (preP c e k 0).1 (preP c e k 1).1 (preP c e k 2).1 (preP c e k 3).1
def preI (c e : Int → Vec4 F) (k : Int) : Fin 4 → Vec4 F := transpose4 (preP c e k 0).2 (preP c e k 1).2 (preP c e k 2).2 (preP c e k 3).2

/-- The stores at the end of a block. -/
theorem preEnd_eq {r i : Fin 4 → Vec4 F} {out : Loc 64 (Vec4 F)} {f : Int → Vec4 F} {o : Int} (h0 : 1 ≤ o) (h1 : o ≤ 58)
    (hr : ∀ b : Fin 4, b ≠ 0 → f (o - 2 + 2 * (b.val : Int)) = r b ∧ f (o - 1 + 2 * (b.val : Int)) = i b) :
    (do
      let out ← (fill out 1 o f).wr o (r 1)
      let out ← out.wr (o + 1) (i 1)
      let out ← out.wr (o + 2) (r 2)
      let out ← out.wr (o + 3) (i 2)
      let out ← out.wr (o + 4) (r 3)
      out.wr (o + 5) (i 3)) = .ok (fill out 1 (o + 6) f) := by
  have b1 := hr 1 (by decide)
  have b2 := hr 2 (by decide)
  have b3 := hr 3 (by decide)
  rw [show o - 2 + 2 * (((1 : Fin 4).val : Nat) : Int) = o by have : (1 : Fin 4).val = 1 := rfl; omega, show o - 1 + 2 * (((1 : Fin 4).val : Nat) : Int) = o + 1 by have : (1 : Fin 4).val = 1 := rfl; omega] at b1
  rw [show o - 2 + 2 * (((2 : Fin 4).val : Nat) : Int) = o + 2 by have : (2 : Fin 4).val = 2 := rfl; omega, show o - 1 + 2 * (((2 : Fin 4).val : Nat) : Int) = o + 3 by have : (2 : Fin 4).val = 2 := rfl; omega] at b2
  rw [show o - 2 + 2 * (((3 : Fin 4).val : Nat) : Int) = o + 4 by have : (3 : Fin 4).val = 3 := rfl; omega, show o - 1 + 2 * (((3 : Fin 4).val : Nat) : Int) = o + 5 by have : (3 : Fin 4).val = 3 := rfl; omega] at b3
  rw [wr_fill out rfl (by omega) (by omega) (by omega) (by exact b1.1.symm), ok_bind,
    wr_fill out rfl (by omega) (by omega) (by omega) (by exact b1.2.symm), ok_bind,
    wr_fill out (by omega) (by omega) (by omega) (by omega) (by exact b2.1.symm), ok_bind,
    wr_fill out (by omega) (by omega) (by omega) (by omega) (by exact b2.2.symm), ok_bind,
    wr_fill out (by omega) (by omega) (by omega) (by omega) (by exact b3.1.symm), ok_bind,
    wr_fill out (by omega) (by omega) (by omega) (by omega) (by exact b3.2.symm), show o + 5 + 1 = o + 6 by omega]

theorem preprocess4x4_eq {c e : Int → Vec4 F} {out : Loc 64 (Vec4 F)} {f : Int → Vec4 F} {k : Int} {first : Bool} (h0 : 0 ≤ k) (h8 : k < 8)
    (hz : first = true ↔ k = 0)
    (hf : ∀ b : Fin 4, (k = 0 → b ≠ 0) → f (8 * k - 1 + 2 * (b.val : Int)) = preR c e k b ∧ f (8 * k + 2 * (b.val : Int)) = preI c e k b) :
    preprocess4x4 (full 64 c) (8 * k) (full 48 e) (6 * k) (fill out 1 (if k = 0 then 1 else 8 * k - 1) f) (if k = 0 then 1 else 8 * k - 1) first =
      .ok (fill out 1 (8 * k + 7) f) := by
  unfold preprocess4x4
  rw [rd_full (by omega) (by omega), ok_bind, rd_full (by omega) (by omega), ok_bind, rd_full (by omega) (by omega), ok_bind,
    rd_full (by omega) (by omega), ok_bind, rd_full (by omega) (by omega), ok_bind, rd_full (by omega) (by omega), ok_bind,
    rd_full (by omega) (by omega), ok_bind, rd_full (by omega) (by omega), ok_bind]
  dsimp only
  rw [rd_full (by omega) (by omega), ok_bind, rd_full (by omega) (by omega), ok_bind, rd_full (by omega) (by omega), ok_bind,
    rd_full (by omega) (by omega), ok_bind, rd_full (by omega) (by omega), ok_bind, rd_full (by omega) (by omega), ok_bind]
  have e0 : e (6 * k) = e (6 * k + ((0 : Fin 6).val : Int)) := by congr 1; exact (Int.add_zero _).symm
  have c0 : c (8 * k) = c (8 * k + ((0 : Fin 8).val : Int)) := by congr 1; exact (Int.add_zero _).symm
  rw [e0, c0]
  by_cases hk : k = 0
  · have hb : first = true := hz.2 hk
    subst hk
    rw [if_pos hb, ok_bind, if_pos rfl]
    exact preEnd_eq (r := preR c e 0) (i := preI c e 0) (by omega) (by omega) (fun b hb => ⟨(hf b fun _ => hb).1, (hf b fun _ => hb).2⟩)
  · have hb : ¬ first = true := fun h => hk (hz.1 h)
    have z := hf 0 (fun h => absurd h hk)
    rw [show 8 * k - 1 + 2 * (((0 : Fin 4).val : Nat) : Int) = 8 * k - 1 by have : (0 : Fin 4).val = 0 := rfl; omega, show 8 * k + 2 * (((0 : Fin 4).val : Nat) : Int) = 8 * k by have : (0 : Fin 4).val = 0 := rfl; omega] at z
    rw [if_neg hb, if_neg hk, wr_fill out rfl (by omega) (by omega) (by omega) (by exact z.1.symm), ok_bind,
      show 8 * k - 1 + 1 = 8 * k by omega, wr_fill out rfl (by omega) (by omega) (by omega) (by exact z.2.symm), ok_bind, ok_bind,
      show 8 * k - 1 + 2 = 8 * k + 1 by omega]
    have h := preEnd_eq (r := preR c e k) (i := preI c e k) (out := out) (f := f) (o := 8 * k + 1) (by omega) (by omega) (fun b hb => by
      have := hf b fun _ => hb
      rw [show 8 * k + 1 - 2 = 8 * k - 1 by omega, show 8 * k + 1 - 1 = 8 * k by omega]
      exact this)
    rw [show 8 * k + 1 + 6 = 8 * k + 7 by omega] at h
    exact h

/-- The first vector, from the bins 0, 64 and 128. -/
def preFst (c : Int → Vec4 F) : Vec4 F :=
  v4 ((c 0 0 +ᶠ c 1 0) +ᶠ (fi 2 *ᶠ c 4 0)) ((c 0 0 -ᶠ c 1 0) -ᶠ (fi 2 *ᶠ c 5 0)) ((c 0 0 +ᶠ c 1 0) -ᶠ (fi 2 *ᶠ c 4 0))
    ((c 0 0 -ᶠ c 1 0) +ᶠ (fi 2 *ᶠ c 5 0))

/-- The last vector, from the bins 32 and 96. -/
def preLst (c : Int → Vec4 F) : Vec4 F :=
  v4 (fi 2 *ᶠ (c 2 0 +ᶠ c 6 0)) ((sqrtTwo *ᶠ (c 2 0 -ᶠ c 6 0)) -ᶠ (sqrtTwo *ᶠ (c 3 0 +ᶠ c 7 0))) (fi 2 *ᶠ (c 7 0 -ᶠ c 3 0))
    ((neg sqrtTwo *ᶠ (c 2 0 -ᶠ c 6 0)) -ᶠ (sqrtTwo *ᶠ (c 3 0 +ᶠ c 7 0)))

/-- The result of `pffft_real_preprocess` as a function. -/
def preV (c e : Int → Vec4 F) (a : Int) : Vec4 F :=
  if a = 0 then preFst c else if a = 63 then preLst c else
    if (a + 1) % 2 = 0 then preR c e ((a + 1) / 8) ⟨((a + 1) / 2 % 4).toNat, by omega⟩ else preI c e ((a + 1) / 8) ⟨((a + 1) / 2 % 4).toNat, by omega⟩

theorem preV_at (c e : Int → Vec4 F) {k : Int} (h0 : 0 ≤ k) (h8 : k < 8) (b : Fin 4) (hb : k = 0 → b ≠ 0) :
    preV c e (8 * k - 1 + 2 * (b.val : Int)) = preR c e k b ∧ preV c e (8 * k + 2 * (b.val : Int)) = preI c e k b := by
  have hb' : k = 0 → b.val ≠ 0 := fun h e => hb h (Fin.ext e)
  have l4 := b.isLt
  constructor
  · rw [preV, if_neg (by omega), if_neg (by omega), if_pos (by omega), show (8 * k - 1 + 2 * (b.val : Int) + 1) / 8 = k by omega]
    congr 1
    exact Fin.ext (by show (((8 * k - 1 + 2 * (b.val : Int) + 1)) / 2 % 4).toNat = b.val; omega)
  · rw [preV, if_neg (by omega), if_neg (by omega), if_neg (by omega), show (8 * k + 2 * (b.val : Int) + 1) / 8 = k by omega]
    congr 1
    exact Fin.ext (by show (((8 * k + 2 * (b.val : Int) + 1)) / 2 % 4).toNat = b.val; omega)

theorem realPreprocess_eq (c e : Int → Vec4 F) (out : Loc 64 (Vec4 F)) : realPreprocess 32 (full 64 c) (full 48 e) out = .ok (full 64 (preV c e)) := by
  unfold realPreprocess
  have hz : (Int.tdiv 32 4 - 1).toNat = 7 := rfl
  have h63 : (2 : Int) * 32 - 1 = 63 := rfl
  dsimp only
  have first := preprocess4x4_eq (k := 0) (first := true) (c := c) (e := e) (out := out) (f := preV c e) (by omega) (by omega) (by simp)
    (fun b hb => preV_at c e (by omega) (by omega) b hb)
  rw [if_pos rfl, Int.mul_zero, Int.mul_zero, fill_empty, Int.zero_add] at first
  rw [rd_full (by omega) (by omega), ok_bind, rd_full (by omega) (by omega), ok_bind, rd_full (by omega) (by omega), ok_bind,
    rd_full (by omega) (by omega), ok_bind, rd_full (by omega) (by omega), ok_bind, rd_full (by omega) (by omega), ok_bind,
    rd_full (by omega) (by omega), ok_bind, rd_full (by omega) (by omega), ok_bind, first, ok_bind, hz, h63]
  have key : ∀ t : Nat, t ≤ 7 → loop t (fun t out => do
      let k := (t : Int) + 1
      preprocess4x4 (full 64 c) (8 * k) (full 48 e) (k * 6) out (-1 + k * 8) false) (fill out 1 7 (preV c e)) = .ok (fill out 1 (8 * (t : Int) + 7) (preV c e)) := by
    intro t ht
    induction t with
    | zero => rfl
    | succ t ih =>
      rw [loop_succ, ih (by omega), ok_bind]
      dsimp only
      have h := preprocess4x4_eq (k := (t : Int) + 1) (first := false) (c := c) (e := e) (out := out) (f := preV c e) (by omega) (by omega)
        ⟨fun h => absurd h (by decide), fun h => by omega⟩ (fun b hb => preV_at c e (by omega) (by omega) b hb)
      rw [if_neg (by omega)] at h
      rw [show ((t : Int) + 1) * 6 = 6 * ((t : Int) + 1) by omega, show -1 + ((t : Int) + 1) * 8 = 8 * ((t : Int) + 1) - 1 by omega,
        show 8 * (t : Int) + 7 = 8 * ((t : Int) + 1) - 1 by omega, h]
      push_cast
      rfl
  rw [key 7 (by omega), ok_bind]
  have w0 := wr_fill_lo out (lo := 0) (hi := 8 * ((7 : Nat) : Int) + 7) (f := preV c e) (v := preFst c) (by omega) (by omega) (by omega) rfl
  have w1 := wr_fill out (lo := 0) (hi := 8 * ((7 : Nat) : Int) + 7) (i := 63) (f := preV c e) (v := preLst c) rfl (by omega) (by omega) (by omega) rfl
  rw [show (0 : Int) + 1 = 1 from rfl] at w0
  unfold preFst at w0
  unfold preLst at w1
  rw [w0, ok_bind, w1]
  exact congrArg _ (fill_full out _)

end Verif.Model.Vec
