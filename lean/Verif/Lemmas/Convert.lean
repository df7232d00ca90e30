import Verif.Lemmas.ImbeEval
import Verif.Lemmas.Field

/-!
# The 7100x4400 to 7200x4400 reordering
-/

namespace Verif.Model
open Verif Verif.Spec Verif.Num Arith

section natural
variable (g : Int → Int)

/-- Apply `g` to every initialised element. -/
def mapLoc {n : Nat} (a : Loc n Int) : Loc n Int := fun i => (a i).map g

theorem mapLoc_wr {n : Nat} (a : Loc n Int) (i v : Int) : (mapLoc g a).wr i (g v) = (a.wr i v).map (mapLoc g) := by
  unfold Loc.wr Arr.wr
  by_cases h : 0 ≤ i ∧ i < n
  · rw [if_pos h, if_pos h]
    refine congrArg Except.ok (funext fun j => ?_)
    show Arr.set (mapLoc g a) _ _ j = Option.map g (Arr.set a _ _ j)
    unfold Arr.set
    split
    · rfl
    · rfl
  · rw [if_neg h, if_neg h]; rfl

theorem mapLoc_rd {n : Nat} (a : Loc n Int) (i : Int) : (mapLoc g a).rd i = (a.rd i).map g := by
  unfold Loc.rd Arr.rd
  by_cases h : 0 ≤ i ∧ i < n
  · rw [dif_pos h, dif_pos h]
    simp only [ok_bind, mapLoc]
    cases a ⟨i.toNat, by omega⟩ <;> rfl
  · rw [dif_neg h, dif_neg h]; rfl

theorem map_rdI (n : Nat) (d : Nat → Int) (i : Int) : rdI n (fun k => g (d k)) i = (rdI n d i).map g := by
  unfold rdI
  by_cases h : 0 ≤ i ∧ i < n
  · rw [if_pos h, if_pos h]; rfl
  · rw [if_neg h, if_neg h]; rfl

theorem map_rd (n : Nat) (d : Nat → Int) (i : Nat) : rd n (fun k => g (d k)) i = (rd n d i).map g := by
  unfold rd
  by_cases h : i < n
  · rw [if_pos h, if_pos h]; rfl
  · rw [if_neg h, if_neg h]; rfl

theorem map_bind' {α β γ δ : Type} {x : Exec α} {y : Exec β} {r : α → β} {f : α → Exec γ} {k : β → Exec δ} {q : γ → δ}
    (h : y = x.map r) (hk : ∀ a, k (r a) = (f a).map q) : (y >>= k) = (x >>= f).map q := by
  subst h
  cases x with
  | ok a => exact hk a
  | error e => rfl

theorem map_loop {σ τ : Type} {n : Nat} {f : Nat → σ → Exec σ} {k : Nat → τ → Exec τ} {q : σ → τ} {s : σ}
    (h : ∀ i s, k i (q s) = (f i s).map q) : loop n k (q s) = (loop n f s).map q := by
  induction n with
  | zero => rfl
  | succ n ih => rw [loop_succ, loop_succ]; exact map_bind' ih fun a => h n a

/-- The reordering moves data without looking at it. -/
theorem convWithK_natural (d : Nat → Int) (K : Int) :
    convWithK (fun i => g (d i)) K = (convWithK d K).map fun out i => g (out i) := by
  unfold convWithK
  refine map_bind' (map_rd g _ _ _) fun v => ?_
  refine map_bind' (r := mapLoc g) (mapLoc_wr g (Loc.fresh 88 Int) _ _) fun tmp => ?_
  refine map_bind' (map_rd g _ _ _) fun v => ?_
  refine map_bind' (r := mapLoc g) (mapLoc_wr g _ _ _) fun tmp => ?_
  refine map_bind' (map_rd g _ _ _) fun v => ?_
  refine map_bind' (r := mapLoc g) (mapLoc_wr g _ _ _) fun tmp => ?_
  refine map_bind' (r := fun s : Loc 88 Int × Int × Int => (mapLoc g s.1, s.2.1, s.2.2)) ?_ fun s => ?_
  · refine map_loop (q := fun s : Loc 88 Int × Int × Int => (mapLoc g s.1, s.2.1, s.2.2)) (s := (tmp, 48, 44)) fun i s => ?_
    refine map_bind' (map_rdI g _ _ _) fun v => ?_
    refine map_bind' (r := mapLoc g) (mapLoc_wr g _ _ _) fun tmp => rfl
  refine map_bind' (r := fun s : Loc 88 Int × Int × Int => (mapLoc g s.1, s.2.1, s.2.2)) ?_ fun s => ?_
  · refine map_loop (q := fun s : Loc 88 Int × Int × Int => (mapLoc g s.1, s.2.1, s.2.2)) (s := (s.1, 0, 1)) fun i s => ?_
    by_cases c : s.2.1 < 87
    · rw [if_pos c, if_pos c]
      refine map_bind' (map_rdI g _ _ _) fun v => ?_
      refine map_bind' (r := mapLoc g) (mapLoc_wr g _ _ _) fun tmp => rfl
    · rw [if_neg c, if_neg c]; rfl
  · refine map_loop (q := fun (out : Nat → Int) i => g (out i)) (s := d) fun i out => ?_
    refine map_bind' (mapLoc_rd g _ _) fun v => ?_
    unfold wr
    by_cases c : i < 88
    · rw [if_pos c, if_pos c]
      refine congrArg Except.ok (funext fun j => ?_)
      show upd _ _ _ j = g (upd _ _ _ j)
      unfold upd
      split <;> rfl
    · rw [if_neg c, if_neg c]; rfl

end natural

/-- Evaluation on the payload that numbers its positions. -/
def convCheck (K : Nat) : Bool :=
  match convWithK (fun i => (i : Int)) (K : Int) with
  | .ok out => (List.range 88).all fun i => out i == (convSrc K i : Int)
  | .error _ => false

theorem convCheck_all : ∀ K, K < 13 → 3 ≤ K → convCheck K = true := by decide +kernel

theorem convWithK_eq {K : Nat} (h1 : 3 ≤ K) (h2 : K ≤ 12) (d : Nat → Int) :
    Ok (convWithK d (K : Int)) fun out => ∀ i, i < 88 → out i = d (convSrc K i) := by
  have hc := convCheck_all K (by omega) h1
  have hn := convWithK_natural (fun x => d x.toNat) (fun i => (i : Int)) (K : Int)
  simp only [Int.toNat_natCast] at hn
  unfold convCheck at hc
  split at hc
  · rename_i out he
    rw [he] at hn
    have hn' : convWithK d (K : Int) = .ok fun i => d (out i).toNat := hn
    refine ⟨_, hn', fun i hi => ?_⟩
    have := List.all_eq_true.mp hc i (List.mem_range.mpr hi)
    rw [beq_iff_eq.mp this, Int.toNat_natCast]
  · cases hc

theorem convSrc_lt : ∀ K < 13, 3 ≤ K → ∀ i < 88, convSrc K i < 88 := by decide +kernel
theorem convSrc_inj0 : ∀ K < 13, 3 ≤ K → ∀ i < 88, ∀ j < 88, convSrc K i = convSrc K j → i = j := by decide +kernel
theorem convSrc_inj {K i j : Nat} (h1 : 3 ≤ K) (h2 : K ≤ 12) (hi : i < 88) (hj : j < 88)
    (h : convSrc K i = convSrc K j) : i = j := by
  exact convSrc_inj0 K (by omega) h1 i hi j hj h

variable {m : Libm}

theorem imbeK_eval256_0 : ∀ b0 < 256, imbeKOfL (IEEE libm0) (imbeLTab b0 : Nat) = .ok ((imbeBands (imbeLTab b0) : Nat) : Int) := by
  decide +kernel

theorem imbeLTab_ge : ∀ b0 < 256, 9 ≤ imbeLTab b0 := by decide +kernel

/-- The fundamental field in 7100x4400 order: bits 1-6, 86 and 87. -/
theorem convert_eq {d : Nat → Int} (hd : Bits 88 d) :
    convert7100to7200 (IEEE m) d = convWithK d (imbeBands (imbeLTab (fieldVal d [1, 2, 3, 4, 5, 6, 86, 87])) : Nat) := by
  have hlt : fieldVal d [1, 2, 3, 4, 5, 6, 86, 87] < 256 := fieldVal_lt (is := [1, 2, 3, 4, 5, 6, 86, 87]) fun i hi => by
    refine hd i ?_
    revert i; decide
  unfold convert7100to7200
  rw [bitsField_eq hd (by decide), ok_bind]
  simp only []
  rw [imbeL_eval hlt, ok_bind, (imbeKOfL_ieee (m := m) _).trans (imbeK_eval256_0 _ hlt), ok_bind]

end Verif.Model
