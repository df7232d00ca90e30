import Verif.Num.Ivl
import Verif.Model.Imbe
import Verif.Lemmas.Exec

/-!
# The IMBE amplitude decoder on intervals

If the run on intervals ends, so does the IEEE-754 run, with data in the intervals.
-/

namespace Verif.Model
open Verif Verif.Gen Verif.Num Arith

variable {m : Libm}

/-- If `y` ends, `x` ends with a related result. -/
def RelE {α β : Type} (R : α → β → Prop) (x : Exec α) (y : Exec β) : Prop := ∀ b, y = .ok b → ∃ a, x = .ok a ∧ R a b

namespace RelE
variable {α β γ δ : Type} {R : α → β → Prop} {S : γ → δ → Prop}

theorem ok {a : α} {b : β} (h : R a b) : RelE R (.ok a) (.ok b) := by
  intro b' e
  injection e with e
  subst e
  exact ⟨a, rfl, h⟩

theorem same (x : Exec α) : RelE (· = ·) x x := fun b e => ⟨b, e, rfl⟩

theorem bind {x : Exec α} {y : Exec β} {f : α → Exec γ} {g : β → Exec δ} (h : RelE R x y)
    (hf : ∀ a b, R a b → RelE S (f a) (g b)) : RelE S (x >>= f) (y >>= g) := by
  intro d e
  cases y with
  | error u => exact absurd e (by simp [Bind.bind, Except.bind])
  | ok b =>
    obtain ⟨a, rfl, r⟩ := h b rfl
    exact hf a b r d e

theorem bindSame {x : Exec α} {f : α → Exec γ} {g : α → Exec δ} (hf : ∀ a, RelE S (f a) (g a)) :
    RelE S (x >>= f) (x >>= g) := bind (same x) fun a b e => e ▸ hf a

theorem mono {R' : α → β → Prop} {x : Exec α} {y : Exec β} (h : RelE R x y) (hr : ∀ a b, R a b → R' a b) : RelE R' x y := by
  intro b e
  obtain ⟨a, ha, r⟩ := h b e
  exact ⟨a, ha, hr a b r⟩

theorem loop {n : Nat} {f : Nat → α → Exec α} {g : Nat → β → Exec β} {s : α} {t : β} (h : R s t)
    (hs : ∀ i a b, R a b → RelE R (f i a) (g i b)) : RelE R (Verif.loop n f s) (Verif.loop n g t) := by
  induction n with
  | zero => exact ok h
  | succ n ih => rw [loop_succ, loop_succ]; exact bind ih fun a b r => hs n a b r

theorem loopFT {lo hi : Nat} {f : Nat → α → Exec α} {g : Nat → β → Exec β} {s : α} {t : β} (h : R s t)
    (hs : ∀ i a b, R a b → RelE R (f i a) (g i b)) : RelE R (Verif.loopFT lo hi f s) (Verif.loopFT lo hi g t) :=
  loop h fun i a b r => hs _ a b r

end RelE

/-- Element by element. -/
def RArr {n : Nat} {α β : Type} (R : α → β → Prop) (a : Arr n α) (b : Arr n β) : Prop := ∀ i, R (a i) (b i)

/-- Assigned elements correspond. -/
def ROpt {α β : Type} (R : α → β → Prop) (a : Option α) (b : Option β) : Prop := ∀ y, b = some y → ∃ x, a = some x ∧ R x y

theorem RArr.rd {n : Nat} {α β : Type} {R : α → β → Prop} {a : Arr n α} {b : Arr n β} (h : RArr R a b) (i : Int) :
    RelE R (a.rd i) (b.rd i) := by
  by_cases c : 0 ≤ i ∧ i < n
  · rw [Arr.rd_ok c.1 c.2, Arr.rd_ok c.1 c.2]; exact .ok (h _)
  · rw [Arr.rd_error c, Arr.rd_error c]; exact fun b e => absurd e (by simp)

theorem RArr.wr {n : Nat} {α β : Type} {R : α → β → Prop} {a : Arr n α} {b : Arr n β} (h : RArr R a b) (i : Int) {x : α} {y : β}
    (hx : R x y) : RelE (RArr R) (a.wr i x) (b.wr i y) := by
  by_cases c : 0 ≤ i ∧ i < n
  · rw [Arr.wr_ok c.1 c.2, Arr.wr_ok c.1 c.2]
    refine .ok fun j => ?_
    by_cases e : j.val = i.toNat
    · rw [Arr.set_same e, Arr.set_same e]; exact hx
    · rw [Arr.set_ne e, Arr.set_ne e]; exact h j
  · rw [Arr.wr_error c, Arr.wr_error c]; exact fun b e => absurd e (by simp)

/-- Related automatic arrays. -/
abbrev RLoc {n : Nat} {α β : Type} (R : α → β → Prop) (a : Loc n α) (b : Loc n β) : Prop := RArr (ROpt R) a b

theorem RLoc.rd {n : Nat} {α β : Type} {R : α → β → Prop} {a : Loc n α} {b : Loc n β} (h : RLoc R a b) (i : Int) :
    RelE R (Loc.rd a i) (Loc.rd b i) := by
  refine RelE.bind (RArr.rd h i) fun x y r => ?_
  cases y with
  | none => exact fun b e => absurd e (by simp [init?])
  | some y => obtain ⟨x', rfl, rx⟩ := r y rfl; exact .ok rx

theorem ROpt.some {α β : Type} {R : α → β → Prop} {x : α} {y : β} (h : R x y) : ROpt R (some x) (some y) := by
  intro y' e
  injection e with e
  subst e
  exact ⟨x, rfl, h⟩

theorem RLoc.wr {n : Nat} {α β : Type} {R : α → β → Prop} {a : Loc n α} {b : Loc n β} (h : RLoc R a b) (i : Int) {x : α} {y : β}
    (hx : R x y) : RelE (RLoc R) (Loc.wr a i x) (Loc.wr b i y) := RArr.wr h i (.some hx)

theorem RLoc.fresh (n : Nat) {α β : Type} {R : α → β → Prop} : RLoc R (Loc.fresh n α) (Loc.fresh n β) :=
  fun _ _ e => absurd e (by simp [Loc.fresh])

/-- Related automatic arrays with two subscripts. -/
abbrev RLoc2 {a b : Nat} {α β : Type} (R : α → β → Prop) (C : Arr a (Loc b α)) (D : Arr a (Loc b β)) : Prop := RArr (RLoc R) C D

theorem RLoc2.rd {a b : Nat} {α β : Type} {R : α → β → Prop} {C : Arr a (Loc b α)} {D : Arr a (Loc b β)} (h : RLoc2 R C D)
    (i j : Int) : RelE R (Loc.rd2 C i j) (Loc.rd2 D i j) := RelE.bind (RArr.rd h i) fun _ _ r => r.rd j

theorem RLoc2.wr {a b : Nat} {α β : Type} {R : α → β → Prop} {C : Arr a (Loc b α)} {D : Arr a (Loc b β)} (h : RLoc2 R C D)
    (i j : Int) {x : α} {y : β} (hx : R x y) : RelE (RLoc2 R) (Loc.wr2 C i j x) (Loc.wr2 D i j y) := by
  unfold Loc.wr2
  by_cases c : 0 ≤ i ∧ i < a
  · rw [Arr.rd_ok c.1 c.2, Arr.rd_ok c.1 c.2]
    exact RelE.bind (R := RLoc R) (RelE.ok (h _)) fun r r' hr => RelE.bind (RLoc.wr hr j hx) fun s s' hs => RArr.wr h i hs
  · rw [Arr.rd_error c, Arr.rd_error c]; exact fun b e => absurd e (by simp [Bind.bind, Except.bind])

/-! ## Operations -/

/-- The datum lies in the interval. -/
def RI (x : IEEE m) (A : Ivl) : Prop := In x A

namespace RI
variable {x y : IEEE m} {A B : Ivl}
theorem add (hx : RI x A) (hy : RI y B) : RI (x +ᶠ y) (A +ᶠ B) := In.addR (.inl rfl) hx hy
theorem sub (hx : RI x A) (hy : RI y B) : RI (x -ᶠ y) (A -ᶠ B) := In.subR (.inl rfl) hx hy
theorem mul (hx : RI x A) (hy : RI y B) : RI (x *ᶠ y) (A *ᶠ B) := In.mulR (.inl rfl) hx hy
theorem div (hx : RI x A) (hy : RI y B) : RI (x /ᶠ y) (A /ᶠ B) := In.divR (.inl rfl) hx hy
theorem dmul (hx : RI x A) (hy : RI y B) : RI (x *ᵈ y) (A *ᵈ B) := In.mulR (.inr rfl) hx hy
theorem dsub (hx : RI x A) (hy : RI y B) : RI (x -ᵈ y) (A -ᵈ B) := In.subR (.inr rfl) hx hy
theorem ddiv (hx : RI x A) (hy : RI y B) : RI (x /ᵈ y) (A /ᵈ B) := In.divR (.inr rfl) hx hy
theorem toF (hx : RI x A) : RI (Arith.toF x) (Arith.toF A) := In.conv (.inl rfl) hx
theorem lit (n : Int) (d : Nat) : RI (Arith.lit n d : IEEE m) (Arith.lit n d) := In.fit (.inl rfl) le_rfl le_rfl
theorem dlit (n : Int) (d : Nat) : RI (Arith.dlit n d : IEEE m) (Arith.dlit n d) := In.fit (.inr rfl) le_rfl le_rfl
theorem ofInt (n : Int) : RI (Arith.ofInt n : IEEE m) (Arith.ofInt n) := In.fit (.inl rfl) le_rfl le_rfl
theorem fi (n : Int) : RI (Verif.fi n : IEEE m) (Verif.fi n) := ofInt n
theorem ftab (n : Int) (d : Nat) : RI (Model.ftab n d : IEEE m) (Model.ftab n d) := toF (dlit n d)
theorem cos (hm : LibmAcc m) (hx : RI x A) : RI (Arith.cos x) (Arith.cos A) := In.cos hm hx
theorem exp2 (hm : LibmAcc m) (hx : RI x A) : RI (Arith.exp2 x) (Arith.exp2 A) := In.exp2 hm hx

theorem toI32 (hx : RI x A) : RelE (· = ·) (Verif.toI32 x) (Verif.toI32 A) := by
  intro n e
  unfold Verif.toI32 at e ⊢
  cases h : Arith.trunc A with
  | none => rw [h] at e; exact absurd e (by simp)
  | some k =>
    rw [h] at e
    have : Arith.trunc x = some k := In.trunc hx h
    rw [this]
    exact ⟨n, e, rfl⟩

end RI

/-! ## The decoder -/

theorem dctCos_rel (hm : LibmAcc m) (k i : Nat) {den : IEEE m} {den' : Ivl} (h : RI den den') :
    RI (dctCos k i den) (dctCos k i den') :=
  RI.cos hm (.toF (.ddiv (.dmul (.dmul (.dlit _ _) (.ofInt _)) (.sub (.ofInt _) (.lit _ _))) h))

/-- Related tables. -/
structure RCache {r n : Nat} (c : DctCache (IEEE m) r n) (c' : DctCache Ivl r n) : Prop where
  ri : ∀ i j, RI (c.ri i j) (c'.ri i j)
  idct : ∀ i j k, RI (c.idct i j k) (c'.idct i j k)

theorem fillCache_rel (hm : LibmAcc m) (r n : Nat) : RCache (m := m) (fillCache r n) (fillCache r n) := by
  constructor
  · intro i j
    simp only [fillCache]
    split
    · exact dctCos_rel hm _ _ (.fi _)
    · exact .fi _
  · intro i j k
    simp only [fillCache]
    split
    · exact dctCos_rel hm _ _ (.fi _)
    · exact .fi _

theorem RCache.rdRi {r n : Nat} {c : DctCache (IEEE m) r n} {c' : DctCache Ivl r n} (h : RCache c c') (i j : Int) :
    RelE RI (c.rdRi i j) (c'.rdRi i j) :=
  RelE.bind (R := fun a b => RArr RI a b) (RArr.rd (fun k => h.ri k) i) fun _ _ r => RArr.rd r j

theorem RCache.rdIdct {r n : Nat} {c : DctCache (IEEE m) r n} {c' : DctCache Ivl r n} (h : RCache c c') (i j k : Int) :
    RelE RI (c.rdIdct i j k) (c'.rdIdct i j k) :=
  RelE.bind (R := fun a b => RArr (fun a b => RArr RI a b) a b) (RArr.rd (fun k => h.idct k) i) fun _ _ r =>
    RelE.bind (RArr.rd r j) fun _ _ r => RArr.rd r k

theorem imbeGm_rel (hm : LibmAcc m) (bb : Arr 58 (Loc 12 Int)) (L9 : Int) :
    RelE (RLoc RI) (imbeGm bb L9 : Exec (Loc 7 (IEEE m))) (imbeGm bb L9) := by
  unfold imbeGm
  refine .bindSame fun b2 => .bindSame fun g => RelE.bind (RLoc.wr (RLoc.fresh 7) _ (RI.ftab _ _)) fun G G' hG => .bindSame fun row => ?_
  refine RelE.loopFT hG fun i G G' hG => ?_
  refine .bindSame fun e => .bindSame fun a => .bindSame fun b => .bind (RI.toI32 (.ftab _ _)) fun n n' e => ?_
  subst e
  exact .bindSame fun bm => RLoc.wr hG _ (.mul (.ftab _ _) (.add (.sub (.ofInt _) (.exp2 hm (.sub (.ftab _ _) (.lit _ _)))) (.lit _ _)))

theorem idctRi_rel {r n : Nat} {c : DctCache (IEEE m) r n} {c' : DctCache Ivl r n} (hc : RCache c c') (N : Nat)
    {G : Loc r (IEEE m)} {G' : Loc r Ivl} (hG : RLoc RI G G') : RelE (RLoc RI) (idctRi c N G) (idctRi c' N G') := by
  unfold idctRi
  refine RelE.loopFT (.fresh r) fun i R R' hR => ?_
  refine .bind (R := RI) (RelE.loopFT (.fi 0) fun k s s' hs => ?_) fun s s' hs => hR.wr _ hs
  exact .bind (hG.rd _) fun g g' hg => .bind (hc.rdRi _ _) fun w w' hw => .ok (.add hs (.mul (.mul (.ofInt _) hg) hw))

theorem imbeCik_rel (hm : LibmAcc m) (bb : Arr 58 (Loc 12 Int)) (L9 : Int) {R : Loc 7 (IEEE m)} {R' : Loc 7 Ivl} (hR : RLoc RI R R') :
    RelE (RLoc2 RI) (imbeCik bb L9 R) (imbeCik bb L9 R') := by
  unfold imbeCik
  refine .bind (R := fun a b => RLoc2 RI a.1 b.1 ∧ a.2 = b.2) (RelE.loopFT ⟨fun i => .fresh 11, rfl⟩ fun i s s' hs => ?_)
    fun a b h => .ok h.1
  refine .bind (hR.rd _) fun v v' hv => .bind (hs.1.wr _ _ hv) fun C C' hC => .bindSame fun J => ?_
  refine RelE.loopFT ⟨hC, hs.2⟩ fun k s s' hs => ?_
  obtain ⟨h1, h2⟩ := hs
  rw [h2]
  refine .bindSame fun B => ?_
  by_cases hB : B = 0
  · rw [if_pos hB, if_pos hB]
    exact .bind (h1.wr _ _ (.fi 0)) fun a b h => .ok ⟨h, rfl⟩
  · rw [if_neg hB, if_neg hB]
    refine .bindSame fun bm => .bindSame fun q => .bindSame fun sd => ?_
    exact .bind (h1.wr _ _ (.mul (.mul (.ftab _ _) (.ftab _ _)) (.add (.sub (.ofInt _) (.exp2 hm (.sub (.ofInt _) (.lit _ _)))) (.lit _ _))))
      fun a b h => .ok ⟨h, rfl⟩

theorem idctBlock_rel {r n a b : Nat} {c : DctCache (IEEE m) r n} {c' : DctCache Ivl r n} (hc : RCache c c')
    {C : Arr a (Loc b (IEEE m))} {C' : Arr a (Loc b Ivl)} (hC : RLoc2 RI C C') (i ji : Nat)
    {s : Arr 57 (IEEE m) × Int} {s' : Arr 57 Ivl × Int} (hs : RArr RI s.1 s'.1 ∧ s.2 = s'.2) :
    RelE (fun a b => RArr RI a.1 b.1 ∧ a.2 = b.2) (idctBlock c C i ji s) (idctBlock c' C' i ji s') := by
  unfold idctBlock
  refine RelE.loopFT hs fun j s s' hs => ?_
  obtain ⟨h1, h2⟩ := hs
  rw [h2]
  refine .bind (R := RI) (RelE.loopFT (.fi 0) fun k s s' hs => ?_) fun s s' hs =>
    .bind (h1.wr _ hs) fun a b h => .ok ⟨h, rfl⟩
  exact .bind (hC.rd _ _) fun g g' hg => .bind (hc.rdIdct _ _ _) fun w w' hw => .ok (.add hs (.mul (.mul (.ofInt _) hg) hw))

theorem imbeTl_rel {c : DctCache (IEEE m) 7 11} {c' : DctCache Ivl 7 11} (hc : RCache c c') (L9 : Int)
    {C : Arr 7 (Loc 11 (IEEE m))} {C' : Arr 7 (Loc 11 Ivl)} (hC : RLoc2 RI C C') :
    RelE (RArr RI) (imbeTl c L9 C) (imbeTl c' L9 C') := by
  unfold imbeTl
  refine .bind (R := fun a b => RArr RI a.1 b.1 ∧ a.2 = b.2) (RelE.loopFT ⟨fun _ => .fi 0, rfl⟩ fun i s s' hs => ?_)
    fun a b h => .ok h.1
  exact .bindSame fun J => idctBlock_rel hc hC i J hs

/-- The residual amplitudes of a payload: the part of the decoder before the prediction. -/
def imbeResidual {F : Type} [Arith F] (cache : DctCache F 7 11) (L9 : Int) (d : Nat → Int) : Exec (Arr 57 F) := do
  let bb ← imbeReadBits L9 d
  let Gm ← imbeGm bb L9
  let Ri ← idctRi cache 6 Gm
  let C ← imbeCik bb L9 Ri
  imbeTl cache L9 C

theorem imbeResidual_rel (hm : LibmAcc m) {c : DctCache (IEEE m) 7 11} {c' : DctCache Ivl 7 11} (hc : RCache c c') (L9 : Int)
    (d : Nat → Int) : RelE (RArr RI) (imbeResidual c L9 d) (imbeResidual c' L9 d) :=
  .bindSame fun bb => .bind (imbeGm_rel hm bb L9) fun _ _ hG => .bind (idctRi_rel hc 6 hG) fun _ _ hR =>
    .bind (imbeCik_rel hm bb L9 hR) fun _ _ hC => imbeTl_rel hc L9 hC

/-! ## Prediction -/

/-- What the prediction reads of the previous frame. -/
structure RPrev (p : Parms (IEEE m)) (q : Parms Ivl) : Prop where
  L : p.L = q.L
  lg : RArr RI p.log2Ml q.log2Ml

/-- What the prediction writes of the current frame. -/
structure RAmps (p : Parms (IEEE m)) (q : Parms Ivl) : Prop where
  lg : RArr RI p.log2Ml q.log2Ml
  ml : RArr RI p.Ml q.Ml

theorem rdLog2_rel {lax : Bool} {p : Parms (IEEE m)} {q : Parms Ivl} (h : RPrev p q) (i : Int) :
    RelE RI (rdLog2 lax p i) (rdLog2 false q i) := by
  have e : rdLog2 false q i = q.log2Ml.rd i := by unfold rdLog2; rw [if_neg (by simp)]
  rw [e]
  unfold rdLog2
  split
  · rename_i c
    rw [Arr.rd_error (a := q.log2Ml) (by omega)]
    exact fun b e => absurd e (by simp)
  · exact RArr.rd h.lg i

theorem imbePredict1_rel {lax : Bool} {L : Int} {p : Parms (IEEE m)} {q : Parms Ivl} (h : RPrev p q) :
    RelE (fun a b => RLoc (· = ·) a.1 b.1 ∧ RLoc RI a.2.1 b.2.1 ∧ RI a.2.2 b.2.2) (imbePredict1 lax L p) (imbePredict1 false L q) := by
  unfold imbePredict1
  refine RelE.loopFT ⟨.fresh 57, .fresh 57, .fi 0⟩ fun l s s' hs => ?_
  have hk : RI (flokl p.L L l : IEEE m) (flokl q.L L l) := by
    rw [h.L]; exact .mul (.div (.ofInt _) (.ofInt _)) (.ofInt _)
  refine .bind hk.toI32 fun n n' e => ?_
  subst e
  refine .bind (RLoc.wr hs.1 _ rfl) fun a a' ha => .bind (RLoc.wr hs.2.1 _ (hk.sub (.ofInt _))) fun b b' hb => ?_
  exact .bind (rdLog2_rel h _) fun x x' hx => .bind (rdLog2_rel h _) fun y y' hy =>
    .ok ⟨ha, hb, hs.2.2.add (.add (.mul (.sub (.ofInt _) (hk.sub (.ofInt _))) hx) (.mul (hk.sub (.ofInt _)) hy))⟩

theorem imbePredict2_rel (hm : LibmAcc m) {lax : Bool} {L : Int} {p : Parms (IEEE m)} {q : Parms Ivl} (h : RPrev p q)
    {ik ik' : Loc 57 Int} (hik : RLoc (· = ·) ik ik') {dl : Loc 57 (IEEE m)} {dl' : Loc 57 Ivl} (hdl : RLoc RI dl dl')
    {rho sum : IEEE m} {rho' sum' : Ivl} (hr : RI rho rho') (hs : RI sum sum') {T : Arr 57 (IEEE m)} {T' : Arr 57 Ivl}
    (hT : RArr RI T T') {cur : Parms (IEEE m)} {cur' : Parms Ivl} (hc : RAmps cur cur') :
    RelE RAmps (imbePredict2 lax L p ik dl rho sum T cur) (imbePredict2 false L q ik' dl' rho' sum' T' cur') := by
  unfold imbePredict2
  refine RelE.loopFT hc fun l c c' hc => ?_
  refine .bind (RLoc.rd hdl _) fun d d' hd => .bind (RLoc.rd hik _) fun n n' e => ?_
  subst e
  refine .bind (rdLog2_rel h _) fun x x' hx => .bind (rdLog2_rel h _) fun y y' hy => .bind (RArr.rd hT _) fun t t' ht => ?_
  have hv := RI.sub (.add (.add ht (.mul (.mul hr (.sub (.ofInt 1) hd)) hx)) (.mul (.mul hr hd) hy)) hs
  exact .bind (RArr.wr hc.lg _ hv) fun a a' ha => .bind (RArr.wr hc.ml _ (.exp2 hm hv)) fun b b' hb => .ok ⟨ha, hb⟩

/-- The prediction as a whole, for `L` not above the previous one. -/
def imbePredict {F : Type} [Arith F] (lax : Bool) (L : Int) (prev : Parms F) (Tl : Arr 57 F) (cur : Parms F) : Exec (Parms F) := do
  let p ← imbePredict1 lax L prev
  imbePredict2 lax L prev p.1 p.2.1 (imbeRho L) ((imbeRho L /ᶠ ofInt L) *ᶠ p.2.2) Tl cur

theorem imbeRho_rel (L : Int) : RI (imbeRho L : IEEE m) (imbeRho L) := by
  unfold imbeRho
  split
  · exact .toF (.dlit _ _)
  · split
    · exact .toF (.dsub (.dmul (.dlit _ _) (.ofInt _)) (.dlit _ _))
    · exact .toF (.dlit _ _)

theorem imbePredict_rel (hm : LibmAcc m) {lax : Bool} {L : Int} {p : Parms (IEEE m)} {q : Parms Ivl} (h : RPrev p q)
    {T : Arr 57 (IEEE m)} {T' : Arr 57 Ivl} (hT : RArr RI T T') {cur : Parms (IEEE m)} {cur' : Parms Ivl} (hc : RAmps cur cur') :
    RelE RAmps (imbePredict lax L p T cur) (imbePredict false L q T' cur') := by
  refine .bind (imbePredict1_rel h) fun a b hab => ?_
  exact imbePredict2_rel hm h hab.1 hab.2.1 (imbeRho_rel L) (.mul (.div (imbeRho_rel L) (.ofInt _)) hab.2.2) hT hc

theorem imbeDecodeBody_predict {lax : Bool} {d : Nat → Int} {L K : Int} {cur prev : Parms (IEEE m)} {t : Tls (IEEE m)}
    (hL : L ≤ prev.L) {r : DecodeRes (IEEE m)} (h : imbeDecodeBody lax d L K cur prev t = .ok r) :
    ∃ bb V T, imbeReadBits (L - 9) d = .ok bb ∧ imbeVoicing bb L K cur.Vl = .ok V ∧
      imbeResidual (imbeGetCache t).1 (L - 9) d = .ok T ∧
      imbePredict lax L prev T { cur with Vl := V } = .ok r.cur ∧ r.bad = 0 := by
  unfold imbeDecodeBody at h
  obtain ⟨bb, hbb, h⟩ := bind_ok h
  obtain ⟨V, hV, h⟩ := bind_ok h
  obtain ⟨G, hG, h⟩ := bind_ok h
  obtain ⟨R, hR, h⟩ := bind_ok h
  obtain ⟨C, hC, h⟩ := bind_ok h
  obtain ⟨T, hT, h⟩ := bind_ok h
  obtain ⟨p, hp, h⟩ := bind_ok h
  obtain ⟨q, hq, h⟩ := bind_ok h
  obtain ⟨c, hc, h⟩ := bind_ok h
  rw [extendPrev, if_neg (by omega)] at hp
  injection hp with hp
  subst hp
  injection h with h
  subst h
  refine ⟨bb, V, T, hbb, hV, ?_, ?_, rfl⟩
  · replace hR : idctRi (imbeGetCache t).1 6 G = .ok R := hR
    replace hT : imbeTl (imbeGetCache t).1 (L - 9) C = .ok T := hT
    unfold imbeResidual
    rw [hbb, ok_bind, hG, ok_bind, hR, ok_bind, hC, ok_bind, hT]
  · unfold imbePredict
    rw [hq, ok_bind, hc]

end Verif.Model
