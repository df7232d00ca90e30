import Verif.Spec.Unvoiced
import Verif.Lemmas.SynthSafe
import Verif.Lemmas.Noise

/-!
# Unvoiced synthesis, step by step
-/

set_option linter.unusedSectionVars false

namespace Verif

/-- A loop whose step `i` rewrites element `i` only. -/
theorem ptwise_loop {α : Type} {n : Nat} (g : Fin n → α → α) (body : Nat → Arr n α → Exec (Arr n α))
    (h : ∀ i (hi : i < n) (a : Arr n α), body i a = .ok (a.set i (g ⟨i, hi⟩ (a ⟨i, hi⟩)))) (a : Arr n α) :
    loop n body a = .ok (fun j => g j (a j)) := by
  have key : ∀ k, k ≤ n → loop k body a = .ok (fun i => if i.val < k then g i (a i) else a i) := by
    intro k
    induction k with
    | zero =>
      intro _
      have : (fun i : Fin n => if i.val < 0 then g i (a i) else a i) = a := funext fun i => if_neg (by omega)
      rw [this]; rfl
    | succ k ih =>
      intro hk
      rw [loop_succ, ih (by omega), ok_bind, h k (by omega)]
      refine congrArg _ (funext fun j => ?_)
      by_cases e : j.val = k
      · rw [Arr.set_same e]
        have : (⟨k, by omega⟩ : Fin n) = j := Fin.ext e.symm
        rw [this, if_neg (by omega), if_pos (by omega)]
      · rw [Arr.set_ne e]
        by_cases e' : j.val < k
        · rw [if_pos e', if_pos (by omega)]
        · rw [if_neg e', if_neg (by omega)]
  rw [key n (le_refl _)]
  exact congrArg _ (funext fun i => if_pos i.isLt)

theorem Arr.set_self {α : Type} {n : Nat} (a : Arr n α) (i : Nat) (h : i < n) : a.set i (a ⟨i, h⟩) = a := by
  funext j
  by_cases e : j.val = i
  · rw [Arr.set_same e]
    exact congrArg a (Fin.ext e.symm)
  · exact Arr.set_ne e

end Verif

namespace Verif.Model
open Verif Verif.Gen Verif.Spec Arith

variable {F : Type} [Arith F]

/-! ## Overlap-add -/

theorem ws_len : Ws_synthesis.length = 211 := by decide +kernel

theorem tabI_ws {n : Int} (h0 : -105 ≤ n) (h1 : n ≤ 105) :
    tabI Ws_synthesis (n + 105) = .ok (Ws_synthesis.getD (n + 105).toNat 0) := by
  have hl := ws_len
  unfold tabI
  rw [if_pos (by omega)]
  unfold tab
  have : (n + 105).toNat < Ws_synthesis.length := by omega
  rw [List.getElem?_eq_getElem this, List.getD_eq_getElem?_getD, List.getElem?_eq_getElem this]
  rfl

theorem synthWindow_eq (n : Int) : synthWindow n = .ok (winAt n : F) := by
  unfold synthWindow winAt
  by_cases h : n < -105 ∨ n > 105
  · rw [if_pos h, if_pos h]
  · rw [if_neg h, if_neg h, tabI_ws (by omega) (by omega), ok_bind]

theorem rdGuard (a : Arr 256 F) (i : Int) :
    (if i ≥ 0 ∧ i < 256 then a.rd i else .ok (lit 0 1)) = .ok (readOr a i) := by
  unfold readOr
  by_cases h : 0 ≤ i ∧ i < 256
  · rw [if_pos h, dif_pos h, Arr.rd_ok h.1 h.2]
  · rw [if_neg h, dif_neg h]

/-- One output sample of the overlap-add with the data of a plan. -/
def wolaSample (P : Plan F) (p c : Arr 256 F) (n : Fin 160) : F :=
  ((P.wPrev n *ᶠ readOr p (P.prevIdx n)) +ᶠ (P.wCurr n *ᶠ readOr c (P.currIdx n))) /ᶠ P.denom n

theorem wolaFast_eq (P : Plan F) (p c : Arr 256 F) (out : Arr 160 F) :
    wolaFast P p c out = .ok (fun n => if lt (lit 1 10000000000) (P.denom n) then out n +ᶠ wolaSample P p c n else out n) := by
  unfold wolaFast
  refine ptwise_loop (fun n x => if lt (lit 1 10000000000) (P.denom n) then x +ᶠ wolaSample P p c n else x) _ ?_ out
  intro i hi a
  dsimp only
  rw [Arr.rd_nat hi, ok_bind, rdGuard, ok_bind, Arr.rd_nat hi, ok_bind, rdGuard, ok_bind, Arr.rd_nat hi, ok_bind]
  by_cases h : lt (lit 1 10000000000) (P.denom ⟨i, hi⟩) = true
  · rw [if_pos h, if_pos h, Arr.rd_nat hi, ok_bind, Arr.rd_nat hi, ok_bind, Arr.rd_nat hi, ok_bind, Arr.wr_nat hi]
    rfl
  · rw [if_neg h, if_neg h, Arr.set_self]

/-- The data of the plan. -/
def thePlan : Plan F where
  wPrev n := winAt (n.val : Int)
  wCurr n := winAt ((n.val : Int) - 160)
  denom n := (winAt (n.val : Int) *ᶠ winAt (n.val : Int)) +ᶠ (winAt ((n.val : Int) - 160) *ᶠ winAt ((n.val : Int) - 160))
  prevIdx n := (n.val : Int) + 128
  currIdx n := (n.val : Int) + 128 - 160

theorem planFill_eq (p : Plan F) : planFill p = .ok thePlan := by
  have key : ∀ k, k ≤ 160 → ∃ q : Plan F, loop k (fun n p => do
      let wp ← synthWindow (n : Int)
      let wc ← synthWindow ((n : Int) - 160)
      let p := { p with wPrev := ← p.wPrev.wr n wp }
      let p := { p with wCurr := ← p.wCurr.wr n wc }
      let p := { p with denom := ← p.denom.wr n ((wp *ᶠ wp) +ᶠ (wc *ᶠ wc)) }
      let p := { p with prevIdx := ← p.prevIdx.wr n ((n : Int) + 128) }
      pure { p with currIdx := ← p.currIdx.wr n ((n : Int) + 128 - 160) }) p = .ok q ∧ ∀ j : Fin 160, j.val < k →
      q.wPrev j = thePlan.wPrev j ∧ q.wCurr j = thePlan.wCurr j ∧ q.denom j = thePlan.denom j ∧
      q.prevIdx j = (thePlan : Plan F).prevIdx j ∧ q.currIdx j = (thePlan : Plan F).currIdx j := by
    intro k
    induction k with
    | zero => exact fun _ => ⟨p, rfl, fun j h => absurd h (Nat.not_lt_zero _)⟩
    | succ k ih =>
      intro hk
      obtain ⟨q, h1, h2⟩ := ih (by omega)
      have hk' : k < 160 := by omega
      rw [loop_succ, h1, ok_bind, synthWindow_eq, ok_bind, synthWindow_eq, ok_bind, Arr.wr_nat hk', ok_bind]
      dsimp only
      rw [Arr.wr_nat hk', ok_bind, Arr.wr_nat hk', ok_bind, Arr.wr_nat hk', ok_bind, Arr.wr_nat hk', ok_bind]
      refine ⟨_, rfl, fun j hj => ?_⟩
      dsimp only
      by_cases e : j.val = k
      · rw [Arr.set_same e, Arr.set_same e, Arr.set_same e, Arr.set_same e, Arr.set_same e]
        unfold thePlan
        dsimp only
        rw [e]
        exact ⟨rfl, rfl, rfl, rfl, rfl⟩
      · rw [Arr.set_ne e, Arr.set_ne e, Arr.set_ne e, Arr.set_ne e, Arr.set_ne e]
        exact h2 j (by omega)
  obtain ⟨q, h1, h2⟩ := key 160 (le_refl _)
  have : q = thePlan := by
    obtain ⟨a, b, c, d, e⟩ := q
    have e1 : a = thePlan.wPrev := funext fun j => (h2 j j.isLt).1
    have e2 : b = thePlan.wCurr := funext fun j => (h2 j j.isLt).2.1
    have e3 : c = thePlan.denom := funext fun j => (h2 j j.isLt).2.2.1
    have e4 : d = (thePlan : Plan F).prevIdx := funext fun j => (h2 j j.isLt).2.2.2.1
    have e5 : e = (thePlan : Plan F).currIdx := funext fun j => (h2 j j.isLt).2.2.2.2
    subst e1 e2 e3 e4 e5
    rfl
  rw [this] at h1
  exact h1

theorem rdGuard' (a : Arr 256 F) {i : Int} (h0 : 0 ≤ i) :
    (if i < 256 then a.rd i else .ok (lit 0 1)) = .ok (readOr a i) := by
  rw [← rdGuard]
  by_cases h : i < 256
  · rw [if_pos h, if_pos ⟨h0, h⟩]
  · rw [if_neg h, if_neg (fun h' => h h'.2)]

/-- The general overlap-add is the fast one with the data of the plan. -/
theorem wolaCombine_eq (p c : Arr 256 F) (out : Arr 160 F) : wolaCombine p c out = wolaFast thePlan p c out := by
  rw [wolaFast_eq]
  unfold wolaCombine
  refine ptwise_loop (fun n x => if lt (lit 1 10000000000) ((thePlan : Plan F).denom n) then x +ᶠ wolaSample thePlan p c n else x)
    _ ?_ out
  intro i hi a
  dsimp only
  rw [synthWindow_eq, ok_bind, synthWindow_eq, ok_bind, rdGuard' _ (by omega), ok_bind, rdGuard, ok_bind]
  rw [show (winAt (i : Int) *ᶠ winAt (i : Int)) +ᶠ (winAt ((i : Int) - 160) *ᶠ winAt ((i : Int) - 160)) =
    (thePlan : Plan F).denom ⟨i, hi⟩ from rfl]
  by_cases h : lt (lit 1 10000000000) ((thePlan : Plan F).denom ⟨i, hi⟩) = true
  · rw [if_pos h, if_pos h, Arr.rd_nat hi, ok_bind, Arr.wr_nat hi]
    rfl
  · rw [if_neg h, if_neg h, Arr.set_self]

/-! ## Band scaling -/

theorem fillRange {n : Nat} {α : Type} (v : α) {a b : Int} (h0 : 0 ≤ a) (h1 : b ≤ n) (S : Arr n α) :
    loop (b - a).toNat (fun k (S : Arr n α) => S.wr (a + k) v) S =
      .ok (fun j => if a ≤ (j.val : Int) ∧ (j.val : Int) < b then v else S j) := by
  have key : ∀ k : Nat, (k : Int) ≤ b - a → loop k (fun k (S : Arr n α) => S.wr (a + k) v) S =
      .ok (fun j => if a ≤ (j.val : Int) ∧ (j.val : Int) < a + k then v else S j) := by
    intro k
    induction k with
    | zero =>
      intro _
      exact congrArg Except.ok (funext fun j => (if_neg (by omega)).symm)
    | succ k ih =>
      intro hk
      rw [loop_succ, ih (by omega), ok_bind, Arr.wr_ok (by omega) (by omega)]
      refine congrArg Except.ok (funext fun j => ?_)
      by_cases e : j.val = (a + (k : Int)).toNat
      · rw [Arr.set_same e, if_pos (by omega)]
      · rw [Arr.set_ne e]
        by_cases e' : a ≤ (j.val : Int) ∧ (j.val : Int) < a + k
        · rw [if_pos e', if_pos (by omega)]
        · rw [if_neg e', if_neg (by omega)]
  by_cases h : a ≤ b
  · rw [key _ (by omega)]
    refine congrArg Except.ok (funext fun j => ?_)
    have : ((b - a).toNat : Int) = b - a := by omega
    rw [this, show a + (b - a) = b by omega]
  · have : (b - a).toNat = 0 := by omega
    rw [this]
    exact congrArg Except.ok (funext fun j => (if_neg (by omega)).symm)

theorem rd_readOr (a : Arr 256 F) {i : Int} (h0 : 0 ≤ i) (h1 : i < 256) : a.rd i = .ok (readOr a i) := by
  rw [Arr.rd_ok h0 h1]
  unfold readOr
  rw [dif_pos ⟨h0, h1⟩]

theorem loop_foldl {σ} (n : Nat) (g : Nat → σ → σ) (s : σ) (f : Nat → σ → Exec σ)
    (h : ∀ i, i < n → ∀ s, f i s = .ok (g i s)) : loop n f s = .ok ((List.range n).foldl (fun s i => g i s) s) := by
  induction n with
  | zero => rfl
  | succ n ih =>
    rw [loop_succ, ih fun i hi => h i (by omega), ok_bind, h n (by omega), List.range_succ, List.foldl_append]
    rfl

theorem foldl_range_shift {σ} (n : Nat) (g : Nat → σ → σ) (s : σ) :
    (List.range (n + 1)).foldl (fun s i => g i s) s = (List.range n).foldl (fun s i => g (i + 1) s) (g 0 s) := by
  rw [List.range_succ_eq_map, List.foldl_cons, List.foldl_map]

theorem magSum_eq (fft : Arr 256 F) {a b : Int} (ha : 0 ≤ a) (hb : b ≤ 128) : magSum fft a b = .ok (bandPower fft a b) := by
  unfold magSum bandPower
  by_cases h : b ≤ a
  · rw [if_pos h, show (b - a).toNat = 0 by omega]
    rfl
  rw [if_neg h]
  have hn : (decide (b > 128)) = false := by simp; omega
  by_cases h0 : a = 0
  · subst h0
    rw [if_pos rfl, rd_readOr _ (by omega) (by omega), ok_bind, ok_bind]
    dsimp only
    rw [hn, if_neg (by decide), loop_foldl _ (fun i s => s +ᶠ binPower fft (i + 1)) _ _ ?_, ok_bind, if_neg (by decide)]
    · rw [show (b - 0).toNat = (b - 1).toNat + 1 by omega,
        foldl_range_shift _ (fun i s => s +ᶠ binPower fft ((0 : Int).toNat + i))]
      refine congrArg Except.ok ?_
      have e : (lit 0 1 +ᶠ readOr fft 0 *ᶠ readOr fft 0 : F) = lit 0 1 +ᶠ binPower fft ((0 : Int).toNat + 0) := by
        unfold binPower
        rw [if_pos (show (0 : Int).toNat + 0 = 0 from rfl)]
      rw [e]
      congr 1
      funext s i
      rw [show (0 : Int).toNat + (i + 1) = i + 1 from by simp]
    · intro i hi s
      rw [rd_readOr _ (by omega) (by omega), ok_bind, rd_readOr _ (by omega) (by omega), ok_bind]
      refine congrArg Except.ok ?_
      unfold binPower
      rw [if_neg (by omega), if_neg (by omega), show ((i + 1 : Nat) : Int) = 1 + (i : Int) by push_cast; omega]
  · rw [if_neg h0, ok_bind]
    dsimp only
    rw [hn, if_neg (by decide), loop_foldl _ (fun i s => s +ᶠ binPower fft (a.toNat + i)) _ _ ?_, ok_bind, if_neg (by decide)]
    intro i hi s
    rw [rd_readOr _ (by omega) (by omega), ok_bind, rd_readOr _ (by omega) (by omega), ok_bind]
    refine congrArg Except.ok ?_
    unfold binPower
    rw [if_neg (by omega), if_neg (by omega), show ((a.toNat + i : Nat) : Int) = a + (i : Int) by omega]

theorem gainAt_step {Vl : Arr 57 Int} {Ml : Arr 57 F} {fft : Arr 256 F} {lo hi : Nat → Int} {n k : Nat} {v : F}
    (h : GainAt Vl Ml fft lo hi n k v) (hn : ∀ h : n + 1 < 57, ∀ v', ¬ Owns Vl Ml fft lo hi ⟨n + 1, h⟩ k v') :
    GainAt Vl Ml fft lo hi (n + 1) k v := by
  rcases h with ⟨h1, h2⟩ | ⟨l, h1, h2, h3, h4⟩
  · refine .inl ⟨h1, fun l g1 g2 v' => ?_⟩
    by_cases e : l.val = n + 1
    · have : l = ⟨n + 1, by omega⟩ := Fin.ext e
      rw [this]; exact hn _ v'
    · exact h2 l g1 (by omega) v'
  · refine .inr ⟨l, h1, by omega, h3, fun l' g1 g2 v' => ?_⟩
    by_cases e : l'.val = n + 1
    · have : l' = ⟨n + 1, by omega⟩ := Fin.ext e
      rw [this]; exact hn _ v'
    · exact h4 l' g1 (by omega) v'

/-- Contents of the arrays of band edges. -/
def EdgeIs (L : Int) (e : Loc 57 Int × Loc 57 Int) (lo hi : Nat → Int) : Prop := ∀ l : Fin 57, 1 ≤ l.val →
  (l.val : Int) ≤ L → e.1 l = some (lo l.val) ∧ e.2 l = some (hi l.val) ∧ 0 ≤ lo l.val ∧ hi l.val ≤ 128

theorem binScalors_eq {L : Int} (hL : L ≤ 56) (Vl : Arr 57 Int) (Ml : Arr 57 F) (fft : Arr 256 F)
    {e : Loc 57 Int × Loc 57 Int} {lo hi : Nat → Int} (h : EdgeIs L e lo hi) :
    Ok (binScalors L Vl Ml fft e.1 e.2) fun S => ∀ k : Fin 129, GainAt Vl Ml fft lo hi L.toNat k.val (S k) := by
  unfold binScalors loopTo
  by_cases h0 : L ≤ 0
  · have : L.toNat = 0 := by omega
    rw [this]
    exact Ok.ok fun k => .inl ⟨rfl, fun l h1 h2 => by omega⟩
  refine (loopFT_inv (lo := 1) (hi := L.toNat)
    (fun n (S : Arr 129 F) => ∀ k : Fin 129, GainAt Vl Ml fft lo hi (n - 1) k.val (S k)) (by omega)
    (fun k => .inl ⟨rfl, fun l h1 h2 => by omega⟩) ?_).mono fun S hS => hS
  intro l h1 h2 S hS
  obtain ⟨e1, e2, ha, hb⟩ := h ⟨l, by omega⟩ h1 (by show (l : Int) ≤ L; omega)
  dsimp only at e1 e2 ha hb
  have hl : l < 57 := by omega
  rw [show l + 1 - 1 = (l - 1) + 1 by omega]
  have stp : ∀ k : Fin 129, (∀ v', ¬ Owns Vl Ml fft lo hi ⟨l, hl⟩ k.val v') →
      GainAt Vl Ml fft lo hi (l - 1 + 1) k.val (S k) := by
    intro k hk
    refine gainAt_step (hS k) fun h => ?_
    have : (⟨l - 1 + 1, h⟩ : Fin 57) = ⟨l, hl⟩ := Fin.ext (by show l - 1 + 1 = l; omega)
    rw [this]
    exact hk
  rw [Arr.rd_nat hl, ok_bind]
  refine Ok.ite (fun hv => ?_) fun hv => Ok.ok fun k => stp k fun v' ho => hv ho.1
  rw [Loc.rd_nat hl e1, ok_bind, Loc.rd_nat hl e2, ok_bind, magSum_eq fft ha hb, ok_bind]
  refine Ok.ite (fun hc => ?_) fun hc => Ok.ok fun k => stp k fun v' ho => ?_
  · rw [Arr.rd_nat hl, ok_bind, fillRange _ ha (by omega)]
    refine Ok.ok fun k => ?_
    by_cases hk : lo l ≤ (k.val : Int) ∧ (k.val : Int) < hi l
    · rw [if_pos hk]
      refine .inr ⟨⟨l, hl⟩, h1, by show l ≤ _; omega, ⟨hv, hk.1, hk.2, hc.2, rfl⟩, fun l' g1 g2 => ?_⟩
      have : l < l'.val := g1
      omega
    · rw [if_neg hk]
      exact stp k fun v' ho => hk ⟨ho.2.1, ho.2.2.1⟩
  · obtain ⟨_, f3, f4, f5, _⟩ := ho
    dsimp only at f3 f4 f5
    exact hc ⟨by omega, f5⟩

theorem bandEdges_eq (w0 : F) {L : Int} (hL : L ≤ 56) :
    Post (bandEdges (binMultiplier w0) L) fun e => ∃ lo hi : Nat → Int, EdgeIs L e lo hi ∧
      ∀ l : Nat, 1 ≤ l → (l : Int) ≤ L → Edges w0 l (lo l) (hi l) := by
  unfold bandEdges loopTo
  by_cases h0 : L ≤ 0
  · have : L.toNat = 0 := by omega
    rw [this]
    exact Post.pure ⟨fun _ => 0, fun _ => 0, fun l h1 h2 => by omega, fun l h1 h2 => by omega⟩
  refine (loopFT_post (lo := 1) (hi := L.toNat) (fun k (e : Loc 57 Int × Loc 57 Int) => ∃ lo hi : Nat → Int,
    EdgeIs ((k : Int) - 1) e lo hi ∧ ∀ l : Nat, 1 ≤ l → (l : Int) ≤ (k : Int) - 1 → Edges w0 l (lo l) (hi l)) (by omega)
    ⟨fun _ => 0, fun _ => 0, fun l h1 h2 => by omega, fun l h1 h2 => by omega⟩ ?_).mono ?_
  · rintro i h1 h2 s ⟨lo, hi, g1, g2⟩
    intro r hr
    obtain ⟨a, ha, hr⟩ := bind_ok hr
    obtain ⟨b, hb, hr⟩ := bind_ok hr
    rw [Loc.wr_nat (by omega), ok_bind, Loc.wr_nat (by omega), ok_bind] at hr
    rw [← ok_inj hr]
    refine ⟨fun l => if l = i then a else lo l, fun l => if l = i then b else hi l, fun l h3 h4 => ?_, fun l h3 h4 => ?_⟩
    · by_cases e : l.val = i
      · dsimp only
        rw [if_pos e, if_pos e]
        exact ⟨Arr.set_same e, Arr.set_same e, bandLo_nonneg _ _ _ ha, bandHi_le _ _ _ hb⟩
      · dsimp only
        rw [if_neg e, if_neg e, Arr.set_ne e, Arr.set_ne e]
        exact g1 l h3 (by push_cast at h4; omega)
    · by_cases e : l = i
      · dsimp only
        rw [if_pos e, if_pos e]
        subst e
        obtain ⟨a', ha', ha2⟩ := bind_ok ha
        obtain ⟨b', hb', hb2⟩ := bind_ok hb
        refine ⟨a', b', ha', hb', ?_, ?_⟩
        · rw [← ok_inj ha2]; split <;> omega
        · rw [← ok_inj hb2]; split <;> omega
      · dsimp only
        rw [if_neg e, if_neg e]
        exact g2 l h3 (by push_cast at h4; omega)
  · rintro e ⟨lo, hi, g1, g2⟩
    exact ⟨lo, hi, fun l a b => g1 l a (by push_cast; omega), fun l a b => g2 l a (by push_cast; omega)⟩

theorem binOf_lt (i : Fin 256) : binOf i.val < 129 := by
  unfold binOf
  split
  · omega
  · split <;> omega

theorem scaleBins_eq (S : Arr 129 F) (fft : Arr 256 F) :
    scaleBins S fft = .ok (fun i => fft i *ᶠ S ⟨binOf i.val, binOf_lt i⟩) := by
  unfold scaleBins loopFT
  have key : ∀ n, n ≤ 129 → loop n (fun k (fft : Arr 256 F) => do binScale fft (0 + k) (← S.rd ((0 + k : Nat) : Int))) fft =
      .ok (fun i => if binOf i.val < n then fft i *ᶠ S ⟨binOf i.val, binOf_lt i⟩ else fft i) := by
    intro n
    induction n with
    | zero => exact fun _ => congrArg Except.ok (funext fun i => (if_neg (Nat.not_lt_zero _)).symm)
    | succ n ih =>
      intro hn
      have hn' : n < 129 := by omega
      rw [loop_succ, ih (by omega), ok_bind, Nat.zero_add, Arr.rd_nat hn', ok_bind]
      unfold binScale
      have step : ∀ (i : Fin 256), binOf i.val ≠ n →
          (if binOf i.val < n + 1 then fft i *ᶠ S ⟨binOf i.val, binOf_lt i⟩ else fft i) =
          if binOf i.val < n then fft i *ᶠ S ⟨binOf i.val, binOf_lt i⟩ else fft i := by
        intro i h
        by_cases h' : binOf i.val < n
        · rw [if_pos h', if_pos (by omega)]
        · rw [if_neg h', if_neg (by omega)]
      have hit : ∀ (i : Fin 256), binOf i.val = n →
          (if binOf i.val < n + 1 then fft i *ᶠ S ⟨binOf i.val, binOf_lt i⟩ else fft i) = fft i *ᶠ S ⟨n, hn'⟩ := by
        intro i h
        rw [if_pos (by omega)]
        congr 2
        exact Fin.ext h
      have miss : ∀ (i : Fin 256), binOf i.val = n →
          (if binOf i.val < n then fft i *ᶠ S ⟨binOf i.val, binOf_lt i⟩ else fft i) = fft i :=
        fun i h => if_neg (by omega)
      by_cases h0 : n = 0
      · subst h0
        rw [if_pos rfl, Arr.rd_ok (by omega) (by omega), ok_bind, Arr.wr_ok (by omega) (by omega)]
        refine congrArg Except.ok (funext fun i => ?_)
        by_cases e : i.val = (0 : Int).toNat
        · rw [Arr.set_same e, hit i (by unfold binOf; rw [if_pos (show i.val = 0 from e)])]
          rw [miss ⟨(0 : Int).toNat, by decide⟩ rfl]
          rw [show (⟨(0 : Int).toNat, by decide⟩ : Fin 256) = i from Fin.ext e.symm]
        · rw [Arr.set_ne e, step i]
          have e' : i.val ≠ 0 := e
          unfold binOf
          rw [if_neg e']
          split <;> omega
      rw [if_neg h0]
      by_cases h1 : n = 128
      · subst h1
        rw [if_pos rfl, Arr.rd_ok (by omega) (by omega), ok_bind, Arr.wr_ok (by omega) (by omega)]
        refine congrArg Except.ok (funext fun i => ?_)
        by_cases e : i.val = (1 : Int).toNat
        · have e' : i.val = 1 := e
          rw [Arr.set_same e, hit i (by unfold binOf; rw [if_neg (by omega), if_pos e'])]
          rw [miss ⟨(1 : Int).toNat, by decide⟩ rfl]
          rw [show (⟨(1 : Int).toNat, by decide⟩ : Fin 256) = i from Fin.ext e.symm]
        · rw [Arr.set_ne e, step i]
          have e' : i.val ≠ 1 := e
          unfold binOf
          split
          · omega
          · omega
      rw [if_neg h1, Arr.rd_ok (by omega) (by omega), ok_bind, Arr.wr_ok (by omega) (by omega), ok_bind,
        Arr.rd_ok (by omega) (by omega), ok_bind, Arr.wr_ok (by omega) (by omega)]
      refine congrArg Except.ok (funext fun i => ?_)
      by_cases e : i.val = (2 * (n : Int) + 1).toNat
      · have hb : binOf i.val = n := by
          unfold binOf
          rw [if_neg (by omega), if_neg (by omega)]
          omega
        rw [Arr.set_same e, hit i hb, Arr.set_ne (by show (2 * (n : Int) + 1).toNat ≠ _; omega)]
        rw [show (⟨(2 * (n : Int) + 1).toNat, by omega⟩ : Fin 256) = i from Fin.ext e.symm, miss i hb]
      · rw [Arr.set_ne e]
        by_cases e2 : i.val = (2 * (n : Int)).toNat
        · have hb : binOf i.val = n := by
            unfold binOf
            rw [if_neg (by omega), if_neg (by omega)]
            omega
          rw [Arr.set_same e2, hit i hb]
          rw [show (⟨(2 * (n : Int)).toNat, by omega⟩ : Fin 256) = i from Fin.ext e2.symm, miss i hb]
        · rw [Arr.set_ne e2, step i]
          unfold binOf
          split
          · omega
          · split <;> omega
  rw [show 128 + 1 - 0 = 129 from rfl, key 129 (le_refl _)]
  exact congrArg Except.ok (funext fun i => if_pos (binOf_lt i))

theorem normalize_eq (U : Arr 256 F) : normalize U = .ok (fun i => U i *ᶠ (lit 1 1 /ᶠ ofInt 256)) :=
  inPlace_loop (fun x => x *ᶠ (lit 1 1 /ᶠ ofInt 256)) U

theorem windowNoise_eq (noise : Arr 256 F) :
    windowNoise noise = .ok (fun i => noise i *ᶠ winAt ((i.val : Int) - 128)) := by
  unfold windowNoise
  refine ptwise_loop (fun i _ => noise i *ᶠ winAt ((i.val : Int) - 128)) _ ?_ (Arr.const 256 (fi 0))
  intro i hi a
  dsimp only
  have : (if (i : Int) - 128 ≥ -105 ∧ (i : Int) - 128 ≤ 105 then do
      .ok (lit (← tabI Ws_synthesis ((i : Int) - 128 + 105)) Ws_synthesis_den : F) else .ok (lit 0 1)) =
      .ok (winAt ((i : Int) - 128)) := by
    unfold winAt
    by_cases h : (i : Int) - 128 ≥ -105 ∧ (i : Int) - 128 ≤ 105
    · rw [if_pos h, if_neg (by omega), tabI_ws h.1 h.2, ok_bind]
    · rw [if_neg h, if_pos (by omega)]
  rw [this, ok_bind, Arr.rd_nat hi, ok_bind, Arr.wr_nat hi]

/-- Unvoiced synthesis as a whole: the spectrum of the windowed noise times the gains, back in the time domain, overlapped
with the previous frame. -/
theorem unvoiced_eq (E : Env F) (P : Plan F) (noise : Arr 256 F) (cur prev : Parms F) (out : Arr 160 F) (hL : cur.L ≤ 56) :
    Post (unvoiced E P noise cur prev out) fun r => ∃ (lo hi : Nat → Int) (S : Arr 129 F),
      (∀ l : Nat, 1 ≤ l → (l : Int) ≤ cur.L → Edges cur.w0 l (lo l) (hi l)) ∧
      (∀ k : Fin 129, GainAt cur.Vl cur.Ml (E.fwd fun i => noise i *ᶠ winAt ((i.val : Int) - 128)) lo hi cur.L.toNat k.val (S k)) ∧
      r.2 = (fun i => E.bwd (fun i => E.fwd (fun i => noise i *ᶠ winAt ((i.val : Int) - 128)) i *ᶠ
        S ⟨binOf i.val, binOf_lt i⟩) i *ᶠ (lit 1 1 /ᶠ ofInt 256)) ∧
      wolaFast P prev.previousUw r.2 out = .ok r.1 := by
  unfold unvoiced
  rw [windowNoise_eq, ok_bind]
  refine Post.bind (bandEdges_eq cur.w0 hL) ?_
  rintro e ⟨lo, hi, he, hed⟩
  refine Post.bind (binScalors_eq hL cur.Vl cur.Ml _ he).post fun S hS => ?_
  rw [scaleBins_eq, ok_bind, normalize_eq, ok_bind]
  intro r hr
  obtain ⟨o, ho, h⟩ := bind_ok hr
  rw [← ok_inj h]
  exact ⟨lo, hi, S, hed, hS, rfl, ho⟩

end Verif.Model
