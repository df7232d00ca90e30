import Verif.Lemmas.ImbeSafe
import Verif.Lemmas.Lax

/-!
# The AMBE parameter decoders end without undefined behaviour
-/

namespace Verif.Model
open Verif Verif.Spec Verif.Gen Verif.Num Arith

/-- Shape of the tables of one AMBE codec. -/
structure AmbeTabs.Shape (T : AmbeTabs) : Prop where
  p24 : T.prba24.all (fun r => r.length == 3) = true
  p58 : T.prba58.all (fun r => r.length == 4) = true
  h5 : T.hoc5.all (fun r => r.length == 4) = true
  h6 : T.hoc6.all (fun r => r.length == 4) = true
  h7 : T.hoc7.all (fun r => r.length == 4) = true
  h8 : T.hoc8.all (fun r => r.length == 4) = true
  lm : T.lmprbl.length = 57
  lmr : ∀ L < 57, 9 ≤ L → (T.lmprbl.getD L []).length = 4 ∧ (T.lmprbl.getD L []).all (fun j => j ≤ 17) = true ∧
    (T.lmprbl.getD L []).sum = L

theorem shape2450 : tabs2450.Shape :=
  ⟨by decide +kernel, by decide +kernel, by decide +kernel, by decide +kernel, by decide +kernel, by decide +kernel,
   by decide +kernel, by decide +kernel⟩

theorem shape2400 : tabs2400.Shape :=
  ⟨by decide +kernel, by decide +kernel, by decide +kernel, by decide +kernel, by decide +kernel, by decide +kernel,
   by decide +kernel, by decide +kernel⟩

/-- The fields are in the range of their tables. -/
structure AmbeFields.Ok (T : AmbeTabs) (f : AmbeFields) : Prop where
  b2 : f.b2 < T.dg.length
  b3 : f.b3 < T.prba24.length
  b4 : f.b4 < T.prba58.length
  b5 : f.b5 < T.hoc5.length
  b6 : f.b6 < T.hoc6.length
  b7 : f.b7 < T.hoc7.length
  b8 : f.b8 < T.hoc8.length

theorem tab2_ok {α} (x : α) {t : List (List α)} {i j n : Nat} (hs : t.all (fun r => r.length == n) = true) (hi : i < t.length)
    (hj : j < n) : tab2 t (i : Int) (j : Int) = .ok ((t.getD i []).getD j x) := by
  have := List.all_eq_true.mp hs _ (getD_mem (x := []) hi)
  simp only [beq_iff_eq] at this
  unfold tab2
  rw [tabI_getD (x := []) hi, ok_bind]
  exact tabI_getD (by omega)

section
variable {F : Type} [Arith F]

theorem ambeGm_ok {T : AmbeTabs} {f : AmbeFields} (hT : T.Shape) (hf : f.Ok T) : Ok (ambeGm T f : Exec (Loc 9 F)) (Init 8) := by
  unfold ambeGm
  rw [show ((1 : Int)) = ((1 : Nat) : Int) from rfl, Loc.wr_nat (by decide), ok_bind]
  refine Ok.bind (loop_inv (n := 3) (fun c (G : Loc 9 F) => Init (c + 1) G) ?_ ?_) fun G hG => ?_
  · exact Init.set fun j hj c1 c2 c3 => absurd (show j = 1 by omega) c3
  · intro c hc G hG
    rw [tab2_ok 0 hT.p24 hf.b3 hc, ok_bind, show (c : Int) + 2 = ((c + 2 : Nat) : Int) by omega, Loc.wr_nat (by omega)]
    refine Ok.ok (Init.set fun j hj c1 c2 c3 => hG j hj c1 (by omega))
  · refine (loop_inv (n := 4) (fun c (G : Loc 9 F) => Init (c + 4) G) hG ?_)
    intro c hc G hG
    rw [tab2_ok 0 hT.p58 hf.b4 hc, ok_bind, show (c : Int) + 5 = ((c + 5 : Nat) : Int) by omega, Loc.wr_nat (by omega)]
    refine Ok.ok (Init.set fun j hj c1 c2 c3 => hG j hj c1 (by omega))

theorem ambeCik12_ok {Ri : Loc 9 F} (hR : Init 8 Ri) :
    Ok (ambeCik12 Ri) fun C => ∀ i, 1 ≤ i → i ≤ 4 → Init2 C i 2 := by
  unfold ambeCik12
  refine (loopFT_inv (lo := 1) (hi := 4) (fun i (C : Arr 5 (Loc 18 F)) => ∀ i', 1 ≤ i' → i' < i → Init2 C i' 2) (by omega)
    (fun _ _ _ => by omega) ?_).mono fun C h i h1 h2 => h i h1 (by omega)
  intro i h1 h2 C hC
  obtain ⟨a, ha⟩ := hR.rd (i := 2 * i - 1) (by omega) (by omega) (by decide)
  obtain ⟨b, hb⟩ := hR.rd (i := 2 * i) (by omega) (by omega) (by decide)
  rw [show 2 * (i : Int) - 1 = ((2 * i - 1 : Nat) : Int) by omega, ha, ok_bind,
    show 2 * (i : Int) = ((2 * i : Nat) : Int) by omega, hb, ok_bind,
    show ((1 : Int)) = ((1 : Nat) : Int) from rfl, Loc.wr2_nat (by omega) (by decide), ok_bind,
    show ((2 : Int)) = ((2 : Nat) : Int) from rfl, Loc.wr2_nat (by omega) (by decide)]
  refine Ok.ok fun i' c1 c2 => Init2.set2 fun hi j hj d1 d2 d3 => ?_
  refine Init2.set2 (J := j) (fun hi j hj e1 e2 e3 => ?_) hi j hj d1 (le_refl _)
  by_cases e : i' = i
  · omega
  · exact hC i' c1 (by omega) hi j hj e1 (by omega)

theorem ambeHoc_ok {t : List (List Int)} {den b i J : Nat} {C : Arr 5 (Loc 18 F)} (ht : t.all (fun r => r.length == 4) = true)
    (hb : b < t.length) (hi : i < 5) (hJ : J ≤ 17) (hC : ∀ i, 1 ≤ i → i ≤ 4 → Init2 C i 2) {D : Nat → Nat}
    (hD : ∀ i', 1 ≤ i' → i' < i → Init2 C i' (D i')) :
    Ok (ambeHoc t den b i J C) fun C' => (∀ i, 1 ≤ i → i ≤ 4 → Init2 C' i 2) ∧
      (∀ i', 1 ≤ i' → i' < i → Init2 C' i' (D i')) ∧ (1 ≤ i → Init2 C' i J) := by
  unfold ambeHoc
  by_cases h3 : J < 3
  · have : loopFT 3 J (fun k C => do
      if k > 6 then Loc.wr2 C i k (fi 0)
      else Loc.wr2 C i k (ftab (← tab2 t b ((k : Int) - 3)) den)) C = .ok C := by
      unfold loopFT
      rw [show J + 1 - 3 = 0 by omega]; rfl
    rw [this]
    refine Ok.ok ⟨hC, hD, fun h => ?_⟩
    intro h' j hj c1 c2
    exact hC i h (by omega) h' j hj c1 (by omega)
  · refine (loopFT_inv (lo := 3) (hi := J) (fun k (C' : Arr 5 (Loc 18 F)) => (∀ i, 1 ≤ i → i ≤ 4 → Init2 C' i 2) ∧
      (∀ i', 1 ≤ i' → i' < i → Init2 C' i' (D i')) ∧ (1 ≤ i → Init2 C' i (k - 1))) (by omega) ?_ ?_).mono ?_
    · exact ⟨hC, hD, fun h => hC i h (by omega)⟩
    · rintro k k1 k2 C' ⟨j1, j2, j3⟩
      have fin : ∀ v : F, Ok (Loc.wr2 C' (i : Int) (k : Int) v) fun C' => (∀ i, 1 ≤ i → i ≤ 4 → Init2 C' i 2) ∧
          (∀ i', 1 ≤ i' → i' < i → Init2 C' i' (D i')) ∧ (1 ≤ i → Init2 C' i (k + 1 - 1)) := by
        intro v
        rw [Loc.wr2_nat (by omega) (by omega)]
        refine Ok.ok ⟨fun i' a b => Init2.set2 fun hi j hj c1 c2 _ => j1 i' a b hi j hj c1 c2,
          fun i' a b => Init2.set2 fun hi j hj c1 c2 _ => j2 i' a b hi j hj c1 c2,
          fun a => Init2.set2 fun hi j hj c1 c2 c3 => j3 a hi j hj c1 ?_⟩
        have : j ≠ k := fun e => c3 ⟨rfl, e⟩
        omega
      refine Ok.ite (fun _ => fin _) (fun h => ?_)
      rw [show (k : Int) - 3 = ((k - 3 : Nat) : Int) by omega, tab2_ok 0 ht hb (by omega), ok_bind]
      exact fin _
    · rintro C' ⟨j1, j2, j3⟩
      exact ⟨j1, j2, fun h => by simpa using j3 h⟩

theorem ambeSum42_ok {L : Nat} (hL : L ≤ 56) (Tl : Arr 57 F) : Ok (ambeSum42 (L : Int) Tl) fun _ => True := by
  unfold ambeSum42
  rw [Int.toNat_natCast]
  by_cases h : L = 0
  · subst h; exact ⟨_, rfl, trivial⟩
  · refine loopFT_inv (fun _ _ => True) (by omega) trivial ?_
    intro l h1 h2 s _
    rw [Arr.rd_nat (by omega), ok_bind]
    exact Ok.ok trivial

theorem clearVl_ok {L : Nat} (hL : L ≤ 56) (Vl : Arr 57 Int) : Ok (clearVl L Vl) fun V =>
    ∀ l : Fin 57, V l = if 1 ≤ l.val ∧ l.val ≤ L then 0 else Vl l := by
  unfold clearVl
  refine (loopFT_inv (fun i (V : Arr 57 Int) => ∀ l : Fin 57, V l = if 1 ≤ l.val ∧ l.val < i then 0 else Vl l)
    (lo := 1) (hi := L) (by omega) (fun l => by rw [if_neg (by omega)]) ?_).mono fun V h l => ?_
  · intro i h1 h2 V hV
    rw [Arr.wr_nat (by omega)]
    refine Ok.ok fun l => ?_
    by_cases e : l.val = i
    · rw [Arr.set_same e, if_pos (by omega)]
    · rw [Arr.set_ne e, hV l]
      by_cases c : 1 ≤ l.val ∧ l.val < i
      · rw [if_pos c, if_pos (by omega)]
      · rw [if_neg c, if_neg (by omega)]
  · rw [h l]
    by_cases c : 1 ≤ l.val ∧ l.val ≤ L
    · rw [if_pos c, if_pos (by omega)]
    · rw [if_neg c, if_neg (by omega)]

/-- Voicing with a known table column for every harmonic. -/
theorem ambeVoicing_ok {t : List (List Nat)} {b1 L : Nat} {f0 : F} {silence : Bool} {col : Nat → Nat} (hL : L ≤ 56)
    (ht : t.all (fun r => r.length == 8) = true) (hb : b1 < t.length)
    (hc : ∀ l, 1 ≤ l → l ≤ L → toI32 ((ofInt (l : Int) *ᶠ toF (dlit 16 1)) *ᶠ f0) = .ok (col l : Int))
    (hc' : silence = false → ∀ l, 1 ≤ l → l ≤ L → col l < 8) (Vl : Arr 57 Int) :
    Ok (ambeVoicing t b1 f0 silence (L : Int) Vl) fun V => ∀ l : Fin 57, V l =
      if silence = false ∧ 1 ≤ l.val ∧ l.val ≤ L then (((t.getD b1 []).getD (col l) 0 : Nat) : Int) else Vl l := by
  unfold ambeVoicing
  rw [Int.toNat_natCast]
  refine (loopFT_inv (fun i (V : Arr 57 Int) => ∀ l : Fin 57, V l =
      if silence = false ∧ 1 ≤ l.val ∧ l.val < i then (((t.getD b1 []).getD (col l) 0 : Nat) : Int) else Vl l)
    (lo := 1) (hi := L) (by omega) (fun l => by rw [if_neg (by omega)]) ?_).mono fun V h l => ?_
  · intro i h1 h2 V hV
    rw [hc i h1 h2, ok_bind]
    refine Ok.ite (fun hs => Ok.ok fun l => ?_) (fun hs => ?_)
    · rw [hV l, if_neg (by rw [hs]; simp), if_neg (by rw [hs]; simp)]
    · have hs' : silence = false := by simpa using hs
      rw [tab2_ok 0 ht hb (hc' hs' i h1 h2), ok_bind, Arr.wr_nat (by omega)]
      refine Ok.ok fun l => ?_
      by_cases e : l.val = i
      · rw [Arr.set_same e, if_pos ⟨hs', by omega, by omega⟩, e]
      · rw [Arr.set_ne e, hV l]
        by_cases c : silence = false ∧ 1 ≤ l.val ∧ l.val < i
        · rw [if_pos c, if_pos ⟨c.1, c.2.1, by omega⟩]
        · rw [if_neg c, if_neg (fun x => c ⟨x.1, x.2.1, by omega⟩)]
  · rw [h l]
    by_cases c : silence = false ∧ 1 ≤ l.val ∧ l.val ≤ L
    · rw [if_pos c, if_pos ⟨c.1, c.2.1, by omega⟩]
    · rw [if_neg c, if_neg (fun x => c ⟨x.1, x.2.1, by omega⟩)]

end

variable {m : Libm}

theorem ambePredict3_ok {lax : Bool} {p L : Nat} {prev : Parms (IEEE m)} (hp : p ≤ 56) (hL : 1 ≤ L) (hL' : L ≤ 56)
    (hno : NoOver lax p L) {ik : Loc 57 Int} {dl : Loc 57 (IEEE m)} (hk : KlInv p L (L + 1) ik dl)
    (s43 bg unvc : IEEE m) (Tl : Arr 57 (IEEE m)) (cur : Parms (IEEE m)) :
    Ok (ambePredict3 lax (L : Int) prev ik dl s43 bg unvc Tl cur) (SameButAmps cur) := by
  unfold ambePredict3
  rw [Int.toNat_natCast]
  refine (loopFT_inv (fun _ c => SameButAmps cur c) (by omega) (SameButAmps.refl _) ?_)
  intro l h1 h2 c hc
  obtain ⟨k1, k2⟩ := hk l (by omega) h1 (by omega)
  have hr := Kl_range hp hL hL' h2
  obtain ⟨a, ha⟩ := rdLog2_ok (lax := lax) (p := prev) hr.1 (by omega) (.inr (by omega))
  obtain ⟨b, hb⟩ := rdLog2_ok (lax := lax) (p := prev) (i := Kl p L l + 1) (by omega) (by omega) (hno.ok hp hL hL' h2)
  rw [Loc.rd_nat (by omega) k2, ok_bind, Loc.rd_nat (by omega) k1, ok_bind, ha, ok_bind, hb, ok_bind,
    Arr.rd_nat (by omega), ok_bind]
  simp only []
  rw [Arr.wr_nat (by omega), ok_bind, Arr.rd_nat (by omega), ok_bind, Arr.wr_nat (by omega), ok_bind]
  exact Ok.ok (hc.trans rfl)

theorem getD4 {r : List Nat} (h : r.length = 4) : r.getD 0 0 + r.getD 1 0 + r.getD 2 0 + r.getD 3 0 = r.sum := by
  match r, h with
  | [a, b, c, d], _ => simp [List.getD]; omega

/-- The prediction and gain steps at the end of `ambeBody`. -/
def ambeTail {F : Type} [Arith F] (lax : Bool) (L : Int) (unvc : F) (Tl : Arr 57 F) (cur P : Parms F) : Exec (Parms F × Parms F) := do
  let p ← ambePredict1 lax L P
  let s42 ← ambeSum42 L Tl
  let cur ← ambePredict3 lax L P p.1 p.2.1 ((toF (dlit 65 100) /ᶠ ofInt L) *ᶠ p.2.2)
    ((cur.gamma -ᶠ (lit 5 10 *ᶠ log2 (ofInt L))) -ᶠ (s42 /ᶠ ofInt L)) unvc Tl cur
  .ok (cur, P)

/-- What precedes the prediction in `ambeBody`: every step up to `extendPrev` succeeds. -/
theorem ambeBody_pre {F : Type} [Arith F] {lax : Bool} {T : AmbeTabs} {f : AmbeFields} (hT : T.Shape) (hf : f.Ok T) {L p : Nat} (h9 : 9 ≤ L)
    (hL : L ≤ 56) (unvc : F) (cache : DctCache F 9 18) (cur prev : Parms F) (hpL : prev.L = (p : Int))
    (hp : p ≤ 56) : ∃ (g : F) (Tl : Arr 57 F) (P : Parms F), SameButAmps prev P ∧
      ambeBody lax T f (L : Int) unvc cache cur prev = ambeTail lax (L : Int) unvc Tl { cur with gamma := g } P := by
  obtain ⟨r1, r2, r3⟩ := hT.lmr L (by omega) h9
  have hJ : ∀ i, i < 4 → (T.lmprbl.getD L []).getD i 0 ≤ 17 := by
    intro i hi
    have := List.all_eq_true.mp r2 _ (getD_mem (x := 0) (show i < (T.lmprbl.getD L []).length by omega))
    simpa using this
  have hsum := (getD4 r1).trans r3
  unfold ambeBody
  rw [tab_getD (x := 0) hf.b2, ok_bind]
  simp only []
  obtain ⟨Gm, e, hG⟩ := ambeGm_ok (F := F) hT hf
  rw [e, ok_bind]
  obtain ⟨Ri, e, hR⟩ := idctRi_ok cache hG (by decide)
  rw [e, ok_bind]
  obtain ⟨C0, e, hC0⟩ := ambeCik12_ok hR
  rw [e, ok_bind, tabI_getD (x := []) (by rw [hT.lm]; omega), ok_bind, tab_getD (x := 0) (by omega), ok_bind,
    tab_getD (x := 0) (by omega), ok_bind, tab_getD (x := 0) (by omega), ok_bind, tab_getD (x := 0) (by omega), ok_bind]
  have J0 := hJ 0 (by decide)
  have J1 := hJ 1 (by decide)
  have J2 := hJ 2 (by decide)
  have J3 := hJ 3 (by decide)
  let D : Nat → Nat := fun i => (T.lmprbl.getD L []).getD (i - 1) 0
  obtain ⟨C1, e, a1, b1, c1⟩ := ambeHoc_ok (den := T.hoc5Den) (i := 1) (D := D) hT.h5 hf.b5 (by decide) J0 hC0 (fun _ _ _ => by omega)
  rw [e, ok_bind]
  obtain ⟨C2, e, a2, b2, c2⟩ := ambeHoc_ok (den := T.hoc6Den) (i := 2) (D := D) hT.h6 hf.b6 (by decide) J1 a1 (fun i h1 h2 => by
    obtain rfl : i = 1 := by omega
    exact c1 (le_refl _))
  rw [e, ok_bind]
  obtain ⟨C3, e, a3, b3, c3⟩ := ambeHoc_ok (den := T.hoc7Den) (i := 3) (D := D) hT.h7 hf.b7 (by decide) J2 a2 (fun i h1 h2 => by
    by_cases h : i = 2
    · subst h; exact c2 (by decide)
    · exact b2 i h1 (by omega))
  rw [e, ok_bind]
  obtain ⟨C4, e, a4, b4, c4⟩ := ambeHoc_ok (den := T.hoc8Den) (i := 4) (D := D) hT.h8 hf.b8 (by decide) J3 a3 (fun i h1 h2 => by
    by_cases h : i = 3
    · subst h; exact c3 (by decide)
    · exact b3 i h1 (by omega))
  rw [e, ok_bind]
  obtain ⟨s1, e, h1⟩ := idctBlock_ok cache (i := 1) (s := (Arr.const 57 (fi 0), 1)) (l := 1) (b4 1 (by decide) (by decide)) (by decide)
    (show D 1 < 18 by show (T.lmprbl.getD L []).getD 0 0 < 18; omega) (by show (T.lmprbl.getD L []).getD 0 0 < 18; omega) rfl (by show 1 + (T.lmprbl.getD L []).getD 0 0 ≤ 57; omega)
  have e' : idctBlock cache C4 1 ((T.lmprbl.getD L []).getD 0 0) (Arr.const 57 (fi 0), 1) = .ok s1 := e
  rw [e', ok_bind]
  obtain ⟨s2, e, h2⟩ := idctBlock_ok cache (i := 2) (s := s1) (b4 2 (by decide) (by decide)) (by decide)
    (show D 2 < 18 by show (T.lmprbl.getD L []).getD 1 0 < 18; omega) (by show (T.lmprbl.getD L []).getD 1 0 < 18; omega) h1
    (by show 1 + (T.lmprbl.getD L []).getD 0 0 + (T.lmprbl.getD L []).getD 1 0 ≤ 57; omega)
  have e' : idctBlock cache C4 2 ((T.lmprbl.getD L []).getD 1 0) s1 = .ok s2 := e
  rw [e', ok_bind]
  obtain ⟨s3, e, h3⟩ := idctBlock_ok cache (i := 3) (s := s2) (b4 3 (by decide) (by decide)) (by decide)
    (show D 3 < 18 by show (T.lmprbl.getD L []).getD 2 0 < 18; omega) (by show (T.lmprbl.getD L []).getD 2 0 < 18; omega) h2
    (by show 1 + (T.lmprbl.getD L []).getD 0 0 + (T.lmprbl.getD L []).getD 1 0 + (T.lmprbl.getD L []).getD 2 0 ≤ 57; omega)
  have e' : idctBlock cache C4 3 ((T.lmprbl.getD L []).getD 2 0) s2 = .ok s3 := e
  rw [e', ok_bind]
  obtain ⟨s4, e, h4⟩ := idctBlock_ok cache (i := 4) (s := s3) (c4 (by decide)) (by decide)
    (by omega) (by omega) h3
    (by show 1 + (T.lmprbl.getD L []).getD 0 0 + (T.lmprbl.getD L []).getD 1 0 + (T.lmprbl.getD L []).getD 2 0 + _ ≤ 57; omega)
  rw [e, ok_bind]
  obtain ⟨prev', e, hprev⟩ := extendPrev_ok (prev := prev) hL (by omega) (by omega)
  rw [e, ok_bind, Arr.rd_ok (by decide) (by decide), ok_bind, Arr.wr_ok (by decide) (by decide), ok_bind]
  rw [Arr.rd_ok (by decide) (by decide), ok_bind, Arr.wr_ok (by decide) (by decide), ok_bind]
  generalize hP : ({ prev' with log2Ml := _, Ml := _ } : Parms (F)) = P
  have hSame : SameButAmps prev P := by rw [← hP]; exact hprev.trans rfl
  exact ⟨_, s4.1, P, hSame, rfl⟩

theorem ambeBody_split {lax : Bool} {T : AmbeTabs} {f : AmbeFields} (hT : T.Shape) (hf : f.Ok T) {L p : Nat} (h9 : 9 ≤ L)
    (hL : L ≤ 56) (unvc : IEEE m) (cache : DctCache (IEEE m) 9 18) (cur prev : Parms (IEEE m)) (hpL : prev.L = (p : Int))
    (hp : p ≤ 56) :
    (NoOver lax p L → Ok (ambeBody lax T f (L : Int) unvc cache cur prev) fun r =>
      (∃ g, SameButAmps { cur with gamma := g } r.1) ∧ SameButAmps prev r.2) ∧
    (lax = false → Kl p L L = 56 → ambeBody lax T f (L : Int) unvc cache cur prev = .error .oobRead) := by
  obtain ⟨g, Tl, P, hSame, e⟩ := ambeBody_pre (lax := lax) hT hf h9 hL unvc cache cur prev hpL hp
  have hPL : P.L = (p : Int) := by rw [hSame]; exact hpL
  rw [e]
  unfold ambeTail
  refine ⟨fun hno => ?_, fun hl hover => ?_⟩
  · refine Ok.bind (imbePredict1_ok hPL hp (by omega) hL hno) fun q hq => ?_
    obtain ⟨s, e, _⟩ := ambeSum42_ok hL Tl
    rw [e, ok_bind]
    refine Ok.bind (ambePredict3_ok hp (by omega) hL hno hq _ _ _ _ _) fun c hc => Ok.ok ⟨⟨_, hc⟩, hSame⟩
  · subst hl
    unfold ambePredict1
    rw [imbePredict1_over hPL hp (by omega) hL hover]
    rfl

end Verif.Model
