import Verif.Lemmas.FftWhole
import Verif.Lemmas.VecSetup

/-!
# The passes of the vector build as functions
-/

set_option linter.unusedSectionVars false

namespace Verif.Model.Vec
open Verif Verif.Model Arith

variable {F : Type} [Arith F]

/-- The three forward passes. -/
def passesF (w : Int → F) (c : Int → F) : Int → F :=
  stepF 16 1 w 0 16 32 (stepF 4 4 w 48 52 56 (stepF 1 16 w 60 61 62 c))

/-- The three backward passes. -/
def passesB (w : Int → F) (c : Int → F) : Int → F :=
  stepB 1 16 w 60 61 62 (stepB 4 4 w 48 52 56 (stepB 16 1 w 0 16 32 c))

theorem put_same {sz : Nat} (μ : Mem F sz) (b : Buf) (v : Loc sz F) : μ.put b v b = v := if_pos rfl
theorem put_ne {sz : Nat} (μ : Mem F sz) {b c : Buf} (v : Loc sz F) (h : c ≠ b) : μ.put b v c = μ c := if_neg h

/-- The twiddle factors of the setup, as vectors. -/
abbrev twL : Loc 64 (Vec4 F) := bcast (setupV : SetupV F).twiddle

theorem fstep_eq {ido l1 : Nat} (hp : (ido, l1) ∈ passes) {t : Nat} (ht : t < 3) (a b : Buf) (s : PassSt (Vec4 F) 64) (c : Int → Vec4 F)
    (hc : s.μ s.inp = full 64 c) (hl : Int.tdiv s.l 4 = (l1 : Int)) (hi : Int.tdiv 64 s.l = (ido : Int)) {iw : Int}
    (hw : s.iw - 3 * (ido : Int) = iw)
    (hr : ((ido : Int) = 16 ∧ iw = 0) ∨ ((ido : Int) = 4 ∧ iw = 48) ∨ ((ido : Int) = 1 ∧ iw = 60)) :
    rfftf1Step 64 a b (twL : Loc 64 (Vec4 F)) ifac64 3 t s =
      .ok { μ := s.μ.put s.out (full 64 (stepF ido l1 twV iw (iw + ido) (iw + ido + ido) c)),
            inp := if s.out = b then b else a, out := if s.out = b then a else b,
            l := l1, iw := iw } := by
  unfold rfftf1Step
  have hk : (3 : Int) - ((t : Int) + 1) + 2 = 2 ∨ (3 : Int) - ((t : Int) + 1) + 2 = 3 ∨ (3 : Int) - ((t : Int) + 1) + 2 = 4 := by omega
  dsimp only
  rw [rd_ifac hk, ok_bind]
  have h3 : (4 : Int) - 1 = 3 := rfl
  rw [if_pos rfl, hc, hl, hi, h3, hw, radf4_eq hp c twV _ _ (tw_rows hr), ok_bind, ok_bind]
  by_cases ho : s.out = b
  · simp only [ho, if_true]
  · simp only [ho, if_false]

theorem bstep_eq {ido l1 : Nat} (hp : (ido, l1) ∈ passes) {t : Nat} (ht : t < 3) (a b : Buf) (s : PassSt (Vec4 F) 64) (c : Int → Vec4 F)
    (hc : s.μ s.inp = full 64 c) (hl : s.l = (l1 : Int)) (hi : Int.tdiv 64 (4 * (l1 : Int)) = (ido : Int))
    (hr : ((ido : Int) = 16 ∧ s.iw = 0) ∨ ((ido : Int) = 4 ∧ s.iw = 48) ∨ ((ido : Int) = 1 ∧ s.iw = 60)) :
    rfftb1Step 64 a b (twL : Loc 64 (Vec4 F)) ifac64 t s =
      .ok { μ := s.μ.put s.out (full 64 (stepB ido l1 twV s.iw (s.iw + ido) (s.iw + ido + ido) c)),
            inp := if s.out = b then b else a, out := if s.out = b then a else b,
            l := 4 * l1, iw := s.iw + 3 * ido } := by
  unfold rfftb1Step
  rw [rd_ifac (by omega), ok_bind]
  dsimp only
  have h3 : (4 : Int) - 1 = 3 := rfl
  rw [if_pos rfl, hc, hl, hi, h3, radb4_eq hp c twV _ _ (tw_rows hr), ok_bind, ok_bind]
  by_cases ho : s.out = b
  · simp only [ho, if_true]
  · simp only [ho, if_false]

theorem fstep_put {ido l1 : Nat} (hp : (ido, l1) ∈ passes) {t : Nat} (ht : t < 3) {a b' : Buf} {ν : Mem (Vec4 F) 64} {b o : Buf} {l iw' : Int} {c : Int → Vec4 F}
    (hl : Int.tdiv l 4 = (l1 : Int)) (hi : Int.tdiv 64 l = (ido : Int)) {iw : Int} (hw : iw' - 3 * (ido : Int) = iw)
    (hr : ((ido : Int) = 16 ∧ iw = 0) ∨ ((ido : Int) = 4 ∧ iw = 48) ∨ ((ido : Int) = 1 ∧ iw = 60)) :
    rfftf1Step 64 a b' (twL : Loc 64 (Vec4 F)) ifac64 3 t ⟨ν.put b (full 64 c), b, o, l, iw'⟩ =
      .ok { μ := (ν.put b (full 64 c)).put o (full 64 (stepF ido l1 twV iw (iw + ido) (iw + ido + ido) c)),
            inp := if o = b' then b' else a, out := if o = b' then a else b',
            l := l1, iw := iw } :=
  fstep_eq hp ht a b' ⟨ν.put b (full 64 c), b, o, l, iw'⟩ c (put_same _ _ _) hl hi hw hr

theorem bstep_put {ido l1 : Nat} (hp : (ido, l1) ∈ passes) {t : Nat} (ht : t < 3) {a b' : Buf} {ν : Mem (Vec4 F) 64} {b o : Buf} {l iw : Int} {c : Int → Vec4 F}
    (hl : l = (l1 : Int)) (hi : Int.tdiv 64 (4 * (l1 : Int)) = (ido : Int))
    (hr : ((ido : Int) = 16 ∧ iw = 0) ∨ ((ido : Int) = 4 ∧ iw = 48) ∨ ((ido : Int) = 1 ∧ iw = 60)) :
    rfftb1Step 64 a b' (twL : Loc 64 (Vec4 F)) ifac64 t ⟨ν.put b (full 64 c), b, o, l, iw⟩ =
      .ok { μ := (ν.put b (full 64 c)).put o (full 64 (stepB ido l1 twV iw (iw + ido) (iw + ido + ido) c)),
            inp := if o = b' then b' else a, out := if o = b' then a else b',
            l := 4 * l1, iw := iw + 3 * ido } :=
  bstep_eq hp ht a b' ⟨ν.put b (full 64 c), b, o, l, iw⟩ c (put_same _ _ _) hl hi hr

theorem rfftf1_eq (c : Int → Vec4 F) (μ : Mem (Vec4 F) 64) (h : μ .input = full 64 c) :
    Ok (rfftf1 64 .input .scratch .output (twL : Loc 64 (Vec4 F)) ifac64 μ) fun r =>
      r.2 = .output ∧ r.1 .output = full 64 (passesF twV c) ∧ r.1 .input = μ .input := by
  unfold rfftf1
  have has : assertC (decide (Buf.input ≠ Buf.output) && decide (Buf.scratch ≠ Buf.output)) = .ok () := rfl
  have h4 : (3 : Int).toNat = 3 := rfl
  have so : ¬ Buf.scratch = Buf.output := by decide
  dsimp only
  rw [if_neg (by decide : ¬ Buf.input = Buf.output), rd_ifac1, ok_bind, has, ok_bind, h4, loop_succ, loop_succ, loop_succ, loop_zero,
    ok_bind, fstep_eq (ido := 1) (l1 := 16) (by decide) (by decide) _ _ _ c h rfl rfl (iw := 60) rfl (by omega), ok_bind]
  dsimp only
  rw [if_pos rfl, if_pos rfl, fstep_put (ido := 4) (l1 := 4) (by decide) (by decide) rfl rfl (iw := 48) rfl (by omega), ok_bind]
  rw [if_neg so, if_neg so, fstep_put (ido := 16) (l1 := 1) (by decide) (by decide) rfl rfl (iw := 0) rfl (by omega), ok_bind]
  rw [if_pos rfl]
  refine Ok.ok ⟨rfl, ?_, ?_⟩
  · dsimp only
    rw [put_same]
    rfl
  · dsimp only
    rw [put_ne _ _ (by decide), put_ne _ _ (by decide), put_ne _ _ (by decide)]

theorem rfftb1_eq (c : Int → Vec4 F) (μ : Mem (Vec4 F) 64) (h : μ .scratch = full 64 c) :
    Ok (rfftb1 64 .scratch .output .scratch (twL : Loc 64 (Vec4 F)) ifac64 μ) fun r =>
      r.2 = .output ∧ r.1 .output = full 64 (passesB twV c) ∧ r.1 .input = μ .input := by
  unfold rfftb1
  have has : assertC (decide (Buf.scratch ≠ Buf.output)) = .ok () := rfl
  have h4 : (3 : Int).toNat = 3 := rfl
  have so : ¬ Buf.output = Buf.scratch := by decide
  dsimp only
  rw [if_pos rfl, rd_ifac1, ok_bind, has, ok_bind, h4, loop_succ, loop_succ, loop_succ, loop_zero,
    ok_bind, bstep_eq (ido := 16) (l1 := 1) (by decide) (by decide) _ _ _ c h rfl rfl (by dsimp only; omega), ok_bind]
  dsimp only
  rw [if_neg so, if_neg so, bstep_put (ido := 4) (l1 := 4) (by decide) (by decide) (by rfl) (by rfl) (by omega), ok_bind]
  rw [if_pos rfl, if_pos rfl, bstep_put (ido := 1) (l1 := 16) (by decide) (by decide) (by rfl) (by rfl) (by omega), ok_bind]
  rw [if_neg so]
  refine Ok.ok ⟨rfl, ?_, ?_⟩
  · dsimp only
    rw [put_same]
    rfl
  · dsimp only
    rw [put_ne _ _ (by decide), put_ne _ _ (by decide), put_ne _ _ (by decide)]

/-! ## Lanes -/

theorem valAt_map {α β : Type} (d : α) (g : α → β) (W : List (Int × α)) (a : Int) :
    g (valAt d W a) = valAt (g d) (W.map fun p => (p.1, g p.2)) a := by
  induction W with
  | nil => rfl
  | cons p r ih =>
    unfold valAt at ih ⊢
    rw [List.map_cons, List.find?_cons, List.find?_cons]
    cases h : p.1 == a
    · simp only []
      exact ih
    · rfl

theorem passF_lane (ido l1 : Nat) (c : Int → Vec4 F) (w : Int → F) (w1 w2 w3 : Int) (j : Fin 4) :
    (passF ido l1 c (fun a _ => w a) w1 w2 w3).map (fun p => (p.1, p.2 j)) = passF ido l1 (fun a => c a j) w w1 w2 w3 := by
  unfold passF
  by_cases h : ido = 1
  · simp only [h, if_true, List.append_nil, List.map_flatMap, endsF, List.map_cons, List.map_nil]
    rfl
  · simp only [h, if_false, List.map_append, List.map_flatMap, endsF, midF, halfF, List.map_cons, List.map_nil]
    rfl

theorem passB_lane (ido l1 : Nat) (c : Int → Vec4 F) (w : Int → F) (w1 w2 w3 : Int) (j : Fin 4) :
    (passB ido l1 c (fun a _ => w a) w1 w2 w3).map (fun p => (p.1, p.2 j)) = passB ido l1 (fun a => c a j) w w1 w2 w3 := by
  unfold passB
  by_cases h : ido = 1
  · simp only [h, if_true, List.append_nil, List.map_flatMap, endsB, List.map_cons, List.map_nil]
    rfl
  · simp only [h, if_false, List.map_append, List.map_flatMap, endsB, midB, halfB, List.map_cons, List.map_nil]
    rfl

theorem stepF_lane (ido l1 : Nat) (c : Int → Vec4 F) (w : Int → F) (w1 w2 w3 : Int) (j : Fin 4) :
    (fun a => stepF ido l1 (fun a _ => w a) w1 w2 w3 c a j) = stepF ido l1 w w1 w2 w3 (fun a => c a j) := by
  funext a
  have e := valAt_map (fi 0) (fun v : Vec4 F => v j) (passF ido l1 c (fun a _ => w a) w1 w2 w3) a
  rw [passF_lane] at e
  exact e

theorem stepB_lane (ido l1 : Nat) (c : Int → Vec4 F) (w : Int → F) (w1 w2 w3 : Int) (j : Fin 4) :
    (fun a => stepB ido l1 (fun a _ => w a) w1 w2 w3 c a j) = stepB ido l1 w w1 w2 w3 (fun a => c a j) := by
  funext a
  have e := valAt_map (fi 0) (fun v : Vec4 F => v j) (passB ido l1 c (fun a _ => w a) w1 w2 w3) a
  rw [passB_lane] at e
  exact e

theorem passesF_lane (c : Int → Vec4 F) (j : Fin 4) : (fun a => passesF twV c a j) = passesF tw64 fun a => c a j := by
  unfold passesF
  have e : (twV : Int → Vec4 F) = fun a _ => tw64 a := rfl
  rw [e, stepF_lane, stepF_lane, stepF_lane]

theorem passesB_lane (c : Int → Vec4 F) (j : Fin 4) : (fun a => passesB twV c a j) = passesB tw64 fun a => c a j := by
  unfold passesB
  have e : (twV : Int → Vec4 F) = fun a _ => tw64 a := rfl
  rw [e, stepB_lane, stepB_lane, stepB_lane]

end Verif.Model.Vec
