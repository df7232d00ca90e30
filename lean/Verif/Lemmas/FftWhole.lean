import Verif.Lemmas.FftSetup

/-!
# The whole transform as a function
-/

set_option linter.unusedSectionVars false

namespace Verif.Model
open Verif Arith

variable {F : Type} [Arith F]

theorem full_congr {n : Nat} {α : Type} {c d : Int → α} (h : ∀ j : Nat, j < n → c (j : Int) = d (j : Int)) : full n c = full n d :=
  funext fun j => congrArg some (h j.val j.isLt)

/-- The forward reordering. -/
def reoF (c : Int → F) (a : Int) : F := if a = 0 then c 0 else if a = 1 then c 255 else c (a - 1)

/-- The backward reordering. -/
def reoB (c : Int → F) (a : Int) : F := if a = 0 then c 0 else if a = 255 then c 1 else c (a + 1)

def reoAF : List Int := ((List.range 254).flatMap fun t : Nat => [256 - 1 - (t : Int)]) ++ [0] ++ [1]
def reoAB : List Int := ((List.range 254).flatMap fun t : Nat => [(t : Int) + 1]) ++ [0] ++ [255]

theorem reoA_bits : bitSet reoAF 0 = some (2 ^ 256 - 1) ∧ bitSet reoAB 0 = some (2 ^ 256 - 1) := by decide +kernel

theorem zreorderFwd_eq (c : Int → F) (out : Loc 256 F) : zreorderFwd 256 (full 256 c) out = .ok (full 256 (reoF c)) := by
  unfold zreorderFwd
  rw [rd_full (by omega) (by omega), ok_bind]
  have hn : ((256 : Int) - 2).toNat = 254 := rfl
  rw [hn, loop_stores (fun t : Nat => [(256 - 1 - (t : Int), c (256 - 1 - (t : Int) - 1))]) (by
    intro t ht s
    dsimp only
    rw [rd_full (by omega) (by omega), ok_bind, wr_stores (by omega) (by omega)]), ok_bind, rd_full (by omega) (by omega), ok_bind,
    wr_stores (by omega) (by omega), ok_bind, wr_stores (by omega) (by omega), stores_stores, stores_stores]
  have hA : ((List.range 254).flatMap (fun t : Nat => [(256 - 1 - (t : Int), c (256 - 1 - (t : Int) - 1))]) ++ ([(0, c 0)] ++ [(1, c (256 - 1))])).map Prod.fst = reoAF := by
    simp only [reoAF, List.map_append, List.map_flatMap, List.map_cons, List.map_nil, List.append_assoc]
  obtain ⟨h1, h2, h3⟩ := bits_ok reoA_bits.1
  congr 1
  funext j
  have key : ((j.val : Int), reoF c (j.val : Int)) ∈ ((List.range 254).flatMap (fun t : Nat => [(256 - 1 - (t : Int), c (256 - 1 - (t : Int) - 1))]) ++ ([(0, c 0)] ++ [(1, c (256 - 1))])) := by
    have hj := j.isLt
    rw [List.mem_append]
    by_cases e0 : (j.val : Int) = 0
    · right; rw [reoF, if_pos e0, e0]; simp
    by_cases e1 : (j.val : Int) = 1
    · right; rw [reoF, if_neg e0, if_pos e1, e1]; simp
    left
    rw [reoF, if_neg e0, if_neg e1, List.mem_flatMap]
    refine ⟨255 - j.val, List.mem_range.2 (by omega), List.mem_singleton.2 ?_⟩
    have : (256 - 1 - ((255 - j.val : Nat) : Int)) = (j.val : Int) := by omega
    rw [this]
  exact stores_mem out (by rw [hA]; exact h1) (by rw [hA]; exact fun a ha => (h2 a ha).1) key j rfl

theorem zreorderBwd_eq (c : Int → F) (out : Loc 256 F) : zreorderBwd 256 (full 256 c) out = .ok (full 256 (reoB c)) := by
  unfold zreorderBwd
  rw [rd_full (by omega) (by omega), ok_bind]
  have hn : ((256 : Int) - 2).toNat = 254 := rfl
  rw [hn, loop_stores (fun t : Nat => [((t : Int) + 1, c ((t : Int) + 1 + 1))]) (by
    intro t ht s
    dsimp only
    rw [rd_full (by omega) (by omega), ok_bind, wr_stores (by omega) (by omega)]), ok_bind, rd_full (by omega) (by omega), ok_bind,
    wr_stores (by omega) (by omega), ok_bind, wr_stores (by omega) (by omega), stores_stores, stores_stores]
  have hA : ((List.range 254).flatMap (fun t : Nat => [((t : Int) + 1, c ((t : Int) + 1 + 1))]) ++ ([(0, c 0)] ++ [(256 - 1, c 1)])).map Prod.fst = reoAB := by
    simp only [reoAB, List.map_append, List.map_flatMap, List.map_cons, List.map_nil, List.append_assoc]
    rw [show (256 : Int) - 1 = 255 from rfl]
  obtain ⟨h1, h2, h3⟩ := bits_ok reoA_bits.2
  congr 1
  funext j
  have key : ((j.val : Int), reoB c (j.val : Int)) ∈ ((List.range 254).flatMap (fun t : Nat => [((t : Int) + 1, c ((t : Int) + 1 + 1))]) ++ ([(0, c 0)] ++ [(256 - 1, c 1)])) := by
    have hj := j.isLt
    rw [List.mem_append]
    by_cases e0 : (j.val : Int) = 0
    · right; rw [reoB, if_pos e0, e0]; simp
    by_cases e1 : (j.val : Int) = 255
    · right; rw [reoB, if_neg e0, if_pos e1, e1]; simp
    left
    rw [reoB, if_neg e0, if_neg e1, List.mem_flatMap]
    refine ⟨j.val - 1, List.mem_range.2 (by omega), List.mem_singleton.2 ?_⟩
    have : (((j.val - 1 : Nat) : Int) + 1) = (j.val : Int) := by omega
    rw [this]
  exact stores_mem out (by rw [hA]; exact h1) (by rw [hA]; exact fun a ha => (h2 a ha).1) key j rfl

/-- The four forward passes. -/
def passesF (c : Int → F) : Int → F :=
  stepF 64 1 tw256 0 64 128 (stepF 16 4 tw256 192 208 224 (stepF 4 16 tw256 240 244 248 (stepF 1 64 tw256 252 253 254 c)))

/-- The four backward passes. -/
def passesB (c : Int → F) : Int → F :=
  stepB 1 64 tw256 252 253 254 (stepB 4 16 tw256 240 244 248 (stepB 16 4 tw256 192 208 224 (stepB 64 1 tw256 0 64 128 c)))

theorem put_same (μ : Mem F) (b : Buf) (v : Loc 256 F) : μ.put b v b = v := if_pos rfl
theorem put_ne (μ : Mem F) {b c : Buf} (v : Loc 256 F) (h : c ≠ b) : μ.put b v c = μ c := if_neg h

theorem fstep_eq {ido l1 : Nat} (hp : (ido, l1) ∈ passes) {t : Nat} (ht : t < 4) (s : PassSt F) (c : Int → F)
    (hc : s.μ s.inp = full 256 c) (hl : Int.tdiv s.l 4 = (l1 : Int)) (hi : Int.tdiv 256 s.l = (ido : Int)) {iw : Int}
    (hw : s.iw - 3 * (ido : Int) = iw)
    (hr : ((ido : Int) = 64 ∧ iw = 0) ∨ ((ido : Int) = 16 ∧ iw = 192) ∨ ((ido : Int) = 4 ∧ iw = 240) ∨ ((ido : Int) = 1 ∧ iw = 252)) :
    rfftf1Step 256 .scratch .output (setup256 : Setup F).twiddle ifac256 4 t s =
      .ok { μ := s.μ.put s.out (full 256 (stepF ido l1 tw256 iw (iw + ido) (iw + ido + ido) c)),
            inp := if s.out = .output then .output else .scratch, out := if s.out = .output then .scratch else .output,
            l := l1, iw := iw } := by
  unfold rfftf1Step
  have hk : (4 : Int) - ((t : Int) + 1) + 2 = 2 ∨ (4 : Int) - ((t : Int) + 1) + 2 = 3 ∨ (4 : Int) - ((t : Int) + 1) + 2 = 4 ∨ (4 : Int) - ((t : Int) + 1) + 2 = 5 := by omega
  dsimp only
  rw [rd_ifac hk, ok_bind]
  have h3 : (4 : Int) - 1 = 3 := rfl
  rw [if_pos rfl, hc, hl, hi, h3, hw, radf4_eq hp c tw256 _ _ (tw_rows hr), ok_bind, ok_bind]
  by_cases ho : s.out = .output
  · simp only [ho, if_true]
  · simp only [ho, if_false]

theorem bstep_eq {ido l1 : Nat} (hp : (ido, l1) ∈ passes) {t : Nat} (ht : t < 4) (s : PassSt F) (c : Int → F)
    (hc : s.μ s.inp = full 256 c) (hl : s.l = (l1 : Int)) (hi : Int.tdiv 256 (4 * (l1 : Int)) = (ido : Int))
    (hr : ((ido : Int) = 64 ∧ s.iw = 0) ∨ ((ido : Int) = 16 ∧ s.iw = 192) ∨ ((ido : Int) = 4 ∧ s.iw = 240) ∨ ((ido : Int) = 1 ∧ s.iw = 252)) :
    rfftb1Step 256 .scratch .output (setup256 : Setup F).twiddle ifac256 t s =
      .ok { μ := s.μ.put s.out (full 256 (stepB ido l1 tw256 s.iw (s.iw + ido) (s.iw + ido + ido) c)),
            inp := if s.out = .output then .output else .scratch, out := if s.out = .output then .scratch else .output,
            l := 4 * l1, iw := s.iw + 3 * ido } := by
  unfold rfftb1Step
  rw [rd_ifac (by omega), ok_bind]
  dsimp only
  have h3 : (4 : Int) - 1 = 3 := rfl
  rw [if_pos rfl, hc, hl, hi, h3, radb4_eq hp c tw256 _ _ (tw_rows hr), ok_bind, ok_bind]
  by_cases ho : s.out = .output
  · simp only [ho, if_true]
  · simp only [ho, if_false]

theorem fstep_put {ido l1 : Nat} (hp : (ido, l1) ∈ passes) {t : Nat} (ht : t < 4) {ν : Mem F} {b o : Buf} {l iw' : Int} {c : Int → F}
    (hl : Int.tdiv l 4 = (l1 : Int)) (hi : Int.tdiv 256 l = (ido : Int)) {iw : Int} (hw : iw' - 3 * (ido : Int) = iw)
    (hr : ((ido : Int) = 64 ∧ iw = 0) ∨ ((ido : Int) = 16 ∧ iw = 192) ∨ ((ido : Int) = 4 ∧ iw = 240) ∨ ((ido : Int) = 1 ∧ iw = 252)) :
    rfftf1Step 256 .scratch .output (setup256 : Setup F).twiddle ifac256 4 t ⟨ν.put b (full 256 c), b, o, l, iw'⟩ =
      .ok { μ := (ν.put b (full 256 c)).put o (full 256 (stepF ido l1 tw256 iw (iw + ido) (iw + ido + ido) c)),
            inp := if o = .output then .output else .scratch, out := if o = .output then .scratch else .output,
            l := l1, iw := iw } :=
  fstep_eq hp ht ⟨ν.put b (full 256 c), b, o, l, iw'⟩ c (put_same _ _ _) hl hi hw hr

theorem bstep_put {ido l1 : Nat} (hp : (ido, l1) ∈ passes) {t : Nat} (ht : t < 4) {ν : Mem F} {b o : Buf} {l iw : Int} {c : Int → F}
    (hl : l = (l1 : Int)) (hi : Int.tdiv 256 (4 * (l1 : Int)) = (ido : Int))
    (hr : ((ido : Int) = 64 ∧ iw = 0) ∨ ((ido : Int) = 16 ∧ iw = 192) ∨ ((ido : Int) = 4 ∧ iw = 240) ∨ ((ido : Int) = 1 ∧ iw = 252)) :
    rfftb1Step 256 .scratch .output (setup256 : Setup F).twiddle ifac256 t ⟨ν.put b (full 256 c), b, o, l, iw⟩ =
      .ok { μ := (ν.put b (full 256 c)).put o (full 256 (stepB ido l1 tw256 iw (iw + ido) (iw + ido + ido) c)),
            inp := if o = .output then .output else .scratch, out := if o = .output then .scratch else .output,
            l := 4 * l1, iw := iw + 3 * ido } :=
  bstep_eq hp ht ⟨ν.put b (full 256 c), b, o, l, iw⟩ c (put_same _ _ _) hl hi hr

theorem rfftf1_eq (c : Int → F) (μ : Mem F) (h : μ .input = full 256 c) :
    Ok (rfftf1 256 .input .scratch .output (setup256 : Setup F).twiddle ifac256 μ) fun r =>
      r.2 = .scratch ∧ r.1 .scratch = full 256 (passesF c) ∧ r.1 .input = μ .input := by
  unfold rfftf1
  have has : assertC (decide (Buf.input ≠ Buf.output) && decide (Buf.scratch ≠ Buf.output)) = .ok () := rfl
  have h4 : (4 : Int).toNat = 4 := rfl
  have so : ¬ Buf.scratch = Buf.output := by decide
  dsimp only
  rw [if_neg (by decide : ¬ Buf.input = Buf.output), rd_ifac1, ok_bind, has, ok_bind, h4, loop_succ, loop_succ, loop_succ, loop_succ, loop_zero,
    ok_bind, fstep_eq (ido := 1) (l1 := 64) (by decide) (by decide) _ c h rfl rfl (iw := 252) rfl (by omega), ok_bind]
  dsimp only
  rw [if_pos rfl, if_pos rfl, fstep_put (ido := 4) (l1 := 16) (by decide) (by decide) rfl rfl (iw := 240) rfl (by omega), ok_bind]
  rw [if_neg so, if_neg so, fstep_put (ido := 16) (l1 := 4) (by decide) (by decide) rfl rfl (iw := 192) rfl (by omega), ok_bind]
  rw [if_pos rfl, if_pos rfl, fstep_put (ido := 64) (l1 := 1) (by decide) (by decide) rfl rfl (iw := 0) rfl (by omega), ok_bind]
  rw [if_neg so]
  refine Ok.ok ⟨rfl, ?_, ?_⟩
  · dsimp only
    rw [put_same]
    rfl
  · dsimp only
    rw [put_ne _ _ (by decide), put_ne _ _ (by decide), put_ne _ _ (by decide), put_ne _ _ (by decide)]

theorem rfftb1_eq (c : Int → F) (μ : Mem F) (h : μ .output = full 256 c) :
    Ok (rfftb1 256 .output .scratch .output (setup256 : Setup F).twiddle ifac256 μ) fun r =>
      r.2 = .output ∧ r.1 .output = full 256 (passesB c) ∧ r.1 .input = μ .input := by
  unfold rfftb1
  have has : assertC (decide (Buf.output ≠ Buf.scratch)) = .ok () := rfl
  have h4 : (4 : Int).toNat = 4 := rfl
  have so : ¬ Buf.scratch = Buf.output := by decide
  dsimp only
  rw [if_pos rfl, rd_ifac1, ok_bind, has, ok_bind, h4, loop_succ, loop_succ, loop_succ, loop_succ, loop_zero,
    ok_bind, bstep_eq (ido := 64) (l1 := 1) (by decide) (by decide) _ c h rfl rfl (by dsimp only; omega), ok_bind]
  dsimp only
  rw [if_neg so, if_neg so, bstep_put (ido := 16) (l1 := 4) (by decide) (by decide) (by rfl) (by rfl) (by omega), ok_bind]
  rw [if_pos rfl, if_pos rfl, bstep_put (ido := 4) (l1 := 16) (by decide) (by decide) (by rfl) (by rfl) (by omega), ok_bind]
  rw [if_neg so, if_neg so, bstep_put (ido := 1) (l1 := 64) (by decide) (by decide) (by rfl) (by rfl) (by omega), ok_bind]
  rw [if_pos rfl]
  refine Ok.ok ⟨rfl, ?_, ?_⟩
  · dsimp only
    rw [put_same]
    rfl
  · dsimp only
    rw [put_ne _ _ (by decide), put_ne _ _ (by decide), put_ne _ _ (by decide), put_ne _ _ (by decide)]

theorem finish_eq (n : Int) (inp : Buf) (μ : Mem F) : finishTransform n inp false μ = .ok μ := rfl

theorem transformFwd_eq (c : Int → F) (μ : Mem F) (h : μ .input = full 256 c) :
    Ok (transformFwd setup256 μ) fun r => r .output = full 256 (reoF (passesF c)) ∧ r .input = μ .input := by
  unfold transformFwd
  have e1 : (setup256 : Setup F).ifac = ifac256 := rfl
  have e2 : (setup256 : Setup F).Ncvec * 2 = 256 := rfl
  have e3 : (setup256 : Setup F).N = 256 := rfl
  rw [e1, rd_ifac1, ok_bind, e2, e3]
  dsimp only
  rw [if_neg (by decide : ¬ (4 : Int) % 2 = 1)]
  have b1 : buff true = .scratch := rfl
  have b2 : buff (!true) = .output := rfl
  have b3 : buff false = .output := rfl
  rw [b1, b2, b3]
  refine Ok.bind (rfftf1_eq c μ h) ?_
  rintro ⟨ν, b⟩ ⟨hb, h1, h2⟩
  dsimp only at hb h1 h2
  subst hb
  dsimp only
  rw [if_neg (by decide : ¬ Buf.scratch = Buf.output), b1, b2, h1, zreorderFwd_eq, ok_bind]
  have b4 : (!true) = false := rfl
  rw [b4, finish_eq]
  refine Ok.ok ⟨put_same _ _ _, ?_⟩
  rw [put_ne _ _ (by decide), h2]

theorem transformBwd_eq (c : Int → F) (μ : Mem F) (h : μ .input = full 256 c) :
    Ok (transformBwd setup256 μ) fun r => r .output = full 256 (passesB (reoB c)) ∧ r .input = μ .input := by
  unfold transformBwd
  have e1 : (setup256 : Setup F).ifac = ifac256 := rfl
  have e2 : (setup256 : Setup F).Ncvec * 2 = 256 := rfl
  have e3 : (setup256 : Setup F).N = 256 := rfl
  rw [e1, rd_ifac1, ok_bind, e2, e3]
  dsimp only
  rw [if_neg (by decide : ¬ (4 : Int) % 2 = 1)]
  have b1 : buff true = .scratch := rfl
  have b2 : buff (!true) = .output := rfl
  have b3 : buff false = .output := rfl
  rw [b1, b2, b3, h, zreorderBwd_eq, ok_bind]
  refine Ok.bind (rfftb1_eq (reoB c) _ (put_same _ _ _)) ?_
  rintro ⟨ν, b⟩ ⟨hb, h1, h2⟩
  dsimp only at hb h1 h2
  subst hb
  dsimp only
  rw [if_pos rfl, finish_eq]
  refine Ok.ok ⟨h1, ?_⟩
  rw [h2, put_ne _ _ (by decide)]
  exact h

end Verif.Model
