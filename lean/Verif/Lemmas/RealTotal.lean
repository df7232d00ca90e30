import Verif.Lemmas.PredictStep
import Verif.Lemmas.ImbeDecode

/-!
# The parameter decoders succeed in exact arithmetic

With the one access outside `log2Ml` given its value (`lax`). This makes the statements about decoded values in exact
arithmetic non-vacuous.
-/

set_option linter.unusedSectionVars false

namespace Verif.Model
open Verif Verif.Gen Verif.Spec Arith

theorem floor_nat_div (a b : Nat) : ⌊(a : ℝ) / (b : ℝ)⌋ = ((a / b : Nat) : Int) := by
  rw [Int.floor_div_natCast, Int.floor_natCast]
  rfl

theorem toI32_r_ok {x : ℝ} (h0 : 0 ≤ x) (h1 : x < 2147483648) : toI32 x = .ok ⌊x⌋ := by
  unfold toI32
  rw [RealArith.trunc_nonneg h0]
  dsimp only
  have a : 0 ≤ ⌊x⌋ := Int.floor_nonneg.mpr h0
  have b : ⌊x⌋ < 2147483648 := by rw [Int.floor_lt]; exact_mod_cast h1
  rw [if_pos (by omega)]

theorem posR_range {p L : Int} {l : Nat} (hp : 0 ≤ p) (hL : 1 ≤ L) (hl : (l : Int) ≤ L) :
    0 ≤ posR p L l ∧ posR p L l ≤ p := by
  unfold posR
  have h1 : (0 : ℝ) ≤ p := by exact_mod_cast hp
  have h2 : (0 : ℝ) < L := by exact_mod_cast (show 0 < L by omega)
  have h3 : (l : ℝ) ≤ L := by exact_mod_cast hl
  refine ⟨by positivity, ?_⟩
  rw [div_mul_eq_mul_div, div_le_iff₀ h2]
  exact mul_le_mul_of_nonneg_left h3 h1

theorem posI_range {p L : Int} {l : Nat} (hp : 0 ≤ p) (hL : 1 ≤ L) (hl : (l : Int) ≤ L) :
    0 ≤ posI p L l ∧ posI p L l ≤ p ∧ (posI p L l : ℝ) ≤ posR p L l ∧ posR p L l < posI p L l + 1 := by
  obtain ⟨h1, h2⟩ := posR_range hp hL hl
  unfold posI
  rw [if_pos h1]
  refine ⟨Int.floor_nonneg.mpr h1, ?_, Int.floor_le _, Int.lt_floor_add_one _⟩
  have : (⌊posR p L l⌋ : ℝ) ≤ p := (Int.floor_le _).trans h2
  exact_mod_cast this

theorem toI32_flokl_r {p L : Int} {l : Nat} (hp : 0 ≤ p) (hp' : p ≤ 56) (hL : 1 ≤ L) (hl : (l : Int) ≤ L) :
    toI32 (flokl p L l : ℝ) = .ok (posI p L l) := by
  obtain ⟨h1, h2⟩ := posR_range hp hL hl
  have h3 : (p : ℝ) ≤ 56 := by exact_mod_cast hp'
  rw [flokl_r, toI32_r_ok h1 (by linarith)]
  unfold posI
  rw [if_pos h1]

/-- `intkl` and `deltal` are set and the subscripts are in range. -/
def KlIn (p i : Nat) (ik : Loc 57 Int) (dl : Loc 57 ℝ) : Prop :=
  ∀ l (h : l < 57), 1 ≤ l → l < i → (∃ k, ik ⟨l, h⟩ = some k ∧ 0 ≤ k ∧ k ≤ p) ∧ ∃ x, dl ⟨l, h⟩ = some x

theorem predict1_ok_r {p L : Nat} {prev : Parms ℝ} (hpL : prev.L = (p : Int)) (hp : p ≤ 56) (hL : 1 ≤ L) (hL' : L ≤ 56) :
    Ok (imbePredict1 true (L : Int) prev) fun s => KlIn p (L + 1) s.1 s.2.1 := by
  unfold imbePredict1
  rw [Int.toNat_natCast]
  refine loopFT_inv (fun i (s : Loc 57 Int × Loc 57 ℝ × ℝ) => KlIn p i s.1 s.2.1) (by omega) (fun _ _ _ _ => by omega) ?_
  intro l h1 h2 s hs
  simp only [hpL]
  rw [toI32_flokl_r (by omega) (by omega) (by omega) (by omega), ok_bind]
  obtain ⟨r1, r2, _⟩ := posI_range (p := (p : Int)) (L := (L : Int)) (l := l) (by omega) (by omega) (by omega)
  rw [Loc.wr_nat (by omega), ok_bind, Loc.wr_nat (by omega), ok_bind]
  obtain ⟨a, ha⟩ := rdLog2_ok (lax := true) (p := prev) r1 (by omega) (.inl rfl)
  obtain ⟨b, hb⟩ := rdLog2_ok (lax := true) (p := prev) (i := posI p L l + 1) (by omega) (by omega) (.inl rfl)
  rw [ha, ok_bind, hb, ok_bind]
  refine Ok.ok fun l' hl' c1 c2 => ?_
  by_cases e : l' = l
  · subst e; exact ⟨⟨_, Arr.set_same rfl, r1, r2⟩, _, Arr.set_same rfl⟩
  · obtain ⟨⟨k, e1, e2⟩, x, e3⟩ := hs l' hl' c1 (by omega)
    exact ⟨⟨k, by rw [← e1]; exact Arr.set_ne e, e2⟩, x, by rw [← e3]; exact Arr.set_ne e⟩

theorem predict2_ok_r {p L : Nat} {prev : Parms ℝ} (hp : p ≤ 56) (hL' : L ≤ 56)
    {ik : Loc 57 Int} {dl : Loc 57 ℝ} (hk : KlIn p (L + 1) ik dl) (rho s77 : ℝ) (Tl : Arr 57 ℝ) (cur : Parms ℝ) :
    Ok (imbePredict2 true (L : Int) prev ik dl rho s77 Tl cur) (SameButAmps cur) := by
  unfold imbePredict2
  rw [Int.toNat_natCast]
  refine (loopFT_inv (fun _ c => SameButAmps cur c) (by omega) (SameButAmps.refl _) ?_)
  intro l h1 h2 c hc
  obtain ⟨⟨k, k1, r1, r2⟩, x, k2⟩ := hk l (by omega) h1 (by omega)
  obtain ⟨a, ha⟩ := rdLog2_ok (lax := true) (p := prev) r1 (by omega) (.inl rfl)
  obtain ⟨b, hb⟩ := rdLog2_ok (lax := true) (p := prev) (i := k + 1) (by omega) (by omega) (.inl rfl)
  rw [Loc.rd_nat (by omega) k2, ok_bind, Loc.rd_nat (by omega) k1, ok_bind, ha, ok_bind, hb, ok_bind,
    Arr.rd_nat (by omega), ok_bind]
  simp only []
  rw [Arr.wr_nat (by omega), ok_bind, Arr.wr_nat (by omega), ok_bind]
  exact Ok.ok (hc.trans rfl)

theorem predict3_ok_r {p L : Nat} {prev : Parms ℝ} (hp : p ≤ 56) (hL' : L ≤ 56)
    {ik : Loc 57 Int} {dl : Loc 57 ℝ} (hk : KlIn p (L + 1) ik dl) (s43 bg unvc : ℝ) (Tl : Arr 57 ℝ) (cur : Parms ℝ) :
    Ok (ambePredict3 true (L : Int) prev ik dl s43 bg unvc Tl cur) (SameButAmps cur) := by
  unfold ambePredict3
  rw [Int.toNat_natCast]
  refine (loopFT_inv (fun _ c => SameButAmps cur c) (by omega) (SameButAmps.refl _) ?_)
  intro l h1 h2 c hc
  obtain ⟨⟨k, k1, r1, r2⟩, x, k2⟩ := hk l (by omega) h1 (by omega)
  obtain ⟨a, ha⟩ := rdLog2_ok (lax := true) (p := prev) r1 (by omega) (.inl rfl)
  obtain ⟨b, hb⟩ := rdLog2_ok (lax := true) (p := prev) (i := k + 1) (by omega) (by omega) (.inl rfl)
  rw [Loc.rd_nat (by omega) k2, ok_bind, Loc.rd_nat (by omega) k1, ok_bind, ha, ok_bind, hb, ok_bind,
    Arr.rd_nat (by omega), ok_bind]
  simp only []
  rw [Arr.wr_nat (by omega), ok_bind, Arr.rd_nat (by omega), ok_bind, Arr.wr_nat (by omega), ok_bind]
  exact Ok.ok (hc.trans rfl)

theorem ambeBody_ok_r {T : AmbeTabs} {f : AmbeFields} (hT : T.Shape) (hf : f.Ok T) {L p : Nat} (h9 : 9 ≤ L)
    (hL : L ≤ 56) (unvc : ℝ) (cache : DctCache ℝ 9 18) (cur prev : Parms ℝ) (hpL : prev.L = (p : Int)) (hp : p ≤ 56) :
    Ok (ambeBody true T f (L : Int) unvc cache cur prev) fun r =>
      (∃ g, SameButAmps { cur with gamma := g } r.1) ∧ SameButAmps prev r.2 := by
  obtain ⟨g, Tl, P, hSame, e⟩ := ambeBody_pre (lax := true) hT hf h9 hL unvc cache cur prev hpL hp
  have hPL : P.L = (p : Int) := by rw [hSame]; exact hpL
  rw [e]
  unfold ambeTail
  refine Ok.bind (predict1_ok_r hPL hp (by omega) hL) fun q hq => ?_
  obtain ⟨s, e, _⟩ := ambeSum42_ok hL Tl
  rw [e, ok_bind]
  exact Ok.bind (predict3_ok_r hp hL hq _ _ _ _ _) fun c hc => Ok.ok ⟨⟨_, hc⟩, hSame⟩

/-- Columns of the voicing table in exact arithmetic. -/
theorem col_eval_r {f0 : ℝ} (h0 : 0 ≤ f0) {l : Nat} (h1 : 16 * (l : ℝ) * f0 < 2147483648) :
    toI32 ((ofInt (l : Int) *ᶠ toF (dlit 16 1)) *ᶠ f0) = .ok ((⌊16 * (l : ℝ) * f0⌋.toNat : Nat) : Int) := by
  have e : ((ofInt (l : Int) *ᶠ toF (dlit 16 1)) *ᶠ f0) = 16 * (l : ℝ) * f0 := by
    rw [RealArith.toF_r, RealArith.dlit_r 16 1 (by decide)]
    show ((l : Int) : ℝ) * (((16 : Int) : ℝ) / ((1 : Nat) : ℝ)) * f0 = _
    push_cast
    ring
  have h2 : 0 ≤ 16 * (l : ℝ) * f0 := by positivity
  rw [e, toI32_r_ok h2 h1, Int.toNat_of_nonneg (Int.floor_nonneg.mpr h2)]

theorem col_lt_r {f0 : ℝ} {L l : Nat} (h0 : 0 ≤ f0) (hl : l ≤ L) (h : 16 * (L : ℝ) * f0 < 8) :
    16 * (l : ℝ) * f0 < 2147483648 ∧ ⌊16 * (l : ℝ) * f0⌋.toNat < 8 := by
  have h1 : (l : ℝ) ≤ L := by exact_mod_cast hl
  have h2 : 16 * (l : ℝ) * f0 < 8 := by nlinarith
  refine ⟨by linarith, ?_⟩
  have : ⌊16 * (l : ℝ) * f0⌋ < 8 := by rw [Int.floor_lt]; exact_mod_cast h2
  omega

theorem q_le_one {x q : ℝ} (hx : 9 ≤ x) (hq : 0 ≤ q) (h : 16 * x * q < 8) : q ≤ 1 := by nlinarith

theorem f0tab_r : ∀ b0 < 120, 0 ≤ AmbeW0table.getD b0 0 ∧ AmbeW0table.getD b0 0 ≤ 1000000000 ∧
    16 * AmbeLtable.getD b0 0 * AmbeW0table.getD b0 0 < 8 * (AmbeW0table_den : Int) := by decide +kernel

theorem toI32_ofInt_r {n : Int} (h0 : 0 ≤ n) (h1 : n ≤ 56) : toI32 (ofInt n : ℝ) = .ok n := by
  have a : (0 : ℝ) ≤ (ofInt n : ℝ) := by rw [RealArith.ofInt_r]; exact_mod_cast h0
  have b : (ofInt n : ℝ) ≤ 56 := by rw [RealArith.ofInt_r]; exact_mod_cast h1
  rw [toI32_r_ok a (by linarith), RealArith.ofInt_r, Int.floor_intCast]

theorem ambe2450Voice_ok_r {d : Nat → Int} (hd : Bits 49 d) {b0 p : Nat} (h : b0 < 120 ∨ b0 = 124 ∨ b0 = 125)
    (cur prev : Parms ℝ) (t : Tls ℝ) (hpL : prev.L = (p : Int)) (hp : p ≤ 56) :
    Ok (ambe2450Voice true d b0 cur prev t) fun r => r.bad = 0 ∧ r.cur.L = ambeHarmonics2450 b0 ∧ SameButAmps prev r.prev := by
  have hdr : Ok (ambe2450Header b0 cur) fun h => ∃ L : Nat, h.2.2 = (L : Int) ∧ (L : Int) = ambeHarmonics2450 b0 ∧
      9 ≤ L ∧ L ≤ 56 ∧ h.2.1.L = (L : Int) ∧ 0 ≤ h.1 ∧ h.1 ≤ 1 ∧ (b0 < 120 → 16 * (L : ℝ) * h.1 < 8) := by
    unfold ambe2450Header
    by_cases hs : b0 = 124 ∨ b0 = 125
    · rw [if_pos (by simpa using hs)]
      simp only []
      have hL : (if b0 = 124 then 15 else 14) ≤ 56 ∧ 9 ≤ (if b0 = 124 then 15 else 14) := by split <;> omega
      obtain ⟨V, e, hV⟩ := clearVl_ok hL.1 cur.Vl
      rw [e, ok_bind]
      have e32 : (fpi /ᶠ lit 32 1 : ℝ) = Real.pi / 32 := by
        rw [RealArith.div_r, RealArith.fpi_r, RealArith.lit_r 32 1 (by decide)]
        norm_num
      refine Ok.ok ⟨_, rfl, ?_, hL.2, hL.1, rfl, ?_, ?_, fun h => by omega⟩
      · unfold ambeHarmonics2450
        rcases hs with rfl | rfl <;> simp
      · show (0 : ℝ) ≤ fpi /ᶠ lit 32 1
        rw [e32]; positivity
      · show (fpi /ᶠ lit 32 1 : ℝ) ≤ 1
        rw [e32]; linarith [Real.pi_le_four]
    · have hb : b0 < 120 := by omega
      rw [if_neg (by simpa using hs)]
      have l1 : AmbeW0table.length = 120 := by decide +kernel
      have l2 : AmbeLtable.length = 120 := by decide +kernel
      have hr := ltab_check b0 hb
      obtain ⟨f1, f2, f3⟩ := f0tab_r b0 hb
      rw [tab_getD (x := 0) (by omega), ok_bind, tab_getD (x := 0) (by omega), ok_bind,
        toI32_ofInt_r (by omega) (by omega), ok_bind]
      have hden : (0 : ℝ) < (AmbeW0table_den : ℝ) := by exact_mod_cast (show 0 < AmbeW0table_den by decide)
      have ef : (ftab (AmbeW0table.getD b0 0) AmbeW0table_den : ℝ) = (AmbeW0table.getD b0 0 : ℝ) / (AmbeW0table_den : ℝ) :=
        ftab_r (b := 1000000000) (by rw [abs_of_nonneg f1]; exact f2) (by decide)
      generalize AmbeW0table_den = D at f3 hden ef ⊢
      generalize AmbeW0table.getD b0 0 = w at f1 f2 f3 ef ⊢
      generalize hl : AmbeLtable.getD b0 0 = x at hr f3 ⊢
      have hLc : (x.toNat : ℝ) = (x : ℝ) := by
        have : (x.toNat : Int) = x := Int.toNat_of_nonneg (by omega)
        exact_mod_cast congrArg (Int.cast : Int → ℝ) this
      have f1' : (0 : ℝ) ≤ (w : ℝ) := by exact_mod_cast f1
      have f3' : 16 * (x : ℝ) * (w : ℝ) < 8 * (D : ℝ) := by exact_mod_cast f3
      have key : 16 * (x : ℝ) * ((w : ℝ) / (D : ℝ)) < 8 := by
        rw [← mul_div_assoc, div_lt_iff₀ hden]; exact f3'
      have hL9 : (9 : ℝ) ≤ (x : ℝ) := by exact_mod_cast hr.1
      have hq0 : (0 : ℝ) ≤ (w : ℝ) / (D : ℝ) := by positivity
      refine Ok.ok ⟨x.toNat, ?_, ?_, by omega, by omega, ?_, ?_, ?_, fun _ => ?_⟩
      · show x = _
        omega
      · unfold ambeHarmonics2450
        rw [if_neg (by omega), if_neg (by omega), hl]
        omega
      · show x = _
        omega
      · show (0 : ℝ) ≤ ftab w D
        rw [ef]; exact hq0
      · show (ftab w D : ℝ) ≤ 1
        rw [ef]
        exact q_le_one hL9 hq0 key
      · show 16 * (x.toNat : ℝ) * ftab w D < 8
        rw [ef, hLc]; exact key
  unfold ambe2450Voice
  obtain ⟨hh, e, L, hL1, hL2, h9, h56, hcL, hq0, hq1, hq2⟩ := hdr
  rw [e, ok_bind, orField_eq hd (by decide), ok_bind]
  simp only []
  rw [hL1]
  have hb1 : fieldVal d [4, 5, 6, 7, 35] < AmbeVuv.length :=
    lt_of_lt_of_eq (field_lt hd (by decide)) (by decide +kernel)
  obtain ⟨V, e, hVo⟩ := ambeVoicing_ok (t := AmbeVuv) (f0 := hh.1) (silence := b0 == 124 || b0 == 125)
    (col := fun l => ⌊16 * (l : ℝ) * hh.1⌋.toNat) h56 vuv_shape hb1
    (fun l _ h2 => col_eval_r hq0 (by
      have : (l : ℝ) ≤ 56 := by exact_mod_cast h2.trans h56
      nlinarith))
    (fun hs l _ h2 => (col_lt_r hq0 h2 (hq2 (by simp at hs; omega))).2) hh.2.1.Vl
  rw [e, ok_bind]
  obtain ⟨f, e, hf⟩ := fields2450_ok hd
  rw [e, ok_bind]
  refine Ok.bind (ambeBody_ok_r shape2450 hf h9 h56 (ambeUnvc hh.2.1.w0) (ambe2450GetCache t).1
    { hh.2.1 with Vl := V } prev hpL hp) fun r hr => Ok.ok ⟨rfl, ?_, hr.2⟩
  obtain ⟨g, hg⟩ := hr.1
  show r.1.L = _
  rw [hg]
  show hh.2.1.L = _
  rw [hcL, hL2]

/-- The exponent of the 2400 fundamental. -/
def y2400 (b0 : Nat) : ℚ := -(4311767578125 / 1000000000000) - 21336 / 1000000 * (b0 + 1 / 2)

theorem y2400_check : ∀ b0 < 126, y2400 b0 ≤ -4 ∧
    (16 * (AmbePlusLtable.getD b0 0).toNat * 1001) ^ 1024 ≤ 7900 ^ 1024 * 2 ^ (⌊-(y2400 b0) * 1024⌋).toNat := by
  decide +kernel

theorem f0Of2400_r (b0 : Nat) : (f0Of2400 b0 : ℝ) = (2 : ℝ) ^ ((y2400 b0 : ℚ) : ℝ) := by
  unfold f0Of2400 y2400
  rw [RealArith.exp2_r, RealArith.sub_r, RealArith.neg_r, RealArith.mul_r, RealArith.add_r, RealArith.ofInt_r,
    RealArith.lit_r _ _ (by decide), RealArith.lit_r _ _ (by decide), RealArith.lit_r _ _ (by decide)]
  congr 1
  push_cast
  norm_num

theorem ambe2400Voice_ok_r {d : Nat → Int} (hd : Bits 49 d) {b0 p : Nat} (h : b0 < 126)
    (cur prev : Parms ℝ) (t : Tls ℝ) (hpL : prev.L = (p : Int)) (hp : p ≤ 56) :
    Ok (ambe2400Voice true d b0 cur prev t) fun r => r.bad = 0 ∧ r.cur.L = AmbePlusLtable.getD b0 0 ∧ SameButAmps prev r.prev := by
  unfold ambe2400Voice
  have l2 : AmbePlusLtable.length = 126 := by decide +kernel
  have hr := ltabPlus_check b0 h
  simp only []
  rw [tab_getD (x := 0) (by omega), ok_bind, toI32_ofInt_r (by omega) (by omega), ok_bind]
  obtain ⟨y1, y2⟩ := y2400_check b0 h
  have hb := pow_bound y1 y2
  obtain ⟨L, hL⟩ : ∃ L : Nat, AmbePlusLtable.getD b0 0 = (L : Int) := ⟨_, (Int.toNat_of_nonneg (by omega)).symm⟩
  rw [hL] at hr ⊢
  rw [hL, Int.toNat_natCast, ← f0Of2400_r] at hb
  have hq0 : 0 ≤ (f0Of2400 b0 : ℝ) := by rw [f0Of2400_r]; positivity
  have hq1 : 16 * (L : ℝ) * (f0Of2400 b0 : ℝ) < 8 := by
    have : 0 ≤ 16 * (L : ℝ) * (f0Of2400 b0 : ℝ) := by positivity
    linarith
  rw [orField_eq hd (by decide), ok_bind]
  have hb1 : fieldVal d [38, 39, 40, 41] < AmbePlusVuv.length :=
    lt_of_lt_of_eq (field_lt hd (by decide)) (by decide +kernel)
  obtain ⟨V, e, hVo⟩ := ambeVoicing_ok (t := AmbePlusVuv) (f0 := (f0Of2400 b0 : ℝ)) (silence := false)
    (col := fun l => ⌊16 * (l : ℝ) * f0Of2400 b0⌋.toNat) (by omega) vuvPlus_shape hb1
    (fun l _ h2 => col_eval_r hq0 (col_lt_r hq0 h2 hq1).1)
    (fun hs l _ h2 => (col_lt_r hq0 h2 hq1).2) cur.Vl
  rw [e, ok_bind]
  obtain ⟨f, e, hf⟩ := fields2400_ok hd
  rw [e, ok_bind]
  refine Ok.bind (ambeBody_ok_r (L := L) shape2400 hf (by omega) (by omega) (ambeUnvc (ambeW0 (f0Of2400 b0)))
    (ambe2400GetCache t).1 { cur with w0 := ambeW0 (f0Of2400 b0), L := (L : Int), Vl := V } prev hpL hp) fun r hr => Ok.ok ⟨rfl, ?_, hr.2⟩
  obtain ⟨g, hg⟩ := hr.1
  show r.1.L = _
  rw [hg]

/-! ## IMBE -/

theorem toI32_ftab_int_r {b : Nat} (h : b < 11) : toI32 (ftab ((b : Int) * 1000000) ba_den : ℝ) = .ok (b : Int) := by
  have e : (ftab ((b : Int) * 1000000) ba_den : ℝ) = (b : ℝ) := by
    rw [ftab_r (b := 11000000) (by rw [abs_of_nonneg (by omega)]; omega) (by decide)]
    have : ba_den = 1000000 := rfl
    rw [this]
    push_cast
    field_simp
  have : (b : ℝ) < 11 := by exact_mod_cast h
  rw [e, toI32_r_ok (by positivity) (by linarith), Int.floor_natCast]

theorem imbeW0_r (b0 : Nat) : (imbeW0 b0 : ℝ) = 4 * Real.pi / (b0 + 79 / 2) := by
  unfold imbeW0
  rw [RealArith.div_r, RealArith.toF_r, RealArith.toF_r, RealArith.dmul_r, RealArith.dadd_r, RealArith.dofInt_r,
    RealArith.mpi_r, RealArith.ofInt_r, RealArith.dlit_r _ _ (by decide)]
  push_cast
  norm_num

theorem imbeLOfW0_r {w : ℝ} {n : Nat} (hn : n < 1000) (hw : w = 4 * Real.pi / (n + 79 / 2)) :
    imbeLOfW0 w = .ok ((imbeLTab n : Nat) : Int) := by
  unfold imbeLOfW0
  have e1 : ((mpi /ᵈ w) +ᵈ dlit 25 100 : ℝ) = (n + 40 : ℝ) / 4 + 1 / 8 := by
    rw [RealArith.dadd_r, RealArith.ddiv_r, RealArith.mpi_r, RealArith.dlit_r _ _ (by decide), hw]
    have : (n : ℝ) + 79 / 2 ≠ 0 := by positivity
    have := Real.pi_ne_zero
    field_simp
    push_cast
    ring
  have f1 : ⌊(n + 40 : ℝ) / 4 + 1 / 8⌋ = (((n + 40) / 4 : Nat) : Int) := by
    rw [Int.floor_eq_iff]
    have h1 : 4 * ((n + 40) / 4) ≤ n + 40 := Nat.mul_div_le _ _
    have h2 : n + 40 ≤ 4 * ((n + 40) / 4) + 3 := by omega
    have h1' : 4 * (((n + 40) / 4 : Nat) : ℝ) ≤ n + 40 := by exact_mod_cast h1
    have h2' : (n + 40 : ℝ) ≤ 4 * (((n + 40) / 4 : Nat) : ℝ) + 3 := by exact_mod_cast h2
    constructor
    · rw [Int.cast_natCast]; linarith
    · rw [Int.cast_natCast]; linarith
  have hn' : (n : ℝ) < 1000 := by exact_mod_cast hn
  rw [e1, toI32_r_ok (by positivity) (by linarith), ok_bind, f1]
  unfold imbeLTab
  generalize hk : (n + 40) / 4 = k
  have hk' : k < 1000 := by omega
  have e2 : ((dlit 9254 10000 : ℝ) *ᵈ dofInt (k : Int)) = 9254 * (k : ℝ) / 10000 := by
    rw [RealArith.dmul_r, RealArith.dofInt_r, RealArith.dlit_r _ _ (by decide)]
    push_cast
    ring
  have hkr : (k : ℝ) < 1000 := by exact_mod_cast hk'
  rw [e2, toI32_r_ok (by positivity) (by linarith)]
  congr 1
  rw [show (9254 * (k : ℝ) / 10000) = (((9254 * k : Nat) : ℝ) / ((10000 : Nat) : ℝ)) by push_cast; ring]
  rw [floor_nat_div]

theorem imbeKOfL_r {L : Nat} (h9 : 9 ≤ L) (h : L < 57) : imbeKOfL ℝ (L : Int) = .ok ((imbeBands L : Nat) : Int) := by
  unfold imbeKOfL imbeBands
  by_cases c : (L : Int) < 37
  · rw [if_pos c]
    have hi : i32 ((L : Int) + 2) = .ok ((L + 2 : Nat) : Int) := by
      unfold i32
      rw [if_pos (by omega)]
      rfl
    rw [hi, ok_bind]
    have e : ((ofInt ((L + 2 : Nat) : Int) : ℝ) /ᶠ ofInt 3) = ((L + 2 : Nat) : ℝ) / ((3 : Nat) : ℝ) := by
      rw [RealArith.div_r, RealArith.ofInt_r, RealArith.ofInt_r]
      push_cast
      rfl
    have hl : ((L + 2 : Nat) : ℝ) < 60 := by exact_mod_cast (show L + 2 < 60 by omega)
    rw [e, toI32_r_ok (by positivity) (by push_cast at hl ⊢; linarith), floor_nat_div]
    have : min 12 ((L + 2) / 3) = (L + 2) / 3 := by omega
    rw [this]
  · rw [if_neg c]
    have : min 12 ((L + 2) / 3) = 12 := by omega
    rw [this]
    rfl

theorem imbeDecodeBody_ok_r {n p : Nat} {d : Nat → Int} {cur prev : Parms ℝ} {t : Tls ℝ}
    (hn : n < 48) (hd : Bits 88 d) (hpL : prev.L = (p : Int)) (hp : p ≤ 56) :
    Ok (imbeDecodeBody true d ((n + 9 : Nat) : Int) (imbeBands (n + 9) : Nat) cur prev t) fun r =>
      r.bad = 0 ∧ r.cur.L = cur.L ∧ SameButAmps prev r.prev ∧ ∀ i : Fin 57, r.cur.Vl i =
        if 1 ≤ i.val ∧ i.val ≤ n + 9 then
          bandBit n d (imbeBands (n + 9)) (min ((i.val - 1) / 3) (imbeBands (n + 9) - 1)) else cur.Vl i := by
  unfold imbeDecodeBody
  rw [show (((n + 9 : Nat) : Int) - 9) = (n : Int) by omega]
  simp only []
  refine Ok.bind (imbeReadBits_ok hn d) fun bb hbb => ?_
  refine Ok.bind (imbeVoicing_ok hbb hn hd cur.Vl) fun V hV => ?_
  refine Ok.bind (imbeGm_ok' toI32_ftab_int_r hbb hn hd) fun Gm hG => ?_
  refine Ok.bind (idctRi_ok _ hG (by decide)) fun Ri hR => ?_
  refine Ok.bind (imbeCik_ok hbb hn hd hR) fun C hC => ?_
  refine Ok.bind (imbeTl_ok hn _ hC) fun Tl _ => ?_
  refine Ok.bind (extendPrev_ok (by omega) (by omega) (by omega)) fun prev' hprev => ?_
  have hpL' : prev'.L = (p : Int) := by rw [hprev]; exact hpL
  refine Ok.bind (predict1_ok_r hpL' hp (by omega) (by omega)) fun q hq => ?_
  refine Ok.bind (predict2_ok_r hp (by omega) hq _ _ _ _) fun c hc => Ok.ok ⟨rfl, ?_, hprev, fun i => ?_⟩
  · show c.L = _
    rw [hc]
  · show c.Vl i = _
    rw [hc]
    exact hV i

/-- The IMBE decoder in exact arithmetic: which frames are invalid, and the number of harmonics of the others. -/
theorem decodeImbe4400_total_r {d : Nat → Int} (hd : Bits 88 d) {p : Nat} (cur prev : Parms ℝ) (t : Tls ℝ)
    (hpL : prev.L = (p : Int)) (hp : p ≤ 56) :
    Ok (decodeImbe4400 true d cur prev t) fun r => r.prev.L = prev.L ∧ (207 < imbeFund d → r.bad = 1) ∧
      (imbeFund d ≤ 207 → r.bad = 0 ∧ r.cur.L = (imbeLTab (imbeFund d) : Nat)) := by
  by_cases hf : 207 < imbeFund d
  · rw [decodeImbe4400_bad hd hf]
    exact Ok.ok ⟨rfl, fun _ => rfl, fun h => by omega⟩
  · unfold decodeImbe4400
    obtain ⟨r1, r2⟩ := imbeLTab_range (imbeFund d) (by omega)
    rw [imbeFund_field hd, ok_bind, if_neg (by omega)]
    simp only []
    rw [imbeLOfW0_r (show imbeFund d < 1000 by omega) (imbeW0_r _), ok_bind, if_neg (by omega), imbeKOfL_r r1 (by omega), ok_bind]
    obtain ⟨n, hn⟩ : ∃ n, imbeLTab (imbeFund d) = n + 9 := ⟨imbeLTab (imbeFund d) - 9, by omega⟩
    rw [hn]
    refine (imbeDecodeBody_ok_r (n := n) (by omega) hd hpL hp).mono fun r h => ⟨?_, fun h => by omega, fun _ => ⟨h.1, h.2.1⟩⟩
    rw [h.2.2.1]

/-- The AMBE 2450 decoder in exact arithmetic: every frame that is neither tone nor erasure is decoded. -/
theorem decodeAmbe2450_total_r {d : Nat → Int} (hd : Bits 49 d) {p : Nat} (e : Int) (cur prev : Parms ℝ) (t : Tls ℝ)
    (hpL : prev.L = (p : Int)) (hp : p ≤ 56) :
    Ok (decodeAmbe2450 true d e cur prev t) fun r => r.prev.L = prev.L ∧
      (¬ (ToneSig d ∧ e < 6) → ambeFund2450 d < 120 ∨ ambeFund2450 d = 124 ∨ ambeFund2450 d = 125 → r.bad = 0) := by
  obtain ⟨k1, k2⟩ := decodeAmbe2450_eq hd true e cur prev t
  by_cases c : ToneSig d ∧ e < 6
  · rw [k1 c]; exact Ok.ok ⟨rfl, fun h => absurd c h⟩
  · obtain ⟨k2, k3⟩ := k2 c
    by_cases c2 : ambeFund2450 d < 120 ∨ ambeFund2450 d = 124 ∨ ambeFund2450 d = 125
    · rw [k3 c2]
      refine (ambe2450Voice_ok_r hd c2 _ prev t hpL hp).mono fun r h => ⟨by rw [h.2.2], fun _ _ => h.1⟩
    · rw [k2 (by omega)]
      exact Ok.ok ⟨rfl, fun _ h => absurd h c2⟩

/-- The AMBE 2400 decoder in exact arithmetic. -/
theorem decodeAmbe2400_total_r {d : Nat → Int} (hd : Bits 49 d) {p : Nat} (cur prev : Parms ℝ) (t : Tls ℝ)
    (hpL : prev.L = (p : Int)) (hp : p ≤ 56) :
    Ok (decodeAmbe2400 true d cur prev t) fun r => r.prev.L = prev.L ∧ (ambeFund2400 d < 126 → r.bad = 0) := by
  obtain ⟨k1, k2⟩ := decodeAmbe2400_eq hd true cur prev t
  by_cases c : ambeFund2400 d < 126
  · rw [k1 c]
    exact (ambe2400Voice_ok_r hd c _ prev t hpL hp).mono fun r h => ⟨by rw [h.2.2], fun _ => h.1⟩
  · obtain ⟨h1, h2, h3⟩ := k2 (by omega)
    by_cases c1 : 5 ≤ toneIdx2400 d ∧ toneIdx2400 d ≤ 122
    · rw [h1 c1]; exact Ok.ok ⟨rfl, fun h => absurd h c⟩
    by_cases c2 : 128 ≤ toneIdx2400 d ∧ toneIdx2400 d ≤ 163
    · rw [h2 c2]; exact Ok.ok ⟨rfl, fun h => absurd h c⟩
    · exact (h3 ⟨c1, c2⟩).mono fun r h => ⟨by rw [h.2.1], fun h => absurd h c⟩

end Verif.Model
