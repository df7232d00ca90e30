import Verif.Lemmas.AmbeSafe
import Verif.Lemmas.ImbeDecode
import Mathlib.Analysis.SpecialFunctions.Pow.Real
import Mathlib.Tactic.IntervalCases

/-!
# Classification, voicing columns and termination of the AMBE decoders
-/

namespace Verif.Model
open Verif Verif.Spec Verif.Gen Verif.Num Arith

/-! ## Fields -/

theorem fieldVal_append (d : Nat → Int) (a b : List Nat) :
    fieldVal d (a ++ b) = fieldVal d a * 2 ^ b.length + fieldVal d b := by
  unfold fieldVal
  rw [List.foldl_append]
  exact fieldVal_acc d b _

theorem field_shift {d : Nat → Int} {a b : List Nat} (hb : ∀ i ∈ b, d i = 0 ∨ d i = 1) :
    fieldVal d (a ++ b) >>> b.length = fieldVal d a := by
  rw [fieldVal_append, Nat.shiftRight_eq_div_pow, Nat.add_div_of_dvd_right (Dvd.intro_left _ rfl),
    Nat.mul_div_cancel _ (by positivity), Nat.div_eq_of_lt (fieldVal_lt hb), Nat.add_zero]

theorem field_mask {d : Nat → Int} {a b : List Nat} (hb : ∀ i ∈ b, d i = 0 ∨ d i = 1) :
    fieldVal d (a ++ b) &&& (2 ^ b.length - 1) = fieldVal d b := by
  rw [fieldVal_append, Nat.and_two_pow_sub_one_eq_mod, Nat.mul_add_mod_of_lt' (fieldVal_lt hb)]
where
  Nat.mul_add_mod_of_lt' {x y z : Nat} (h : z < y) : (x * y + z) % y = z := by
    rw [Nat.mul_comm, Nat.mul_add_mod, Nat.mod_eq_of_lt h]

theorem bit_toNat {d : Nat → Int} {i : Nat} (h : d i = 0 ∨ d i = 1) : (d i).toNat ≤ 1 ∧ d i = ((d i).toNat : Int) := by
  rcases h with e | e <;> rw [e] <;> simp

theorem toneVerified_eq {d : Nat → Int} (hd : Bits 49 d) :
    ∃ b, toneVerified d = .ok b ∧ (b = true ↔ ToneSig d) := by
  have hb : ∀ lo n, lo + n ≤ 49 → ∀ i ∈ List.range' lo n, d i = 0 ∨ d i = 1 := by
    intro lo n h i hi
    rw [List.mem_range'_1] at hi
    exact hd i (by omega)
  have hl : ∀ lo n, lo + n ≤ 49 → ∀ i ∈ List.range' lo n, i < 49 := by
    intro lo n h i hi
    rw [List.mem_range'_1] at hi
    omega
  unfold toneVerified
  rw [orField_eq hd (hl 0 12 (by decide)), ok_bind, orField_eq hd (hl 12 12 (by decide)), ok_bind,
    orField_eq hd (hl 24 11 (by decide)), ok_bind, orField_eq hd (hl 35 14 (by decide)), ok_bind]
  refine ⟨_, rfl, ?_⟩
  have e0 : (fieldVal d (List.range' 0 12) >>> 6) &&& 0x3f = fieldVal d (List.range' 0 6) := by
    have h1 : fieldVal d (List.range' 0 12) >>> 6 = fieldVal d (List.range' 0 6) :=
      field_shift (a := List.range' 0 6) (b := List.range' 6 6) (hb 6 6 (by decide))
    rw [h1]
    exact field_mask (a := []) (b := List.range' 0 6) (hb 0 6 (by decide))
  have e3 : fieldVal d (List.range' 35 14) &&& 0xf = fieldVal d (List.range' 45 4) :=
    field_mask (a := List.range' 35 10) (b := List.range' 45 4) (hb 45 4 (by decide))
  have eh : (fieldVal d (List.range' 12 12) >>> 8) &&& 0xf = fieldVal d (List.range' 12 4) := by
    have h1 : fieldVal d (List.range' 12 12) >>> 8 = fieldVal d (List.range' 12 4) :=
      field_shift (a := List.range' 12 4) (b := List.range' 16 8) (hb 16 8 (by decide))
    rw [h1]
    exact field_mask (a := []) (b := List.range' 12 4) (hb 12 4 (by decide))
  have el : fieldVal d (List.range' 12 12) &&& 0xf = fieldVal d (List.range' 20 4) :=
    field_mask (a := List.range' 12 8) (b := List.range' 20 4) (hb 20 4 (by decide))
  rw [e0, e3, eh, el]
  simp only [Bool.and_eq_true, Bool.or_eq_true, beq_iff_eq]
  have hbit : ∀ i, i < 49 → (d i).toNat ≤ 1 ∧ d i = ((d i).toNat : Int) := fun i hi => bit_toNat (hd i hi)
  unfold ToneSig
  refine and_congr ?_ (or_congr ?_ ?_)
  · simp only [List.range', fieldVal, List.foldl_cons, List.foldl_nil, Nat.reduceAdd]
    have := hbit 0 (by decide); have := hbit 1 (by decide); have := hbit 2 (by decide)
    have := hbit 3 (by decide); have := hbit 4 (by decide); have := hbit 5 (by decide)
    constructor
    · intro h i hi
      interval_cases i <;> omega
    · intro h
      have := h 0 (by decide); have := h 1 (by decide); have := h 2 (by decide)
      have := h 3 (by decide); have := h 4 (by decide); have := h 5 (by decide)
      omega
  · simp only [List.range', fieldVal, List.foldl_cons, List.foldl_nil, Nat.reduceAdd]
    have := hbit 45 (by decide); have := hbit 46 (by decide); have := hbit 47 (by decide); have := hbit 48 (by decide)
    constructor
    · intro h i hi
      interval_cases i <;> simp only [Nat.reduceAdd] <;> omega
    · intro h
      have := h 0 (by decide); have := h 1 (by decide); have := h 2 (by decide); have := h 3 (by decide)
      simp only [Nat.reduceAdd] at *
      omega
  · simp only [List.range', fieldVal, List.foldl_cons, List.foldl_nil, Nat.reduceAdd]
    have := hbit 12 (by decide); have := hbit 13 (by decide); have := hbit 14 (by decide); have := hbit 15 (by decide)
    have := hbit 20 (by decide); have := hbit 21 (by decide); have := hbit 22 (by decide); have := hbit 23 (by decide)
    constructor
    · intro h i hi
      interval_cases i <;> simp only [Nat.reduceAdd] <;> omega
    · intro h
      have := h 0 (by decide); have := h 1 (by decide); have := h 2 (by decide); have := h 3 (by decide)
      simp only [Nat.reduceAdd] at *
      omega

theorem field_lt {d : Nat → Int} (hd : Bits 49 d) {is : List Nat} (h : ∀ i ∈ is, i < 49) : fieldVal d is < 2 ^ is.length :=
  fieldVal_lt fun i hi => hd i (h i hi)

theorem fields2450_ok {d : Nat → Int} (hd : Bits 49 d) : Ok (fields2450 d) (AmbeFields.Ok tabs2450) := by
  unfold fields2450
  rw [orField_eq hd (by decide), ok_bind, orField_eq hd (by decide), ok_bind, orField_eq hd (by decide), ok_bind,
    orField_eq hd (by decide), ok_bind, orField_eq hd (by decide), ok_bind, orField_eq hd (by decide), ok_bind,
    orField_eq hd (by decide), ok_bind]
  refine Ok.ok ⟨?_, ?_, ?_, ?_, ?_, ?_, ?_⟩
  · exact lt_of_lt_of_eq (field_lt hd (by decide)) (by decide +kernel)
  · exact lt_of_lt_of_eq (field_lt hd (by decide)) (by decide +kernel)
  · exact lt_of_lt_of_eq (field_lt hd (by decide)) (by decide +kernel)
  · exact lt_of_lt_of_eq (field_lt hd (by decide)) (by decide +kernel)
  · exact lt_of_lt_of_eq (field_lt hd (by decide)) (by decide +kernel)
  · exact lt_of_lt_of_eq (field_lt hd (by decide)) (by decide +kernel)
  · exact lt_of_lt_of_eq (field_lt hd (by decide)) (by decide +kernel)

theorem fields2400_ok {d : Nat → Int} (hd : Bits 49 d) : Ok (fields2400 d) (AmbeFields.Ok tabs2400) := by
  unfold fields2400
  rw [orField_eq hd (by decide), ok_bind, orField_eq hd (by decide), ok_bind, orField_eq hd (by decide), ok_bind,
    orField_eq hd (by decide), ok_bind, orField_eq hd (by decide), ok_bind, orField_eq hd (by decide), ok_bind,
    orField_eq hd (by decide), ok_bind]
  refine Ok.ok ⟨?_, ?_, ?_, ?_, ?_, ?_, ?_⟩
  · exact lt_of_lt_of_eq (field_lt hd (by decide)) (by decide +kernel)
  · exact lt_of_lt_of_eq (field_lt hd (by decide)) (by decide +kernel)
  · exact lt_of_lt_of_eq (field_lt hd (by decide)) (by decide +kernel)
  · exact lt_of_lt_of_eq (field_lt hd (by decide)) (by decide +kernel)
  · exact lt_of_lt_of_eq (field_lt hd (by decide)) (by decide +kernel)
  · exact lt_of_lt_of_eq (field_lt hd (by decide)) (by decide +kernel)
  · have h := field_lt (is := [35, 36, 37]) hd (by decide)
    have e : tabs2400.hoc8.length = 16 := by decide +kernel
    show fieldVal d [35, 36, 37] <<< 1 < tabs2400.hoc8.length
    rw [e, Nat.shiftLeft_eq]
    simp only [List.length_cons, List.length_nil] at h
    omega

/-! ## Voicing columns -/

variable {m : Libm}

/-- Table column of harmonic `l` when the normalised fundamental has the value `q`. -/
def colQ (q : ℚ) (l : Nat) : Nat := ⌊rnd F32 ((l : ℚ) * 16 * q)⌋.toNat

theorem col_eval {f0 : IEEE m} {q : ℚ} (hq : Val f0 q) (h0 : 0 ≤ q) {L : Nat} (hL : L ≤ 56) (h1 : 16 * (L : ℚ) * q ≤ 63 / 2)
    {l : Nat} (hl : l ≤ L) :
    toI32 ((ofInt (l : Int) *ᶠ toF (dlit 16 1)) *ᶠ f0) = .ok (colQ q l : Int) ∧
      (16 * (L : ℚ) * q ≤ 79 / 10 → colQ q l < 8) := by
  have hlq : (l : ℚ) ≤ L := by exact_mod_cast hl
  have hl0 : (0 : ℚ) ≤ l := by positivity
  have hLq : (L : ℚ) ≤ 56 := by exact_mod_cast hL
  have e16 : Val (toF (dlit 16 1) : IEEE m) 16 := ⟨false, by
    show FP.conv F32 (FP.round F64 false (mkRat 16 1)) = FP.fin false 16
    decide +kernel⟩
  have eL : Val (ofInt (l : Int) : IEEE m) (l : ℚ) := by
    have := Val.ofInt (m := m) (n := (l : Int)) (by rw [abs_of_nonneg (by omega)]; omega)
    simpa using this
  have hbig : (1000 : ℚ) ≤ Val.big := by rw [Val.big_eq]; norm_num
  have eM : Val (ofInt (l : Int) *ᶠ toF (dlit 16 1) : IEEE m) ((l : ℚ) * 16) := by
    have := eL.mul e16 (by rw [abs_of_nonneg (by positivity)]; linarith)
    have e : rnd F32 ((l : ℚ) * 16) = l * 16 := by
      have := rnd_repr F32_p (repr_int (f := F32) F32_emin (n := (l : Int) * 16) (by
        rw [abs_of_nonneg (by omega)]
        have : F32.p = 24 := rfl
        rw [this]
        omega))
      push_cast at this
      exact this
    rwa [e] at this
  have hpos : 0 ≤ (l : ℚ) * 16 * q := by positivity
  have hle : (l : ℚ) * 16 * q ≤ 16 * (L : ℚ) * q := by nlinarith
  have eV := eM.mul hq (by rw [abs_of_nonneg hpos]; linarith)
  have hr0 : 0 ≤ rnd F32 ((l : ℚ) * 16 * q) := rnd_nonneg hpos
  have hr1 : rnd F32 ((l : ℚ) * 16 * q) ≤ 32 := by
    refine rnd_le_of_repr F32_p (repr_int (f := F32) F32_emin (n := 32) (by decide)) ?_
    linarith
  have hcast : (colQ q l : Int) = ⌊rnd F32 ((l : ℚ) * 16 * q)⌋ := Int.toNat_of_nonneg (Int.floor_nonneg.mpr hr0)
  constructor
  · rw [hcast]
    exact eV.toI32 hr0 (by linarith)
  · intro h
    have h2 : rnd F32 ((l : ℚ) * 16 * q) ≤ rnd F32 (79 / 10) := rnd_mono F32_p (by linarith)
    have h3 : rnd F32 (79 / 10) < 8 := by decide +kernel
    have : ⌊rnd F32 ((l : ℚ) * 16 * q)⌋ < 8 := by
      rw [Int.floor_lt]
      push_cast
      linarith
    omega

/-- Value of a 2450 table entry as `float`. -/
def f0Q (b0 : Nat) : ℚ := rnd F32 (rnd F64 (mkRat (AmbeW0table.getD b0 0) AmbeW0table_den))

theorem f0Q_check : ∀ b0 < 120, (0 < f0Q b0 ∧ f0Q b0 ≤ 1) ∧ 16 * (AmbeLtable.getD b0 0 : ℚ) * f0Q b0 ≤ 79 / 10 := by
  decide +kernel

theorem ltab_check : ∀ b0 < 120, 9 ≤ AmbeLtable.getD b0 0 ∧ AmbeLtable.getD b0 0 ≤ 56 := by decide +kernel
theorem w0tab_bound : ∀ b0 < 120, |mkRat (AmbeW0table.getD b0 0) AmbeW0table_den| ≤ 1 := by decide +kernel

theorem f0_val {b0 : Nat} (h : b0 < 120) : Val (ftab (AmbeW0table.getD b0 0) AmbeW0table_den : IEEE m) (f0Q b0) := by
  have hbig : (4 : ℚ) ≤ Val.big := by rw [Val.big_eq]; norm_num
  have h1 := w0tab_bound b0 h
  have v := Val.dlit (m := m) (n := AmbeW0table.getD b0 0) (d := AmbeW0table_den) (by linarith)
  have hr : |rnd F64 (mkRat (AmbeW0table.getD b0 0) AmbeW0table_den)| ≤ 1 :=
    abs_rnd_le F64_p (by simpa using repr_int (f := F64) (by decide) (n := 1) (by decide)) h1
  exact v.toF (by linarith)

theorem ofInt_toI32 {n : Int} (h0 : 0 ≤ n) (h1 : n ≤ 56) : toI32 (ofInt n : IEEE m) = .ok n := by
  have v := Val.ofInt (m := m) (n := n) (by rw [abs_of_nonneg h0]; omega)
  have := v.toI32 (by exact_mod_cast h0) (by
    have : (n : ℚ) ≤ 56 := by exact_mod_cast h1
    linarith)
  simpa using this

/-! ## AMBE 2450 -/

theorem vuv_shape : AmbeVuv.all (fun r => r.length == 8) = true := by decide +kernel
theorem vuvPlus_shape : AmbePlusVuv.all (fun r => r.length == 8) = true := by decide +kernel

/-- `(float)M_PI / 32` -/
theorem silence_f0 : Val (fpi /ᶠ lit 32 1 : IEEE m) (rnd F32 (rnd F32 (rnd F64 (mkRat 314159265358979323846 100000000000000000000)) / 32)) := by
  refine ⟨false, ?_⟩
  show FP.divR F32 (FP.conv F32 (FP.round F64 false (mkRat 314159265358979323846 100000000000000000000)))
    (FP.round F32 false (mkRat 32 1)) = _
  decide +kernel

/-- State and harmonics after the header; `col` gives the voicing table columns. -/
theorem ambe2450Header_ok {b0 : Nat} (h : b0 < 120 ∨ b0 = 124 ∨ b0 = 125) (cur : Parms (IEEE m)) :
    Ok (ambe2450Header b0 cur) fun h => ∃ (L : Nat) (q : ℚ), h.2.2 = (L : Int) ∧ (L : Int) = ambeHarmonics2450 b0 ∧
      9 ≤ L ∧ L ≤ 56 ∧ h.2.1.L = (L : Int) ∧ Val h.1 q ∧ 0 ≤ q ∧ 16 * (L : ℚ) * q ≤ 63 / 2 ∧
      (b0 < 120 → q = f0Q b0 ∧ 16 * (L : ℚ) * q ≤ 79 / 10) ∧ h.2.1.gamma = cur.gamma ∧
      (∀ l : Fin 57, h.2.1.Vl l = if (b0 = 124 ∨ b0 = 125) ∧ 1 ≤ l.val ∧ l.val ≤ L then 0 else cur.Vl l) ∧
      h.2.1 = { cur with w0 := h.2.1.w0, L := h.2.1.L, Vl := h.2.1.Vl } := by
  unfold ambe2450Header
  by_cases hs : b0 = 124 ∨ b0 = 125
  · rw [if_pos (by simpa using hs)]
    simp only []
    have hL : (if b0 = 124 then 15 else 14) ≤ 56 ∧ 9 ≤ (if b0 = 124 then 15 else 14) := by split <;> omega
    obtain ⟨V, e, hV⟩ := clearVl_ok hL.1 cur.Vl
    rw [e, ok_bind]
    refine Ok.ok ⟨_, _, rfl, ?_, hL.2, hL.1, rfl, silence_f0, ?_, ?_, fun h => ?_, rfl, ?_, rfl⟩
    · unfold ambeHarmonics2450
      rcases hs with rfl | rfl <;> simp
    · decide +kernel
    · rcases hs with rfl | rfl <;> decide +kernel
    · omega
    · intro l
      show V l = _
      rw [hV l]
      by_cases c : 1 ≤ l.val ∧ l.val ≤ if b0 = 124 then 15 else 14
      · rw [if_pos c, if_pos ⟨hs, c⟩]
      · rw [if_neg c, if_neg (fun x => c x.2)]
  · have hb : b0 < 120 := by omega
    rw [if_neg (by simpa using hs)]
    have l1 : AmbeW0table.length = 120 := by decide
    have l2 : AmbeLtable.length = 120 := by decide
    have hr := ltab_check b0 hb
    rw [tab_getD (x := 0) (by omega), ok_bind, tab_getD (x := 0) (by omega), ok_bind,
      ofInt_toI32 (by omega) (by omega), ok_bind]
    have hc := f0Q_check b0 hb
    have hcast : ((AmbeLtable.getD b0 0).toNat : ℚ) = (AmbeLtable.getD b0 0 : ℚ) := by
      have : ((AmbeLtable.getD b0 0).toNat : Int) = AmbeLtable.getD b0 0 := Int.toNat_of_nonneg (by omega)
      exact_mod_cast congrArg (Int.cast : Int → ℚ) this
    refine Ok.ok ⟨(AmbeLtable.getD b0 0).toNat, _, ?_, ?_, by omega, by omega, ?_, f0_val hb, hc.1.1.le, ?_, fun _ => ⟨rfl, ?_⟩, rfl, ?_, rfl⟩
    · show AmbeLtable.getD b0 0 = _
      omega
    · unfold ambeHarmonics2450
      rw [if_neg (by omega), if_neg (by omega)]
      omega
    · show AmbeLtable.getD b0 0 = _
      omega
    · rw [hcast]; linarith [hc.2]
    · rw [hcast]; exact hc.2
    · intro l
      rw [if_neg (fun x => hs x.1)]

theorem ambe2450Voice_split {lax : Bool} {d : Nat → Int} (hd : Bits 49 d) {b0 p : Nat} (h : b0 < 120 ∨ b0 = 124 ∨ b0 = 125)
    (cur prev : Parms (IEEE m)) (t : Tls (IEEE m)) (hpL : prev.L = (p : Int)) (hp : p ≤ 56) :
    (NoOver lax p (ambeHarmonics2450 b0).toNat → Ok (ambe2450Voice lax d b0 cur prev t) fun r =>
      r.bad = 0 ∧ r.cur.L = ambeHarmonics2450 b0 ∧ SameButAmps prev r.prev ∧
      ∀ l : Fin 57, r.cur.Vl l = if 1 ≤ l.val ∧ (l.val : Int) ≤ ambeHarmonics2450 b0 then
        (if b0 = 124 ∨ b0 = 125 then 0 else
          (((AmbeVuv.getD (fieldVal d [4, 5, 6, 7, 35]) []).getD (colQ (f0Q b0) l) 0 : Nat) : Int)) else cur.Vl l) ∧
    (lax = false → Kl p (ambeHarmonics2450 b0).toNat (ambeHarmonics2450 b0).toNat = 56 →
      ambe2450Voice lax d b0 cur prev t = .error .oobRead) := by
  unfold ambe2450Voice
  obtain ⟨hh, e, L, q, hL1, hL2, h9, h56, hcL, hq, hq0, hq1, hq2, hg, hV, hsame⟩ := ambe2450Header_ok h cur
  rw [e, ok_bind, orField_eq hd (by decide), ok_bind]
  have hLn : (ambeHarmonics2450 b0).toNat = L := by omega
  rw [hLn]
  simp only []
  rw [hL1]
  have hb1 : fieldVal d [4, 5, 6, 7, 35] < AmbeVuv.length :=
    lt_of_lt_of_eq (field_lt hd (by decide)) (by decide +kernel)
  obtain ⟨V, e, hVo⟩ := ambeVoicing_ok (t := AmbeVuv) (f0 := hh.1) (silence := b0 == 124 || b0 == 125) (col := colQ q) h56 vuv_shape hb1
    (fun l _ h2 => (col_eval hq hq0 h56 hq1 h2).1)
    (fun hs l _ h2 => (col_eval hq hq0 h56 hq1 h2).2 (hq2 (by simp at hs; omega)).2) hh.2.1.Vl
  rw [e, ok_bind]
  obtain ⟨f, e, hf⟩ := fields2450_ok hd
  rw [e, ok_bind]
  obtain ⟨k1, k2⟩ := ambeBody_split (lax := lax) shape2450 hf h9 h56 (ambeUnvc hh.2.1.w0) (ambe2450GetCache t).1
    { hh.2.1 with Vl := V } prev hpL hp
  refine ⟨fun hno => ?_, fun hl hover => ?_⟩
  · refine Ok.bind (k1 hno) fun r hr => Ok.ok ⟨rfl, ?_, hr.2, fun l => ?_⟩
    · obtain ⟨g, hg⟩ := hr.1
      show r.1.L = _
      rw [hg]
      show hh.2.1.L = _
      rw [hcL, hL2]
    · obtain ⟨g, hg⟩ := hr.1
      show r.1.Vl l = _
      rw [hg]
      show V l = _
      rw [hVo l, hV l, ← hL2]
      by_cases c : 1 ≤ l.val ∧ l.val ≤ L
      · rw [if_pos (c := 1 ≤ l.val ∧ (l.val : Int) ≤ (L : Int)) (by omega)]
        by_cases hs : b0 = 124 ∨ b0 = 125
        · rw [if_neg (by rcases hs with rfl | rfl <;> simp), if_pos ⟨hs, c⟩, if_pos hs]
        · rw [if_pos ⟨by simpa using hs, c⟩, if_neg hs, (hq2 (by omega)).1]
      · rw [if_neg (fun x => c x.2), if_neg (fun x => c x.2), if_neg (by omega)]
  · rw [k2 hl hover]
    rfl

theorem ambe2450_fund_lt {d : Nat → Int} (hd : Bits 49 d) : ambeFund2450 d < 128 := by
  have := field_lt (is := [0, 1, 2, 3, 37, 38, 39]) hd (by decide)
  simpa [ambeFund2450] using this

/-- Control flow of the 2450 decoder. -/
theorem decodeAmbe2450_eq {F : Type} [Arith F] {d : Nat → Int} (hd : Bits 49 d) (lax : Bool) (e : Int) (cur prev : Parms F) (t : Tls F) :
    (ToneSig d ∧ e < 6 → decodeAmbe2450 lax d e cur prev t = .ok ⟨7, { cur with repeat_ := prev.repeat_ }, prev, t⟩) ∧
    (¬ (ToneSig d ∧ e < 6) → (120 ≤ ambeFund2450 d ∧ ambeFund2450 d ≠ 124 ∧ ambeFund2450 d ≠ 125 →
        decodeAmbe2450 lax d e cur prev t = .ok ⟨2, { cur with repeat_ := prev.repeat_ }, prev, t⟩) ∧
      (ambeFund2450 d < 120 ∨ ambeFund2450 d = 124 ∨ ambeFund2450 d = 125 →
        decodeAmbe2450 lax d e cur prev t = ambe2450Voice lax d (ambeFund2450 d) { cur with repeat_ := prev.repeat_ } prev t)) := by
  obtain ⟨b, eb, hb⟩ := toneVerified_eq hd
  have hlt := ambe2450_fund_lt hd
  unfold decodeAmbe2450
  rw [eb, ok_bind, orField_eq hd (by decide), ok_bind]
  rw [show fieldVal d [0, 1, 2, 3, 37, 38, 39] = ambeFund2450 d from rfl]
  refine ⟨fun h => ?_, fun h => ⟨fun h2 => ?_, fun h2 => ?_⟩⟩
  · rw [if_pos]
    rw [hb.mpr h.1]; simpa using h.2
  · have hn : ¬ ((b && decide (e < 6)) = true) := by
      intro hx
      simp only [Bool.and_eq_true, decide_eq_true_eq] at hx
      exact h ⟨hb.mp hx.1, hx.2⟩
    rw [if_neg hn]
    by_cases c : ambeFund2450 d ≥ 120 ∧ ambeFund2450 d ≤ 123
    · rw [if_pos c]
    · rw [if_neg c, if_pos (by omega)]
  · have hn : ¬ ((b && decide (e < 6)) = true) := by
      intro hx
      simp only [Bool.and_eq_true, decide_eq_true_eq] at hx
      exact h ⟨hb.mp hx.1, hx.2⟩
    rw [if_neg hn, if_neg (by omega), if_neg (by omega)]

/-! ## AMBE 2400 -/

/-- `exp2f` is accurate to one per mille on the arguments that the decoder uses. -/
def Exp2Acc (m : Libm) : Prop :=
  ∀ (x : FP) (y : ℚ), Val x y → -8 ≤ y → y ≤ -4 → ∃ r : ℚ, Val (m.exp2 x) r ∧ |(r : ℝ) - (2 : ℝ) ^ (y : ℝ)| ≤ (2 : ℝ) ^ (y : ℝ) / 1000

/-- Argument of `exp2f`. -/
def f0Arg {F : Type} [Arith F] (b0 : Nat) : F :=
  neg (lit 4311767578125 1000000000000) -ᶠ (lit 21336 1000000 *ᶠ (ofInt (b0 : Int) +ᶠ lit 5 10))

theorem f0Arg_ieee (b0 : Nat) : (f0Arg b0 : IEEE m) = (f0Arg b0 : IEEE libm0) := rfl

theorem f0Of2400_eq (b0 : Nat) : (f0Of2400 b0 : IEEE m) = m.exp2 (f0Arg b0 : IEEE m) := rfl

/-- Bound of the argument such that `16 * L * 1.001 * 2^y ≤ 7.9`, checked with integers. -/
def argCheck (b0 : Nat) (x : FP) : Bool :=
  match x with
  | .fin _ y =>
    let k := (⌊-y * 1024⌋).toNat
    decide (-8 ≤ y) && decide (y ≤ -4) && decide ((16 * (AmbePlusLtable.getD b0 0).toNat * 1001) ^ 1024 ≤ 7900 ^ 1024 * 2 ^ k)
  | _ => false

theorem argCheck_all : ∀ b0 < 126, argCheck b0 (f0Arg b0 : IEEE libm0) = true := by decide +kernel

theorem ltabPlus_check : ∀ b0 < 126, 9 ≤ AmbePlusLtable.getD b0 0 ∧ AmbePlusLtable.getD b0 0 ≤ 56 := by decide +kernel

theorem pow_bound {y : ℚ} (hy : y ≤ -4) {L : Nat} (h : (16 * L * 1001) ^ 1024 ≤ 7900 ^ 1024 * 2 ^ (⌊-y * 1024⌋).toNat) :
    16 * (L : ℝ) * (1001 / 1000) * (2 : ℝ) ^ (y : ℝ) ≤ 79 / 10 := by
  set k := (⌊-y * 1024⌋).toNat with hk
  have h0 : (0 : ℚ) ≤ -y * 1024 := by linarith
  have hkz : (k : Int) = ⌊-y * 1024⌋ := Int.toNat_of_nonneg (Int.floor_nonneg.mpr h0)
  have hkq : (k : ℚ) ≤ -y * 1024 := by
    have := Int.floor_le (-y * 1024)
    rw [← hkz] at this
    exact_mod_cast this
  have hkr : (k : ℝ) ≤ -(y : ℝ) * 1024 := by exact_mod_cast hkq
  have hle : (2 : ℝ) ^ (y : ℝ) ≤ (2 : ℝ) ^ (-((k : ℝ) / 1024)) := by
    apply Real.rpow_le_rpow_of_exponent_le (by norm_num)
    linarith
  set z : ℝ := (2 : ℝ) ^ (-((k : ℝ) / 1024)) with hz
  have hz0 : 0 < z := Real.rpow_pos_of_pos (by norm_num) _
  have hzp : z ^ 1024 * 2 ^ k = 1 := by
    rw [hz, ← Real.rpow_natCast, ← Real.rpow_mul (by norm_num), ← Real.rpow_natCast, ← Real.rpow_add (by norm_num)]
    have : -((k : ℝ) / 1024) * ((1024 : ℕ) : ℝ) + (k : ℝ) = 0 := by push_cast; ring
    rw [this, Real.rpow_zero]
  have hR : (16 * (L : ℝ) * 1001) ^ 1024 ≤ 7900 ^ 1024 * 2 ^ k := by exact_mod_cast h
  have hpow : (16 * (L : ℝ) * 1001 * z) ^ 1024 ≤ (7900 : ℝ) ^ 1024 := by
    rw [mul_pow]
    calc (16 * (L : ℝ) * 1001) ^ 1024 * z ^ 1024 ≤ 7900 ^ 1024 * 2 ^ k * z ^ 1024 :=
          mul_le_mul_of_nonneg_right hR (by positivity)
      _ = 7900 ^ 1024 * (z ^ 1024 * 2 ^ k) := by ring
      _ = _ := by rw [hzp, mul_one]
  have hfin : 16 * (L : ℝ) * 1001 * z ≤ 7900 := le_of_pow_le_pow_left₀ (by norm_num) (by norm_num) hpow
  have h2 : 16 * (L : ℝ) * 1001 * (2 : ℝ) ^ (y : ℝ) ≤ 16 * (L : ℝ) * 1001 * z :=
    mul_le_mul_of_nonneg_left hle (by positivity)
  linarith

theorem f0_2400 (hm : Exp2Acc m) {b0 : Nat} (hb : b0 < 126) :
    ∃ q : ℚ, Val (f0Of2400 b0 : IEEE m) q ∧ 0 ≤ q ∧ 16 * ((AmbePlusLtable.getD b0 0).toNat : ℚ) * q ≤ 79 / 10 := by
  have hc := argCheck_all b0 hb
  rw [f0Of2400_eq, f0Arg_ieee (m := m)]
  generalize (f0Arg b0 : IEEE libm0) = x at hc
  match x, hc with
  | .fin s y, hc =>
    simp only [argCheck, Bool.and_eq_true, decide_eq_true_eq] at hc
    obtain ⟨⟨h1, h2⟩, h3⟩ := hc
    obtain ⟨r, hr, ha⟩ := hm (.fin s y) y ⟨s, rfl⟩ h1 h2
    have hp : 0 < (2 : ℝ) ^ (y : ℝ) := Real.rpow_pos_of_pos (by norm_num) _
    rw [abs_le] at ha
    have hb := pow_bound h2 h3
    have r0 : (0 : ℝ) ≤ r := by linarith
    have r1 : (r : ℝ) ≤ 1001 / 1000 * (2 : ℝ) ^ (y : ℝ) := by linarith
    refine ⟨r, hr, by exact_mod_cast r0, ?_⟩
    have : 16 * ((AmbePlusLtable.getD b0 0).toNat : ℝ) * (r : ℝ) ≤ 79 / 10 := by
      have := mul_le_mul_of_nonneg_left r1 (show (0 : ℝ) ≤ 16 * ((AmbePlusLtable.getD b0 0).toNat : ℝ) by positivity)
      linarith
    have h' : ((16 * ((AmbePlusLtable.getD b0 0).toNat : ℚ) * r : ℚ) : ℝ) ≤ ((79 / 10 : ℚ) : ℝ) := by
      push_cast; exact this
    exact_mod_cast h'

theorem ambe2400Voice_split (hm : Exp2Acc m) {lax : Bool} {d : Nat → Int} (hd : Bits 49 d) {b0 p : Nat} (h : b0 < 126)
    (cur prev : Parms (IEEE m)) (t : Tls (IEEE m)) (hpL : prev.L = (p : Int)) (hp : p ≤ 56) :
    (NoOver lax p (AmbePlusLtable.getD b0 0).toNat → Ok (ambe2400Voice lax d b0 cur prev t) fun r =>
      r.bad = 0 ∧ r.cur.L = AmbePlusLtable.getD b0 0 ∧ SameButAmps prev r.prev ∧
      ∀ l : Fin 57, r.cur.Vl l = cur.Vl l ∨ r.cur.Vl l = 0 ∨ r.cur.Vl l = 1) ∧
    (lax = false → Kl p (AmbePlusLtable.getD b0 0).toNat (AmbePlusLtable.getD b0 0).toNat = 56 →
      ambe2400Voice lax d b0 cur prev t = .error .oobRead) := by
  unfold ambe2400Voice
  have l2 : AmbePlusLtable.length = 126 := by decide +kernel
  have hr := ltabPlus_check b0 h
  simp only []
  rw [tab_getD (x := 0) (by omega), ok_bind, ofInt_toI32 (by omega) (by omega), ok_bind]
  obtain ⟨L, hL⟩ : ∃ L : Nat, AmbePlusLtable.getD b0 0 = (L : Int) := ⟨_, (Int.toNat_of_nonneg (by omega)).symm⟩
  obtain ⟨q, hq, hq0, hq1⟩ := f0_2400 hm h
  rw [hL] at hr ⊢
  rw [hL, Int.toNat_natCast] at hq1
  rw [Int.toNat_natCast, orField_eq hd (by decide), ok_bind]
  have hb1 : fieldVal d [38, 39, 40, 41] < AmbePlusVuv.length :=
    lt_of_lt_of_eq (field_lt hd (by decide)) (by decide +kernel)
  obtain ⟨V, e, hVo⟩ := ambeVoicing_ok (t := AmbePlusVuv) (f0 := (f0Of2400 b0 : IEEE m)) (silence := false) (col := colQ q) (by omega) vuvPlus_shape hb1
    (fun l _ h2 => (col_eval hq hq0 (by omega) (by linarith) h2).1)
    (fun hs l _ h2 => (col_eval hq hq0 (by omega) (by linarith) h2).2 hq1) cur.Vl
  rw [e, ok_bind]
  obtain ⟨f, e, hf⟩ := fields2400_ok hd
  rw [e, ok_bind]
  obtain ⟨k1, k2⟩ := ambeBody_split (lax := lax) (L := L) shape2400 hf (by omega) (by omega) (ambeUnvc (ambeW0 (f0Of2400 b0))) (ambe2400GetCache t).1
    { cur with w0 := ambeW0 (f0Of2400 b0), L := (L : Int), Vl := V } prev hpL hp
  refine ⟨fun hno => ?_, fun hl hover => ?_⟩
  · refine Ok.bind (k1 hno) fun r hr => Ok.ok ⟨rfl, ?_, hr.2, fun l => ?_⟩
    · obtain ⟨g, hg⟩ := hr.1
      show r.1.L = _
      rw [hg]
    · obtain ⟨g, hg⟩ := hr.1
      have e1 : r.1.Vl l = V l := by rw [hg]
      show r.1.Vl l = _ ∨ r.1.Vl l = 0 ∨ r.1.Vl l = 1
      rw [e1, hVo l]
      by_cases c : (false = false) ∧ 1 ≤ l.val ∧ l.val ≤ L
      · rw [if_pos c]
        right
        have hc8 : colQ q l < 8 := (col_eval hq hq0 (by omega) (by linarith) c.2.2).2 hq1
        have hall : ∀ b < AmbePlusVuv.length, ∀ c < 8, (AmbePlusVuv.getD b []).getD c 0 ≤ 1 := by decide +kernel
        have := hall _ hb1 _ hc8
        omega
      · rw [if_neg c]; exact .inl rfl
  · rw [k2 hl hover]
    rfl

theorem toneIndex2400_eq {d : Nat → Int} (hd : Bits 49 d) : toneIndex2400 d = .ok (toneIdx2400 d) := by
  unfold toneIndex2400 toneIdx2400 toneHigh2400
  rw [orField_eq hd (by decide), ok_bind]
  have h1 := field_lt (is := [6, 7, 8]) hd (by decide)
  have h2 := field_lt (is := [9, 42, 43, 10, 11]) hd (by decide)
  simp only [List.length_cons, List.length_nil] at h1 h2
  generalize fieldVal d [6, 7, 8] = a at *
  rw [tab_getD (x := 0) h1, ok_bind, tab_getD (x := 0) h1, ok_bind, tab_getD (x := 0) h1, ok_bind, orField_eq hd (by decide), ok_bind]
  generalize fieldVal d [9, 42, 43, 10, 11] = b at *
  congr 1
  have : ∀ a < 8, ∀ b < 32, (t7tab.getD a 0 <<< 7 ||| t6tab.getD a 0 <<< 6 ||| t5tab.getD a 0 <<< 5) ||| b =
      32 * [4, 0, 1, 2, 3, 7, 6, 5].getD a 0 + b := by decide +kernel
  exact this a h1 b h2

theorem decodeAmbe2400_eq {F : Type} [Arith F] {d : Nat → Int} (hd : Bits 49 d) (lax : Bool) (cur prev : Parms F) (t : Tls F) :
    (ambeFund2400 d < 126 → decodeAmbe2400 lax d cur prev t = ambe2400Voice lax d (ambeFund2400 d) { cur with repeat_ := prev.repeat_ } prev t) ∧
    (126 ≤ ambeFund2400 d →
      (5 ≤ toneIdx2400 d ∧ toneIdx2400 d ≤ 122 →
        decodeAmbe2400 lax d cur prev t = .ok ⟨toneIdx2400 d, { cur with repeat_ := prev.repeat_ }, prev, t⟩) ∧
      (128 ≤ toneIdx2400 d ∧ toneIdx2400 d ≤ 163 →
        decodeAmbe2400 lax d cur prev t = .ok ⟨3, { cur with repeat_ := prev.repeat_ }, prev, t⟩) ∧
      (¬ (5 ≤ toneIdx2400 d ∧ toneIdx2400 d ≤ 122) ∧ ¬ (128 ≤ toneIdx2400 d ∧ toneIdx2400 d ≤ 163) →
        Ok (decodeAmbe2400 lax d cur prev t) fun r => r.bad = 3 ∧ r.prev = prev ∧ r.tls = t ∧
          ∃ V, r.cur = { cur with repeat_ := prev.repeat_, w0 := toF ((ofInt 2 *ᵈ mpi) /ᵈ ofInt 32), L := 14, Vl := V } ∧
            ∀ l : Fin 57, V l = if 1 ≤ l.val ∧ l.val ≤ 14 then 0 else cur.Vl l)) := by
  unfold decodeAmbe2400
  rw [orField_eq hd (by decide), ok_bind]
  rw [show fieldVal d [0, 1, 2, 3, 4, 5, 48] = ambeFund2400 d from rfl]
  have hlt : ambeFund2400 d < 128 := by
    have := field_lt (is := [0, 1, 2, 3, 4, 5, 48]) hd (by decide)
    simpa [ambeFund2400] using this
  have hmask : ∀ b < 128, (b &&& 0x7E = 0x7E ↔ 126 ≤ b) := by decide +kernel
  simp only []
  refine ⟨fun h => ?_, fun h => ?_⟩
  · rw [if_neg]
    rw [hmask _ hlt]; omega
  · rw [if_pos ((hmask _ hlt).mpr h), toneIndex2400_eq hd, ok_bind]
    refine ⟨fun h1 => if_pos h1, fun h1 => ?_, fun h1 => ?_⟩
    · rw [if_neg (by omega), if_pos h1]
    · rw [if_neg h1.1, if_neg h1.2]
      refine Ok.bind (clearVl_ok (by decide) cur.Vl) fun V hV => Ok.ok ⟨rfl, rfl, rfl, V, rfl, hV⟩

end Verif.Model
