import Verif.Lemmas.Distinct
import Verif.Lemmas.AmbeTrack
import Verif.Lemmas.SpectrumAmbe
import Mathlib.Data.List.GetD

/-!
# Lemmas for C74, AMBE
-/

namespace Verif.Model
open Verif Verif.Spec Verif.Gen Verif.Num Arith

/-! ## Voicing -/

/-- The decisions in exact arithmetic. -/
theorem voicing_r {t : List (List Nat)} (ht : t.all (fun r => r.length == 8) = true) {b1 L : Nat} (hb : b1 < t.length) (hL : L ≤ 56) {f0 : ℝ}
    (h0 : 0 ≤ f0) (h1 : 16 * (L : ℝ) * f0 < 8) {Vl V : Arr 57 Int} (h : ambeVoicing t b1 f0 false (L : Int) Vl = .ok V) {l : Nat} (l1 : 1 ≤ l)
    (l2 : l ≤ L) : V.getD l 0 = (((t.getD b1 []).getD ⌊16 * (l : ℝ) * f0⌋.toNat 0 : Nat) : Int) := by
  have p := ambeVoicing_post _ _ _ _ hL _ _ h ⟨l, by omega⟩ l1 l2
  rw [if_neg (by decide)] at p
  obtain ⟨j, v, a1, a2, a3⟩ := p
  obtain ⟨c1, c2⟩ := col_lt_r h0 l2 h1
  have e := ok_inj (a1.symm.trans (col_eval_r h0 c1))
  subst e
  rw [tab2_ok 0 ht hb c2] at a2
  rw [Arr.getD_lt (show l < 57 by omega), a3, ← ok_inj a2]

/-- Steps of less than 1 miss no integer. -/
theorem band_hit {s : ℝ} (h0 : 0 < s) (h1 : s < 1) {L j : Nat} (hL : 1 ≤ L) (hj : (j : ℝ) ≤ L * s) :
    ∃ l : Nat, 1 ≤ l ∧ l ≤ L ∧ ⌊(l : ℝ) * s⌋.toNat = j := by
  rcases Nat.eq_zero_or_pos j with rfl | jp
  · refine ⟨1, le_rfl, hL, ?_⟩
    have : ⌊((1 : Nat) : ℝ) * s⌋ = 0 := by
      rw [Int.floor_eq_iff]
      constructor <;> push_cast <;> linarith
    rw [this]; rfl
  · have jr : (0 : ℝ) < j := by exact_mod_cast jp
    have c1 := Nat.le_ceil ((j : ℝ) / s)
    have c2 := Nat.ceil_lt_add_one (show 0 ≤ (j : ℝ) / s by positivity)
    refine ⟨⌈(j : ℝ) / s⌉₊, Nat.one_le_iff_ne_zero.2 (Nat.pos_iff_ne_zero.1 (Nat.ceil_pos.2 (by positivity))), ?_, ?_⟩
    · rw [Nat.ceil_le, div_le_iff₀ h0]
      exact hj
    · rw [div_le_iff₀ h0] at c1
      have c3 : ((⌈(j : ℝ) / s⌉₊ : Nat) : ℝ) * s < j + s := by
        have := mul_lt_mul_of_pos_right c2 h0
        rwa [add_mul, one_mul, div_mul_cancel₀ _ h0.ne'] at this
      have : ⌊((⌈(j : ℝ) / s⌉₊ : Nat) : ℝ) * s⌋ = (j : Int) := by
        rw [Int.floor_eq_iff]
        constructor
        · push_cast; exact c1
        · push_cast; linarith
      rw [this, Int.toNat_natCast]

theorem w0_step_check : ∀ b0 < 120, 0 < AmbeW0table.getD b0 0 ∧ 16 * AmbeW0table.getD b0 0 < (AmbeW0table_den : Int) := by decide +kernel

/-- Voicing of a 2450 voice frame: harmonic by harmonic, and band by band. -/
theorem vl2450 {lax : Bool} {d : Nat → Int} (hd : Bits 49 d) {b0 : Nat} (h : b0 < 120) {cur prev : Parms ℝ} {t : Tls ℝ} {r : DecodeRes ℝ}
    (hr : ambe2450Voice lax d b0 cur prev t = .ok r) (hrL : r.cur.L = AmbeLtable.getD b0 0) :
    (∀ l, 1 ≤ l → l ≤ r.cur.L.toNat → ∃ j, j ≤ topBand2450 b0 ∧ r.cur.Vl.getD l 0 =
      (((AmbeVuv.getD (fieldVal d [4, 5, 6, 7, 35]) []).getD j 0 : Nat) : Int) ∧
      j = ⌊16 * (l : ℝ) * ((AmbeW0table.getD b0 0 : ℝ) / AmbeW0table_den)⌋.toNat) ∧
    ∀ j, j ≤ topBand2450 b0 → ∃ l, 1 ≤ l ∧ l ≤ r.cur.L.toNat ∧ j = ⌊16 * (l : ℝ) * ((AmbeW0table.getD b0 0 : ℝ) / AmbeW0table_den)⌋.toNat := by
  obtain ⟨hh, f, b1, V, e1, _, ⟨e2, e3⟩, e4⟩ := ambe2450Voice_inv hr
  rw [orField_eq hd (by decide)] at e2
  have e2 := ok_inj e2
  subst e2
  have hs : (b0 == 124 || b0 == 125) = false := by
    rw [Bool.or_eq_false_iff, beq_eq_false_iff_ne, beq_eq_false_iff_ne]
    omega
  obtain ⟨_, k2⟩ := header_vl _ _ _ e1
  obtain ⟨s1, s2, s3, _⟩ := header2450_spectrum _ _ _ e1
  obtain ⟨eb, _⟩ := ambeBody_post _ _ _ _ _ _ _ _ _ e4
  dsimp only at eb
  have eV : r.cur.Vl = V := by rw [eb]
  have eL : hh.2.2 = AmbeLtable.getD b0 0 := by
    rw [← hrL, ← s3, eb]
  have hr9 := ltab_check b0 h
  obtain ⟨L, hL⟩ : ∃ L : Nat, AmbeLtable.getD b0 0 = (L : Int) := ⟨_, (Int.toNat_of_nonneg (by omega)).symm⟩
  rw [hs, eL, hL] at e3
  have eLn : r.cur.L.toNat = L := by rw [hrL, hL]; rfl
  obtain ⟨w1, w2⟩ := w0_step_check b0 h
  obtain ⟨f1, f2, f3⟩ := f0tab_r b0 h
  have ef : (ftab (AmbeW0table.getD b0 0) AmbeW0table_den : ℝ) = (AmbeW0table.getD b0 0 : ℝ) / (AmbeW0table_den : ℝ) :=
    ftab_r (b := 1000000000) (by rw [abs_of_nonneg f1]; exact f2) (by decide)
  have hden : (0 : ℝ) < (AmbeW0table_den : ℝ) := by exact_mod_cast (show 0 < AmbeW0table_den by decide)
  have w1' : (0 : ℝ) < (AmbeW0table.getD b0 0 : ℝ) := by exact_mod_cast w1
  have F0 : (0 : ℝ) < (AmbeW0table.getD b0 0 : ℝ) / (AmbeW0table_den : ℝ) := by positivity
  have F1 : 16 * (L : ℝ) * ((AmbeW0table.getD b0 0 : ℝ) / (AmbeW0table_den : ℝ)) < 8 := by
    have f3' : 16 * (AmbeLtable.getD b0 0 : ℝ) * (AmbeW0table.getD b0 0 : ℝ) < 8 * (AmbeW0table_den : ℝ) := by exact_mod_cast f3
    rw [hL] at f3'
    rw [← mul_div_assoc, div_lt_iff₀ hden]; exact_mod_cast f3'
  have F2 : 16 * ((AmbeW0table.getD b0 0 : ℝ) / (AmbeW0table_den : ℝ)) < 1 := by
    rw [← mul_div_assoc, div_lt_iff₀ hden, one_mul]
    exact_mod_cast w2
  have top : ((topBand2450 b0 : Nat) : Int) = ⌊16 * (L : ℝ) * ((AmbeW0table.getD b0 0 : ℝ) / (AmbeW0table_den : ℝ))⌋ := by
    have e : 16 * (L : ℝ) * ((AmbeW0table.getD b0 0 : ℝ) / AmbeW0table_den) =
        ((16 * (L : Int) * AmbeW0table.getD b0 0 : Int) : ℝ) / ((AmbeW0table_den : Nat) : ℝ) := by push_cast; ring
    rw [e, Int.floor_div_natCast, Int.floor_intCast]
    unfold topBand2450
    rw [hL]
    exact Int.toNat_of_nonneg (by positivity)
  have hb1 : fieldVal d [4, 5, 6, 7, 35] < AmbeVuv.length := lt_of_lt_of_eq (field_lt hd (by decide)) (by decide +kernel)
  rw [k2 hs, ef] at e3
  rw [eLn]
  refine ⟨fun l l1 l2 => ⟨_, ?_, by rw [eV]; exact voicing_r vuv_shape hb1 (by omega) F0.le F1 e3 l1 l2, rfl⟩, fun j hj => ?_⟩
  · have : ⌊16 * (l : ℝ) * ((AmbeW0table.getD b0 0 : ℝ) / AmbeW0table_den)⌋ ≤ ((topBand2450 b0 : Nat) : Int) := by
      rw [top]
      refine Int.floor_le_floor ?_
      have : (l : ℝ) ≤ L := by exact_mod_cast l2
      exact mul_le_mul_of_nonneg_right (by linarith) F0.le
    omega
  · obtain ⟨l, l1, l2, e⟩ := band_hit (s := 16 * ((AmbeW0table.getD b0 0 : ℝ) / (AmbeW0table_den : ℝ))) (L := L) (j := j) (by positivity) F2
      (by omega) (by
        have : (j : Int) ≤ ⌊16 * (L : ℝ) * ((AmbeW0table.getD b0 0 : ℝ) / (AmbeW0table_den : ℝ))⌋ := by rw [← top]; exact_mod_cast hj
        have := Int.le_floor.1 this
        push_cast at this
        linarith)
    refine ⟨l, l1, l2, ?_⟩
    rw [← e]
    congr 2
    ring

/-- A silence frame is unvoiced. -/
theorem vl2450_silence {lax : Bool} {d : Nat → Int} {b0 : Nat} (h : b0 = 124 ∨ b0 = 125) {cur prev : Parms ℝ} {t : Tls ℝ} {r : DecodeRes ℝ}
    (hr : ambe2450Voice lax d b0 cur prev t = .ok r) (h0 : 0 ≤ r.cur.L) (h56 : r.cur.L ≤ 56) {l : Nat} (l1 : 1 ≤ l) (l2 : l ≤ r.cur.L.toNat) :
    r.cur.Vl.getD l 0 = 0 := by
  obtain ⟨hh, f, b1, V, e1, _, ⟨_, e3⟩, e4⟩ := ambe2450Voice_inv hr
  have hs : (b0 == 124 || b0 == 125) = true := by
    rcases h with rfl | rfl <;> decide
  obtain ⟨k1, _⟩ := header_vl _ _ _ e1
  obtain ⟨s1, s2, s3, _⟩ := header2450_spectrum _ _ _ e1
  obtain ⟨eb, _⟩ := ambeBody_post _ _ _ _ _ _ _ _ _ e4
  dsimp only at eb
  have eV : r.cur.Vl = V := by rw [eb]
  have eL : hh.2.2 = r.cur.L := by
    rw [← s3, eb]
  obtain ⟨L, hL⟩ := Int.eq_ofNat_of_zero_le h0
  rw [eL, hL] at e3
  rw [hL, Int.toNat_natCast] at l2
  have p := ambeVoicing_post _ _ _ _ (by omega) _ _ e3 ⟨l, by omega⟩ l1 l2
  rw [hs, if_pos rfl] at p
  rw [eV, Arr.getD_lt (show l < 57 by omega), p]
  exact k1 hs _ l1 (by rw [eL, hL]; exact_mod_cast l2)

theorem top6_check : ∀ b0 < 126, (1 + ((lgs.getD 3 0 : ℚ) + 1) / 65536 : ℚ) ≤ 4 + (lgs.getD (AmbePlusLtable.getD b0 0).toNat 0 : ℚ) / 65536 + y2400 b0 := by
  decide +kernel

/-- The highest harmonic is in band 6 or 7. -/
theorem top6 {b0 : Nat} (h : b0 < 126) : 6 ≤ 16 * ((AmbePlusLtable.getD b0 0).toNat : ℝ) * (f0Of2400 b0 : ℝ) := by
  have hr := ltabPlus_check _ h
  rw [f0Of2400_r]
  obtain ⟨s1, _⟩ := lgs_spec (l := (AmbePlusLtable.getD b0 0).toNat) (by omega) (by omega)
  have c := top6_check b0 h
  have e16 : (16 : ℝ) = (2 : ℝ) ^ (4 : ℝ) := by norm_num
  refine lg3.2.trans (((Real.rpow_le_rpow_of_exponent_le (by norm_num) (Rat.cast_le.2 c))).trans ?_)
  generalize y2400 b0 = y
  generalize lgs.getD (AmbePlusLtable.getD b0 0).toNat 0 = M at s1
  have py : 0 < (2 : ℝ) ^ (y : ℝ) := by positivity
  push_cast at s1 ⊢
  rw [Real.rpow_add (by norm_num), Real.rpow_add (by norm_num), ← e16]
  exact mul_le_mul_of_nonneg_right (mul_le_mul_of_nonneg_left s1 (by norm_num)) py.le

/-- Voicing of a 2400 voice frame: harmonic by harmonic, and a harmonic in each of the lower seven bands. -/
theorem vl2400 {lax : Bool} {d : Nat → Int} (hd : Bits 49 d) {b0 : Nat} (h : b0 < 126) {cur prev : Parms ℝ} {t : Tls ℝ} {r : DecodeRes ℝ}
    (hr : ambe2400Voice lax d b0 cur prev t = .ok r) (hrL : r.cur.L = AmbePlusLtable.getD b0 0) :
    (∀ l, 1 ≤ l → l ≤ r.cur.L.toNat → r.cur.Vl.getD l 0 =
      (((AmbePlusVuv.getD (fieldVal d [38, 39, 40, 41]) []).getD ⌊16 * (l : ℝ) * f0Of2400 b0⌋.toNat 0 : Nat) : Int)) ∧
    ∀ j, j ≤ 6 → ∃ l, 1 ≤ l ∧ l ≤ r.cur.L.toNat ∧ j = ⌊16 * (l : ℝ) * f0Of2400 b0⌋.toNat := by
  obtain ⟨x, L0, f, b1, V, ex, eL, _, ⟨e2, e3⟩, e4⟩ := ambe2400Voice_inv hr
  rw [orField_eq hd (by decide)] at e2
  have e2 := ok_inj e2
  subst e2
  obtain ⟨eb, _⟩ := ambeBody_post _ _ _ _ _ _ _ _ _ e4
  dsimp only at eb
  have eV : r.cur.Vl = V := by rw [eb]
  have eL : L0 = AmbePlusLtable.getD b0 0 := by
    rw [← hrL, eb]
  have hr9 := ltabPlus_check _ h
  obtain ⟨L, hL⟩ : ∃ L : Nat, AmbePlusLtable.getD b0 0 = (L : Int) := ⟨_, (Int.toNat_of_nonneg (by omega)).symm⟩
  rw [eL, hL] at e3
  have eLn : r.cur.L.toNat = L := by rw [hrL, hL]; rfl
  have t6 := top6 h
  rw [hL, Int.toNat_natCast] at t6
  obtain ⟨y1, y2⟩ := y2400_check b0 h
  have hb := pow_bound y1 y2
  have F0 : 0 < (f0Of2400 b0 : ℝ) := by rw [f0Of2400_r]; positivity
  have F1 : 16 * (L : ℝ) * (f0Of2400 b0 : ℝ) < 8 := by
    rw [hL, Int.toNat_natCast] at hb
    rw [f0Of2400_r]
    have : 0 ≤ 16 * (L : ℝ) * (2 : ℝ) ^ ((y2400 b0 : ℚ) : ℝ) := by positivity
    linarith
  have F2 : 16 * (f0Of2400 b0 : ℝ) < 1 := by
    have l9 : (9 : ℝ) ≤ L := by exact_mod_cast (show 9 ≤ L by omega)
    have := mul_le_mul_of_nonneg_right l9 F0.le
    linarith
  have hb1 : fieldVal d [38, 39, 40, 41] < AmbePlusVuv.length := lt_of_lt_of_eq (field_lt hd (by decide)) (by decide +kernel)
  rw [eLn]
  refine ⟨fun l l1 l2 => by rw [eV]; exact voicing_r vuvPlus_shape hb1 (by omega) F0.le F1 e3 l1 l2, fun j hj => ?_⟩
  obtain ⟨l, l1, l2, e⟩ := band_hit (s := 16 * (f0Of2400 b0 : ℝ)) (L := L) (j := j) (by positivity) F2 (by omega) (by
    have : (j : ℝ) ≤ 6 := by exact_mod_cast hj
    linarith)
  refine ⟨l, l1, l2, ?_⟩
  rw [← e]
  congr 2
  ring

theorem vuvPlus_inj : ∀ a < 16, ∀ b < 16, (∀ j < 7, (AmbePlusVuv.getD a []).getD j 0 = (AmbePlusVuv.getD b []).getD j 0) → a = b := by
  decide +kernel

/-! ## Tables -/

theorem getD_inj {α : Type} {t : List α} (h : t.Nodup) {a b : Nat} (ha : a < t.length) (hb : b < t.length) {x : α} (e : t.getD a x = t.getD b x) :
    a = b := by
  rw [List.getD_eq_getElem _ _ ha, List.getD_eq_getElem _ _ hb] at e
  exact (h.getElem_inj_iff).1 e

theorem row_ext {r s : List Int} (hl : r.length = s.length) (h : ∀ j, j < r.length → r.getD j 0 = s.getD j 0) : r = s := by
  refine List.ext_getElem hl fun j h1 h2 => ?_
  have := h j h1
  rwa [List.getD_eq_getElem _ _ h1, List.getD_eq_getElem _ _ h2] at this

theorem entry_eq {t s : List (List Int)} {a b j : Nat} : entry t a j = entry s b j ↔ (t.getD a []).getD j 0 = (s.getD b []).getD j 0 := by
  unfold entry
  constructor
  · intro h
    have : (((t.getD a []).getD j 0 : Int) : ℝ) = (((s.getD b []).getD j 0 : Int) : ℝ) := by linarith
    exact_mod_cast this
  · intro h
    rw [h]

theorem w0_nodup : (AmbeW0table.take 120).Nodup := by decide +kernel
theorem dg_nodup : AmbeDg.Nodup := by decide +kernel
theorem prba24_nodup : AmbePRBA24.Nodup := by decide +kernel
theorem prba58_nodup : AmbePRBA58.Nodup := by decide +kernel
theorem prba58p_nodup : AmbePlusPRBA58.Nodup := by decide +kernel
theorem hoc5_nodup : (AmbeHOCb5.map fun r => r.getD 0 0).Nodup := by decide +kernel
theorem hoc6_nodup : (AmbeHOCb6.map fun r => r.getD 0 0).Nodup := by decide +kernel
theorem hoc7_nodup : (AmbeHOCb7.map fun r => r.getD 0 0).Nodup := by decide +kernel
theorem hoc8_nodup : (AmbeHOCb8.map fun r => r.getD 0 0).Nodup := by decide +kernel

/-- Rows that are determined by their entries. -/
theorem table_inj {t : List (List Int)} {n w : Nat} (h : t.Nodup) (hn : t.length = n) (hw : t.all (fun r => r.length == w) = true) {a b : Nat}
    (ha : a < n) (hb : b < n) (e : ∀ j, j < w → (t.getD a []).getD j 0 = (t.getD b []).getD j 0) : a = b := by
  subst hn
  refine getD_inj h ha hb (x := []) ?_
  have l : ∀ c < t.length, (t.getD c []).length = w := by
    intro c hc
    rw [List.getD_eq_getElem _ _ hc]
    simpa using List.all_eq_true.1 hw _ (List.getElem_mem hc)
  exact row_ext ((l a ha).trans (l b hb).symm) fun j hj => e j (by rwa [l a ha] at hj)

theorem first_inj {t : List (List Int)} {n : Nat} (h : (t.map fun r => r.getD 0 0).Nodup) (hn : t.length = n) {a b : Nat}
    (ha : a < n) (hb : b < n) (e : (t.getD a []).getD 0 0 = (t.getD b []).getD 0 0) : a = b := by
  subst hn
  refine getD_inj h (by simpa using ha) (by simpa using hb) (x := 0) ?_
  rw [List.getD_eq_getElem _ _ (by simpa using ha), List.getD_eq_getElem _ _ (by simpa using hb), List.getElem_map, List.getElem_map]
  rwa [List.getD_eq_getElem _ _ ha, List.getD_eq_getElem _ _ hb] at e

end Verif.Model
