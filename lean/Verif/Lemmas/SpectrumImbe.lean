import Verif.Lemmas.Dct
import Verif.Lemmas.PredictImbe
import Verif.Lemmas.RealTotal
import Verif.Lemmas.PredictHist
import Verif.Lemmas.SafeReal

/-!
# The residuals of an IMBE frame in exact arithmetic
-/

set_option linter.unusedSectionVars false

namespace Verif.Model
open Verif Verif.Gen Verif.Spec Verif.Num Arith

theorem src_eq {n r c : Nat} (hn : n < 48) (hr : r < 58) (hc : c < rowBits (n + 9) r) :
    src n r c = (boCodes (n + 9)).idxOf (code r c) + 6 := by
  have ex := dest_surj hn hr hc
  have hsrc : src n r c = ex.choose + 6 := by unfold src; rw [dif_pos ex]
  obtain ⟨h1, h2⟩ := ex.choose_spec
  have hg := boCodes_get hn h1
  rw [h2] at hg
  obtain ⟨hl, hg⟩ := List.getElem?_eq_some_iff.mp hg
  rw [hsrc, ← hg, List.Nodup.idxOf_getElem (boCodes_nodup hn)]

theorem rowVal_eq {n r : Nat} (hn : n < 48) (hr : r < 58) (d : Nat → Int) :
    rowVal n r (rowBits (n + 9) r) d = rowValue d (n + 9) r := by
  unfold rowVal rowValue rowPos
  congr 1
  refine List.map_congr_left fun c hc => ?_
  rw [List.mem_reverse, List.mem_range] at hc
  exact src_eq hn hr hc

theorem centre_eq (b n : Nat) : ((b : ℝ) - (2 : ℝ) ^ ((n : ℝ) - 1)) + 1 / 2 = centre n b := by
  have e : (2 : ℝ) ^ ((n : ℝ) - 1) = (2 : ℝ) ^ n / 2 := by
    rw [Real.rpow_sub (by norm_num), Real.rpow_one, Real.rpow_natCast]
  rw [e]
  unfold centre
  ring

theorem Holds.set {r N i : Nat} {a : Loc r ℝ} {g : Nat → ℝ} {v : ℝ}
    (h : ∀ j : Fin r, 1 ≤ j.val → j.val ≤ N → j.val ≠ i → a j = some (g j)) (hv : v = g i) : Holds N (Arr.set a i (some v)) g := by
  intro j h1 h2
  by_cases e : j.val = i
  · rw [Arr.set_same e, hv, e]
  · rw [Arr.set_ne e]; exact h j h1 h2 e

theorem imbeGm_r {n : Nat} {d : Nat → Int} {bb : Arr 58 (Loc 12 Int)} (hb : BB n d bb) (hn : n < 48)
    (hd : Bits 88 d) : Post (imbeGm bb (n : Int) : Exec (Loc 7 ℝ)) fun G => Holds 6 G (imbeGain d (n + 9)) := by
  unfold imbeGm
  obtain ⟨h2, h2'⟩ := bbField_ok (r := 2) (w := 6) hb hn hd (by decide) rfl
  have h2'' : bbField bb 2 6 = .ok (rowVal n 2 6 d) := h2
  have hs := ba_shape n hn
  have hrow2 : rowVal n 2 6 d = rowValue d (n + 9) 2 := rowVal_eq hn (by decide) d
  rw [h2'', ok_bind, tabI_getD (x := 0) (by rw [B2_length]; omega), ok_bind, show ((1 : Int)) = ((1 : Nat) : Int) from rfl,
    Loc.wr_nat (by decide), ok_bind, tabI_getD (x := []) (by rw [ba_length]; exact hn), ok_bind]
  have hB : |B2.getD (rowVal n 2 6 d) 0| ≤ 8700000 := by
    have h := B2_bnd
    rw [List.all_eq_true] at h
    simpa using h _ (getD_mem (x := 0) (show rowVal n 2 6 d < B2.length by rw [B2_length]; omega))
  refine (loopFT_post (lo := 2) (hi := 6) (fun i (G : Loc 7 ℝ) => Holds (i - 1) G (imbeGain d (n + 9))) (by omega) ?_ ?_).mono
    fun G h => by simpa using h
  · refine Holds.set (fun j c1 c2 c3 => absurd (show j.val = 1 by omega) c3) ?_
    rw [ftab_r hB (by decide), hrow2]
    unfold imbeGain
    rw [if_pos rfl]
  · intro i h1 h2 G hG
    have hlt : i - 2 < (ba.getD n []).length := by omega
    rw [tab_getD (x := []) hlt, ok_bind]
    have he := List.all_eq_true.mp hs.2 _ (getD_mem (x := []) hlt)
    simp only [Bool.and_eq_true, beq_iff_eq, List.any_eq_true, List.mem_range] at he
    obtain ⟨he1, b, hb1, hb2⟩ := he
    have hck := ba_bnd
    rw [List.all_eq_true] at hck
    have hck := hck _ (getD_mem (x := []) (show n < ba.length by rw [ba_length]; exact hn))
    rw [List.all_eq_true] at hck
    have hck := hck (i - 2) (by rw [List.mem_range]; omega)
    rw [show i - 2 + 2 = i by omega] at hck
    unfold baChk at hck
    rw [List.any_eq_true] at hck
    obtain ⟨nn, hnn, hck⟩ := hck
    simp only [Bool.and_eq_true, beq_iff_eq, decide_eq_true_eq] at hck
    obtain ⟨⟨_, c1⟩, c2⟩ := hck
    rw [tab_getD (x := 0) (by omega), ok_bind, tab_getD (x := 0) (by omega), ok_bind, hb2]
    simp only []
    rw [toI32_ftab_int_r hb1, ok_bind]
    have hw : b = rowBits (n + 9) (i + 1) := by
      unfold rowBits gainBits
      rw [if_neg (by omega), if_neg (by omega), if_neg (by omega), if_pos (by omega), Nat.add_sub_cancel,
        Nat.add_sub_cancel, hb2]
      simp [ba_den]
    obtain ⟨hf, _⟩ := bbField_ok (r := i + 1) hb hn hd (by omega) hw
    rw [show (i : Int) + ((1 : Nat) : Int) = ((i + 1 : Nat) : Int) by omega, hf, ok_bind, Loc.wr_nat (by omega)]
    refine Post.pure (Holds.set ?_ ?_)
    · intro j c1 c2 c3
      exact hG j c1 (by omega)
    have f0 : (ftab ((b : Int) * 1000000) ba_den : ℝ) = b := by
      have hb0 : (0 : Int) ≤ (b : Int) * 1000000 := by omega
      rw [ftab_r (b := 12000000) (by rw [abs_of_nonneg hb0]; omega) (by decide)]
      have : (ba_den : ℝ) = 1000000 := by norm_num [ba_den]
      rw [this]
      push_cast
      field_simp
    have hp : (1 : Int) ≤ 2 ^ nn := by exact_mod_cast (Nat.one_le_two_pow (n := nn))
    have hg : imbeGI.getD i 0 ≤ 100000 := by
      have : ∀ i < 7, imbeGI.getD i 0 ≤ 100000 := by decide
      exact this i (by omega)
    have f1 : (ftab (((ba.getD n []).getD (i - 2) []).getD 1 0) ba_den : ℝ) = (((ba.getD n []).getD (i - 2) []).getD 1 0 : ℝ) / ba_den :=
      ftab_r (b := 200000000) (by rw [abs_of_nonneg c1]; nlinarith) (by decide)
    rw [f0, f1, show ((1 : Nat) : Int) = 1 from rfl, lit1_r, lit5_r]
    have hgb : gainBits (n + 9) i = b := by
      rw [hw]
      unfold rowBits
      rw [if_neg (by omega), if_neg (by omega), if_neg (by omega), if_pos (by omega), Nat.add_sub_cancel]
    unfold imbeGain
    rw [if_neg (by omega), hgb, Nat.add_sub_cancel, ← rowVal_eq hn (by omega), ← hw, ← centre_eq]
    rfl

theorem blockLens_getD (n i : Nat) : (blockLens (n + 9)).getD i 0 = Jn n i := by
  unfold blockLens Jn
  rw [Nat.add_sub_cancel]

theorem blockLens_length {n : Nat} (hn : n < 48) : (blockLens (n + 9)).length = 6 := by
  unfold blockLens
  rw [Nat.add_sub_cancel]
  exact (ji_shape n hn).1

theorem len_eq (n i : Nat) : len (blockLens (n + 9)) i = Jn n (i - 1) := blockLens_getD n _

theorem take_sum {n : Nat} (hn : n < 48) : ∀ i, i ≤ 6 → ((blockLens (n + 9)).take i).sum = Jsum n i ∧
    (((blockLens (n + 9)).take i).map (· - 1)).sum = Jsum n i - i := by
  have hl := blockLens_length hn
  intro i
  induction i with
  | zero => intro _; simp [Jsum]
  | succ i ih =>
    intro h
    obtain ⟨h1, h2⟩ := ih (by omega)
    have hJ := (Jn_range hn (show i < 6 by omega)).1
    have hge := Jsum_ge hn i (by omega)
    have e : (blockLens (n + 9))[i]'(by omega) = Jn n i := by
      rw [← blockLens_getD, List.getD_eq_getElem?_getD, List.getElem?_eq_getElem (by omega)]; rfl
    rw [List.take_add_one, List.getElem?_eq_getElem (by omega)]
    simp only [Option.toList_some, List.sum_append, List.map_append, h1, h2, e, List.sum_cons, List.sum_nil, Jsum, List.map_cons,
      List.map_nil]
    omega

theorem before_eq {n i : Nat} (hn : n < 48) (h2 : i ≤ 6) : before (blockLens (n + 9)) i = Jsum n (i - 1) :=
  (take_sum hn (i - 1) (by omega)).1

theorem hocRow_eq {n i k : Nat} (hn : n < 48) (h2 : i ≤ 6) :
    hocRow (n + 9) i k = 8 + (Jsum n (i - 1) - (i - 1)) + (k - 2) := by
  unfold hocRow
  rw [(take_sum hn (i - 1) (by omega)).2]

/-- Coefficients of block `i`. -/
noncomputable def imbeCoef (d : Nat → Int) (L : Nat) (R : Nat → ℝ) (i k : Nat) : ℝ := if k = 1 then R i else imbeHigher d L i k

theorem Holds.set2 {a b : Nat} {C : Arr a (Loc b ℝ)} {i k i' J : Nat} {v : ℝ} {g : Nat → ℝ}
    (h : ∀ (hi : i' < a) (j : Fin b), 1 ≤ j.val → j.val ≤ J → ¬ (i' = i ∧ j.val = k) → C ⟨i', hi⟩ j = some (g j))
    (hv : i' = i → v = g k) : ∀ hi : i' < a, Holds J (Loc.set2 C i k v ⟨i', hi⟩) g := by
  intro hi j h1 h2
  by_cases e : i' = i ∧ j.val = k
  · rw [e.2, ← hv e.1]; exact if_pos e
  · rw [← h hi j h1 h2 e]; exact if_neg e

theorem imbeCik_r {n : Nat} {d : Nat → Int} {bb : Arr 58 (Loc 12 Int)} (hb : BB n d bb) (hn : n < 48)
    (hd : Bits 88 d) {Ri : Loc 7 ℝ} {R : Nat → ℝ} (hR : Holds 6 Ri R) :
    Post (imbeCik bb (n : Int) Ri) fun C => ∀ i, 1 ≤ i → i ≤ 6 → ∀ hi : i < 7,
      Holds (Jn n (i - 1)) (C ⟨i, hi⟩) (imbeCoef d (n + 9) R i) := by
  unfold imbeCik
  refine Post.bind (loopFT_post (lo := 1) (hi := 6) (fun i (s : Arr 7 (Loc 11 ℝ) × Int) =>
    (∀ i', 1 ≤ i' → i' < i → ∀ hi : i' < 7, Holds (Jn n (i' - 1)) (s.1 ⟨i', hi⟩) (imbeCoef d (n + 9) R i')) ∧
      s.2 = ((8 + (Jsum n (i - 1) - (i - 1)) : Nat) : Int))
    (by omega) ⟨fun i' _ _ => by omega, rfl⟩ ?_) fun s hs => Post.pure fun i h1 h2 => hs.1 i h1 (by omega)
  rintro i h1 h2 ⟨C, m⟩ ⟨i1, i2⟩
  dsimp only at i1 i2 ⊢
  have hr : Loc.rd Ri (i : Int) = .ok (R i) := Loc.rd_nat (by omega) (hR ⟨i, by omega⟩ h1 h2)
  rw [hr, ok_bind, show ((1 : Int)) = ((1 : Nat) : Int) from rfl, Loc.wr2_nat (by omega) (by decide), ok_bind,
    show ((1 : Nat) : Int) = 1 from rfl, tab2_Ji hn h1 h2, ok_bind]
  have hJ := Jn_range hn (show i - 1 < 6 by omega)
  have hm := Jsum_mono hn (6 - i) i (by omega)
  have hge := Jsum_ge hn (i - 1) (by omega)
  have he : Jsum n i = Jsum n (i - 1) + Jn n (i - 1) := by
    obtain ⟨j, rfl⟩ : ∃ j, i = j + 1 := ⟨i - 1, by omega⟩
    rfl
  have hhs := hoba_shape n hn
  refine (loopFT_post (lo := 2) (hi := Jn n (i - 1)) (fun k (s : Arr 7 (Loc 11 ℝ) × Int) =>
    (∀ i', 1 ≤ i' → i' < i → ∀ hi : i' < 7, Holds (Jn n (i' - 1)) (s.1 ⟨i', hi⟩) (imbeCoef d (n + 9) R i')) ∧
    (∀ hi : i < 7, Holds (k - 1) (s.1 ⟨i, hi⟩) (imbeCoef d (n + 9) R i)) ∧
    s.2 = ((8 + (Jsum n (i - 1) - (i - 1)) + (k - 2) : Nat) : Int)) (by omega) ⟨?_, ?_, ?_⟩ ?_).mono ?_
  · intro i' a b
    exact Holds.set2 (fun hi j c1 c2 _ => i1 i' a b hi j c1 c2) fun e => by omega
  · refine Holds.set2 (fun hi j c1 c2 c3 => absurd ⟨rfl, by omega⟩ c3) fun _ => ?_
    unfold imbeCoef
    rw [if_pos rfl]
  · exact i2
  · rintro k k1 k2 ⟨C', m'⟩ ⟨j1, j2, j3⟩
    dsimp only at j1 j2 j3 ⊢
    have hhr := hocRow_eq (k := k) hn h2
    set mm : Nat := 8 + (Jsum n (i - 1) - (i - 1)) + (k - 2) with hmm
    have hmb : mm - 8 < 50 ∧ 8 ≤ mm ∧ mm ≤ n + 10 := by
      clear_value mm
      have := Jsum_ge hn i h2
      omega
    have hrow := hocBits_eq (n := n) hmb.2.1 hmb.2.2
    subst j3
    have ht : tab2 hoba (n : Int) ((mm : Int) - 8) = .ok (rowBits (n + 9) mm) := by
      unfold tab2
      rw [tabI_getD (x := []) (by rw [hoba_length]; exact hn), ok_bind, hrow,
        show (mm : Int) - 8 = ((mm - 8 : Nat) : Int) by omega]
      exact tabI_getD (by rw [hhs.1]; exact hmb.1)
    rw [ht, ok_bind]
    have hle : rowBits (n + 9) mm ≤ 11 := by
      rw [hrow]
      have := List.all_eq_true.mp hhs.2 _ (getD_mem (x := 0) (show mm - 8 < (hoba.getD n []).length by rw [hhs.1]; exact hmb.1))
      simpa using this
    have fin : ∀ v : ℝ, v = imbeHigher d (n + 9) i k →
        Post (do .ok (← Loc.wr2 C' (i : Int) (k : Int) v, (mm : Int) + 1) : Exec (Arr 7 (Loc 11 ℝ) × Int))
        fun s => (∀ i', 1 ≤ i' → i' < i → ∀ hi : i' < 7, Holds (Jn n (i' - 1)) (s.1 ⟨i', hi⟩) (imbeCoef d (n + 9) R i')) ∧
          (∀ hi : i < 7, Holds (k + 1 - 1) (s.1 ⟨i, hi⟩) (imbeCoef d (n + 9) R i)) ∧
          s.2 = ((8 + (Jsum n (i - 1) - (i - 1)) + (k + 1 - 2) : Nat) : Int) := by
      intro v hv
      rw [Loc.wr2_nat (by omega) (by omega), ok_bind]
      refine Post.pure ⟨?_, ?_, ?_⟩
      · intro i' a b
        exact Holds.set2 (fun hi j c1 c2 _ => j1 i' a b hi j c1 c2) fun e => by omega
      · refine Holds.set2 (fun hi j c1 c2 c3 => j2 hi j c1 ?_) fun _ => ?_
        · have : j.val ≠ k := fun e => c3 ⟨rfl, e⟩
          omega
        · unfold imbeCoef
          rw [if_neg (by omega), hv]
      · show (mm : Int) + 1 = ((_ : Nat) : Int)
        clear_value mm
        omega
    refine Post.ite (fun h0 => fin _ ?_) (fun h0 => ?_)
    · unfold imbeHigher
      rw [hhr, if_pos h0, RealArith.fi_r]
      norm_num
    obtain ⟨hbf, _⟩ := bbField_ok (w := rowBits (n + 9) mm) hb hn hd (show mm < 58 by clear_value mm; omega) rfl
    rw [hbf, ok_bind, show ((rowBits (n + 9) mm : Nat) : Int) - 1 = ((rowBits (n + 9) mm - 1 : Nat) : Int) by omega,
      tabI_getD (x := 0) (by rw [quantstep_length]; omega), ok_bind,
      show (k : Int) - 2 = ((k - 2 : Nat) : Int) by omega,
      tabI_getD (x := 0) (by rw [standdev_length]; omega), ok_bind]
    refine fin _ ?_
    have hqb : |quantstep.getD (rowBits (n + 9) mm - 1) 0| ≤ 1000 := by
      have : (quantstep.all fun x => decide (|x| ≤ 1000)) = true := by decide
      rw [List.all_eq_true] at this
      simpa using this _ (getD_mem (x := 0) (show rowBits (n + 9) mm - 1 < quantstep.length by rw [quantstep_length]; omega))
    have hsb : |standdev.getD (k - 2) 0| ≤ 1000 := by
      have : (standdev.all fun x => decide (|x| ≤ 1000)) = true := by decide
      rw [List.all_eq_true] at this
      simpa using this _ (getD_mem (x := 0) (show k - 2 < standdev.length by rw [standdev_length]; omega))
    rw [ftab_r hqb (by decide), ftab_r hsb (by decide), lit1_r, lit5_r]
    unfold imbeHigher
    rw [hhr, if_neg h0, ← rowVal_eq hn (show mm < 58 by clear_value mm; omega), ← centre_eq]
    show _ * _ * ((((_ : Int) : ℝ)) - (2 : ℝ) ^ (((_ : Int) : ℝ) - 1) + 1 / 2) = _
    push_cast
    rfl
  · rintro ⟨C', m'⟩ ⟨j1, j2, j3⟩
    dsimp only at j1 j2 j3 ⊢
    refine ⟨fun i' a b => ?_, ?_⟩
    · by_cases e : i' = i
      · subst e; simpa using j2
      · exact j1 i' a (by omega)
    · rw [j3, Nat.add_sub_cancel, he]
      congr 1
      omega

/-- The blocks that have been transformed. -/
theorem imbeTl_r {n : Nat} (hn : n < 48) {C : Arr 7 (Loc 11 ℝ)} {g : Nat → Nat → ℝ}
    (hC : ∀ i, 1 ≤ i → i ≤ 6 → ∀ hi : i < 7, Holds (Jn n (i - 1)) (C ⟨i, hi⟩) (g i)) :
    Post (imbeTl (fillCache 7 11) (n : Int) C) fun T => ∀ i, 1 ≤ i → i ≤ 6 → ∀ j, 1 ≤ j → j ≤ Jn n (i - 1) →
      T.getD (Jsum n (i - 1) + j) 0 = idct (Jn n (i - 1)) (g i) j := by
  unfold imbeTl
  refine Post.bind (loopFT_post (lo := 1) (hi := 6) (fun i (s : Arr 57 ℝ × Int) => s.2 = ((Jsum n (i - 1) + 1 : Nat) : Int) ∧
      ∀ i', 1 ≤ i' → i' < i → ∀ j, 1 ≤ j → j ≤ Jn n (i' - 1) →
        s.1.getD (Jsum n (i' - 1) + j) 0 = idct (Jn n (i' - 1)) (g i') j)
    (by omega) ⟨rfl, fun i' h1 h2 => by omega⟩ ?_) fun s hs => Post.pure fun i h1 h2 => hs.2 i h1 (by omega)
  intro i h1 h2 s hs
  rw [tab2_Ji hn h1 h2, ok_bind]
  have hm := Jsum_mono hn (6 - i) i (by omega)
  have he : Jsum n i = Jsum n (i - 1) + Jn n (i - 1) := by
    obtain ⟨j, rfl⟩ : ∃ j, i = j + 1 := ⟨i - 1, by omega⟩
    rfl
  refine (idctBlock_r (hC i h1 h2) hs.1).mono fun s' hs' => ⟨?_, ?_⟩
  · rw [hs'.1, Nat.add_sub_cancel, he]
  · intro i' a b j j1 j2
    have mono : ∀ p q : Nat, p ≤ q → Jsum n p ≤ Jsum n q := by
      intro p q hpq
      induction hpq with
      | refl => exact le_rfl
      | step _ ih => simp only [Jsum]; omega
    by_cases e : i' = i
    · subst e
      rw [Arr.getD_lt (by omega), hs'.2, if_pos (by dsimp only; omega)]
      dsimp only
      rw [Nat.add_sub_cancel_left]
    · have h3 := mono i' (i - 1) (by omega)
      have h4 : Jsum n i' = Jsum n (i' - 1) + Jn n (i' - 1) := by
        obtain ⟨j, rfl⟩ : ∃ j, i' = j + 1 := ⟨i' - 1, by omega⟩
        rfl
      have := hs.2 i' a (by omega) j j1 j2
      rw [Arr.getD_lt (by omega)] at this ⊢
      rw [hs'.2, if_neg (by dsimp only; omega)]
      exact this

theorem stretched_congr {a b : Nat → ℝ} {M L l : Nat} (h : ∀ i, i ≤ M → a i = b i) (hL : 1 ≤ L) (hl : l ≤ L) :
    stretched a M L l = stretched b M L l := by
  obtain ⟨h1, h2⟩ := posR_range (p := (M : Int)) (L := (L : Int)) (l := l) (by omega) (by omega) (by omega)
  have e : posR (M : Int) (L : Int) l = (M : ℝ) / L * l := by unfold posR; push_cast; rfl
  rw [e] at h1 h2
  unfold stretched interp
  have f0 : 0 ≤ ⌊(M : ℝ) / L * l⌋ := Int.floor_nonneg.mpr h1
  have f1 : ⌊(M : ℝ) / L * l⌋ ≤ M := by
    have : (⌊(M : ℝ) / L * l⌋ : ℝ) ≤ ((M : Int) : ℝ) := (Int.floor_le _).trans h2
    exact_mod_cast this
  rw [h _ (show ⌊(M : ℝ) / L * l⌋.toNat ≤ M by omega)]
  by_cases c : ⌊(M : ℝ) / L * l⌋ = M
  · have : Int.fract ((M : ℝ) / L * l) = 0 := by
      have h3 := Int.floor_le ((M : ℝ) / L * l)
      rw [c] at h3
      have h4 : (M : ℝ) / L * l = ((M : Int) : ℝ) := le_antisymm h2 h3
      rw [h4, Int.fract_intCast]
    rw [this, zero_mul, zero_mul]
  · rw [h _ (show ⌊(M : ℝ) / L * l⌋.toNat + 1 ≤ M by omega)]

theorem predQ_stretched {lax : Bool} {q : Parms ℝ} {M L l : Nat} (hq : q.L = (M : Int)) (hM : M ≤ 56) (hL : 1 ≤ L) (hl : l ≤ L) :
    predQ lax (L : Int) q l = stretched (logAmp q) M L l := by
  obtain ⟨h1, h2⟩ := posR_range (p := (M : Int)) (L := (L : Int)) (l := l) (by omega) (by omega) (by omega)
  obtain ⟨i1, i2, i3, i4⟩ := posI_range (p := (M : Int)) (L := (L : Int)) (l := l) (by omega) (by omega) (by omega)
  have e : posR (M : Int) (L : Int) l = (M : ℝ) / L * l := by unfold posR; push_cast; rfl
  have ei : posI (M : Int) (L : Int) l = ⌊(M : ℝ) / L * l⌋ := by unfold posI; rw [if_pos h1, e]
  unfold predQ stretched interp
  rw [hq, ei]
  rw [ei] at i1 i2 i3 i4
  rw [e] at h1 h2 i3 i4 ⊢
  rw [lgAt_fin lax q i1 (by omega)]
  have ef : (M : ℝ) / L * l - (⌊(M : ℝ) / L * l⌋ : ℝ) = Int.fract ((M : ℝ) / L * l) := rfl
  rw [ef]
  have ea : q.log2Ml ⟨⌊(M : ℝ) / L * l⌋.toNat, by omega⟩ = logAmp q ⌊(M : ℝ) / L * l⌋.toNat := by
    unfold logAmp
    rw [Arr.getD_lt (by omega)]
  rw [ea]
  by_cases c : ⌊(M : ℝ) / L * l⌋ = M
  · have : Int.fract ((M : ℝ) / L * l) = 0 := by
      rw [c] at i3
      have h4 : (M : ℝ) / L * l = ((M : Int) : ℝ) := le_antisymm h2 i3
      rw [h4, Int.fract_intCast]
    rw [this, zero_mul, zero_mul]
  · rw [lgAt_fin lax q (i := ⌊(M : ℝ) / L * l⌋ + 1) (by omega) (by omega)]
    congr 2
    unfold logAmp
    rw [Arr.getD_lt (by omega)]
    congr 1
    apply Fin.ext
    show (⌊(M : ℝ) / L * l⌋ + 1).toNat = ⌊(M : ℝ) / L * l⌋.toNat + 1
    omega

theorem prediction_eq {lax : Bool} {q : Parms ℝ} {a : Nat → ℝ} {M L l : Nat} (hq : q.L = (M : Int)) (hM : M ≤ 56) (hL : 1 ≤ L)
    (ha : ∀ i, i ≤ M → logAmp q i = a i) (rho : ℝ) (hl : l ≤ L) :
    rho * predQ lax (L : Int) q l - rho / ((L : Int) : ℝ) * (∑ k ∈ Finset.Icc 1 L, predQ lax (L : Int) q k) =
      prediction rho a M L l := by
  have e : ∀ k, k ≤ L → predQ lax (L : Int) q k = stretched a M L k := fun k hk =>
    (predQ_stretched hq hM hL hk).trans (stretched_congr ha hL hk)
  unfold prediction
  rw [e l hl, Finset.sum_congr rfl fun k hk => e k (Finset.mem_Icc.mp hk).2]
  push_cast
  ring

theorem imbeRho_spec (L : Nat) : (imbeRho (L : Int) : ℝ) = imbeRhoSpec L := by
  unfold imbeRho imbeRhoSpec
  by_cases h1 : L ≤ 15
  · rw [if_pos (by omega), if_pos h1, RealArith.toF_r, RealArith.dlit_r _ _ (by decide)]
    norm_num
  · rw [if_neg (by omega), if_neg h1]
    by_cases h2 : L ≤ 24
    · rw [if_pos (by omega), if_pos h2, RealArith.toF_r, RealArith.dsub_r, RealArith.dmul_r, RealArith.dlit_r _ _ (by decide),
        RealArith.dlit_r _ _ (by decide), RealArith.ofInt_r]
      push_cast
      norm_num
    · rw [if_neg (by omega), if_neg h2, RealArith.toF_r, RealArith.dlit_r _ _ (by decide)]
      norm_num

theorem imbeCache_fill {E : Env ℝ} {t : Tls ℝ} (h : CacheOk E t) : (imbeGetCache t).1 = fillCache 7 11 := by
  unfold imbeGetCache
  cases h1 : t.imbeCache with
  | some c => exact h.1 c h1
  | none => rfl

/-- The residual of an IMBE frame, block by block. -/
theorem imbeDecodeBody_blocks {lax : Bool} {n M : Nat} {d : Nat → Int} {cur prev : Parms ℝ} {t : Tls ℝ} {K : Int} (hn : n < 48)
    (hd : Bits 88 d) (ht : (imbeGetCache t).1 = fillCache 7 11) (hM : prev.L = (M : Int)) (hM' : M ≤ 56) :
    Post (imbeDecodeBody lax d ((n + 9 : Nat) : Int) K cur prev t) fun r =>
      (∀ i, 1 ≤ i → i ≤ 6 → ∀ j, 1 ≤ j → j ≤ Jn n (i - 1) →
        logAmp r.cur (Jsum n (i - 1) + j) - prediction (imbeRhoSpec (n + 9)) (logAmp prev) M (n + 9) (Jsum n (i - 1) + j) =
          idct (Jn n (i - 1)) (imbeCoef d (n + 9) (idct 6 (imbeGain d (n + 9))) i) j) ∧
      (∀ l : Fin 57, 1 ≤ l.val → l.val ≤ n + 9 → r.cur.Ml l = (2 : ℝ) ^ (r.cur.log2Ml l)) ∧
      r.cur.w0 = cur.w0 ∧ r.cur.L = cur.L := by
  unfold imbeDecodeBody
  rw [show (((n + 9 : Nat) : Int) - 9) = (n : Int) by omega]
  dsimp only
  rw [ht]
  refine Post.bind (imbeReadBits_ok hn d).post fun bb hbb => Post.bind Post.true fun V _ => ?_
  refine Post.bind (imbeGm_r hbb hn hd) fun G hG => ?_
  refine Post.bind (idctRi_r rfl hG) fun R hR => ?_
  refine Post.bind (imbeCik_r hbb hn hd hR) fun C hC => ?_
  refine Post.bind (imbeTl_r hn hC) fun T hT => ?_
  refine Post.bind (P := fun q => q.L = (M : Int) ∧ ∀ i, i ≤ M → logAmp q i = logAmp prev i) ?_ fun q hq => ?_
  · intro q hq
    have h1 := extendPrev_post _ _ q hq
    have h2 := extendPrev_keep _ _ q hq
    have h3 := extendPrev_zero (by omega) q hq
    refine ⟨by rw [h1]; exact hM, fun i hi => ?_⟩
    unfold logAmp
    rw [Arr.getD_lt (by omega), Arr.getD_lt (by omega)]
    by_cases c : i = 0
    · subst c; exact h3
    · exact (h2 ⟨i, by omega⟩ (by show 1 ≤ i; omega) (by rw [hM]; exact_mod_cast hi)).2
  refine Post.bind (predict1_r lax _ _) fun s hs => ?_
  refine Post.bind (predict2_r lax _ _ s.1 s.2.1 hs.1 _ _ _ _) fun c hc => Post.pure ?_
  obtain ⟨c1, c2, c3⟩ := hc
  rw [Int.toNat_natCast] at c1 hs
  refine ⟨fun i h1 h2 j j1 j2 => ?_, fun l l1 l2 => (c1 l l1 l2).2, by rw [c3], by rw [c3]⟩
  have hm := Jsum_mono hn (6 - i) i (by omega)
  have he : Jsum n i = Jsum n (i - 1) + Jn n (i - 1) := by
    obtain ⟨j, rfl⟩ : ∃ j, i = j + 1 := ⟨i - 1, by omega⟩
    rfl
  have hlt : Jsum n (i - 1) + j < 57 := by omega
  rw [← hT i h1 h2 j j1 j2, Arr.getD_lt hlt]
  show logAmp c _ - _ = _
  unfold logAmp
  rw [Arr.getD_lt hlt, (c1 ⟨_, hlt⟩ (by show 1 ≤ Jsum n (i - 1) + j; omega) (by show Jsum n (i - 1) + j ≤ n + 9; omega)).1, hs.2,
    imbeRho_spec]
  have hp := prediction_eq (lax := lax) hq.1 hM' (show 1 ≤ n + 9 by omega) hq.2 (imbeRhoSpec (n + 9))
    (show Jsum n (i - 1) + j ≤ n + 9 by omega)
  change _ = prediction (imbeRhoSpec (n + 9)) (fun l => prev.log2Ml.getD l 0) M (n + 9) (Jsum n (i - 1) + j) at hp
  show T _ + _ * _ - (imbeRhoSpec (n + 9) / (((n + 9 : Nat) : Int) : ℝ)) * _ - prediction (imbeRhoSpec (n + 9)) (fun l => prev.log2Ml.getD l 0) M (n + 9) (Jsum n (i - 1) + j) = _
  rw [← hp]
  ring

end Verif.Model
