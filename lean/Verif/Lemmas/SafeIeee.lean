import Verif.Lemmas.SafeStep

/-!
# The IEEE arithmetic provides what the process functions need
-/

namespace Verif.Model
open Verif Verif.Gen Verif.Spec Verif.Num Arith
set_option linter.unusedSectionVars false

variable {m : Libm}

/-! ## Bounds of the fundamental -/

theorem imbeW0_bnd0 : ∀ b0 < 208, bndB (imbeW0 b0 : IEEE libm0) 1 = true := by decide +kernel
theorem imbeW0_bnd {b0 : Nat} (h : b0 < 208) : Bnd (imbeW0 b0 : IEEE m) 32768 := by
  have e : (imbeW0 b0 : IEEE m) = (imbeW0 b0 : IEEE libm0) := rfl
  rw [e]
  exact (Bnd.of (imbeW0_bnd0 b0 h)).mono (by norm_num)

theorem ambeW0_bnd0 : ∀ b0 < 120, bndB (ambeW0 (ftab (AmbeW0table.getD b0 0) AmbeW0table_den) : IEEE libm0) 1 = true := by
  decide +kernel
theorem ambeW0_ieee (x : FP) : ambeW0 (F := IEEE m) x = ambeW0 (F := IEEE libm0) x := rfl
theorem ambeW0_tab_ieee (n : Int) (d : Nat) :
    (ambeW0 (ftab n d : IEEE m) : IEEE m) = (ambeW0 (ftab n d : IEEE libm0) : IEEE libm0) := rfl
theorem ambeW0_bnd {b0 : Nat} (h : b0 < 120) :
    Bnd (ambeW0 (ftab (AmbeW0table.getD b0 0) AmbeW0table_den) : IEEE m) 32768 := by
  have e : (ambeW0 (ftab (AmbeW0table.getD b0 0) AmbeW0table_den) : IEEE m) =
      (ambeW0 (ftab (AmbeW0table.getD b0 0) AmbeW0table_den) : IEEE libm0) := ambeW0_tab_ieee _ _
  have := (Bnd.of (ambeW0_bnd0 b0 h)).mono (show (1 : ℚ) ≤ 32768 by norm_num)
  exact e ▸ this

theorem silW0_bnd0 : bndB ((fpi /ᶠ lit 32 1) *ᶠ toF (dlit 2 1 *ᵈ mpi) : IEEE libm0) 1 = true := by decide +kernel
theorem silW0_bnd : Bnd ((fpi /ᶠ lit 32 1) *ᶠ toF (dlit 2 1 *ᵈ mpi) : IEEE m) 32768 :=
  (Bnd.of (x := ((fpi /ᶠ lit 32 1) *ᶠ toF (dlit 2 1 *ᵈ mpi) : IEEE m)) silW0_bnd0).mono (by norm_num)

theorem zero_bnd0 : bndB (lit 0 1 : IEEE libm0) 1 = true := by decide +kernel
theorem zero_bnd : Bnd (lit 0 1 : IEEE m) 32768 := (Bnd.of (x := (lit 0 1 : IEEE m)) zero_bnd0).mono (by norm_num)

theorem ambeInitW0_bnd0 : bndB (toF ((mpi /ᵈ dlit 32 1) *ᵈ (dlit 2 1 *ᵈ mpi)) : IEEE libm0) 1 = true := by decide +kernel
theorem ambeInitW0_bnd : Bnd (toF ((mpi /ᵈ dlit 32 1) *ᵈ (dlit 2 1 *ᵈ mpi)) : IEEE m) 32768 :=
  (Bnd.of (x := (toF ((mpi /ᵈ dlit 32 1) *ᵈ (dlit 2 1 *ᵈ mpi)) : IEEE m)) ambeInitW0_bnd0).mono (by norm_num)

theorem imbeDefaultW0_bnd0 : bndB (imbeDefaultW0 : IEEE libm0) 1 = true := by decide +kernel
theorem imbeDefaultW0_bnd : Bnd (imbeDefaultW0 : IEEE m) 32768 := by
  rw [imbeDefaultW0_ieee]
  exact (Bnd.of imbeDefaultW0_bnd0).mono (by norm_num)

theorem mpi_bnd0 : bndB (mpi : IEEE libm0) 4 = true := by decide +kernel
theorem two_bnd0 : bndB (ofInt 2 : IEEE libm0) 2 = true := by decide +kernel

theorem f02400_bnd (hm : Exp2Acc m) {b0 : Nat} (hb : b0 < 126) : Bnd (ambeW0 (f0Of2400 b0) : IEEE m) 32768 := by
  obtain ⟨q, hq, h0, h1⟩ := f0_2400 hm hb
  have hL := ltabPlus_check b0 hb
  have hL' : (9 : ℚ) ≤ ((AmbePlusLtable.getD b0 0).toNat : ℚ) := by
    have : 9 ≤ (AmbePlusLtable.getD b0 0).toNat := by omega
    exact_mod_cast this
  have hf : Bnd (f0Of2400 b0 : IEEE m) (pow2 0) := by
    refine ⟨q, hq, ?_⟩
    rw [abs_of_nonneg h0, show pow2 0 = 1 by rw [pow2_eq]; norm_num]
    nlinarith
  have h2 : Bnd (ofInt 2 : IEEE m) (pow2 1) := Bnd.of (by rw [show pow2 1 = 2 by rw [pow2_eq]; norm_num]; exact two_bnd0)
  have h3 : Bnd (mpi : IEEE m) (pow2 2) := Bnd.of (by rw [show pow2 2 = 4 by rw [pow2_eq]; norm_num]; exact mpi_bnd0)
  have := ((hf.mul h2 (by decide) (by decide)).dmul h3 (by decide) (by decide)).toF (by decide) (by decide)
  refine this.mono ?_
  rw [pow2_eq]; norm_num

instance : Base (IEEE m) where
  W w := Bnd w 32768
  G x := SeedGood x
  edge a b := edgeConv a b
  conv := SeedGood.conv
  next := SeedNext.good
  seedNeg := Verif.Model.seedNeg
  wZero := zero_bnd
  wAmbe := ambeInitW0_bnd
  wImbe := imbeDefaultW0_bnd
  reset := imbeReset_ieee
  init s := by
    unfold initMbeState
    rw [initMbeParms_ieee]
    rfl

/-! ## Parameter decoders -/

theorem noOver_or {lax : Bool} {p L : Nat} (hp : p ≤ 56) (h1 : 1 ≤ L) (h2 : L ≤ 56) :
    NoOver lax p L ∨ lax = false ∧ Kl p L L = 56 := by
  have hr := Kl_range hp h1 h2 (le_refl L)
  unfold NoOver
  cases lax with
  | true => exact .inl (.inl rfl)
  | false =>
    by_cases h : Kl p L L ≤ 55
    · exact .inl (.inr h)
    · right; exact ⟨rfl, by omega⟩

theorem decodeImbe4400_u {U : UB → Prop} {lax : Bool} (hlax : lax = true ∨ U .oobRead) {d : Nat → Int} (hd : Bits 88 d)
    {cur prev : Parms (IEEE m)} (t : Tls (IEEE m)) (hc : SetOk cur) (hp : SetOk prev) :
    OkU U (decodeImbe4400 lax d cur prev t) fun r => SetOk r.cur ∧ SetOk r.prev := by
  by_cases hb : 207 < imbeFund d
  · rw [decodeImbe4400_bad hd hb]
    exact OkU.ok ⟨hc.congr rfl rfl rfl rfl, hp⟩
  · rw [decodeImbe4400_good hd (by omega)]
    obtain ⟨r1, r2⟩ := imbeLTab_range (imbeFund d) (by omega)
    obtain ⟨n, hn⟩ : ∃ n, imbeLTab (imbeFund d) = n + 9 := ⟨_, (Nat.sub_add_cancel r1).symm⟩
    rw [hn]
    obtain ⟨k, hk, hk'⟩ := hp.nat
    rcases noOver_or (lax := lax) hk' (show 1 ≤ n + 9 by omega) (by omega) with h | ⟨h1, h2⟩
    · refine Ok.toU ((imbeDecodeBody_ok (by omega) hd hk hk' h).mono ?_)
      rintro r ⟨_, V, e1, e2, hV⟩
      refine ⟨?_, hp.same e2⟩
      refine SetOk.same (p := { { cur with repeat_ := prev.repeat_, w0 := imbeW0 (imbeFund d), L := ((n + 9 : Nat) : Int), K := (imbeBands (n + 9) : Nat) } with Vl := V }) ?_ e1
      refine ⟨?_, ?_, fun i => ?_, imbeW0_bnd (by omega), hc.seed⟩
      · show (9 : Int) ≤ ((n + 9 : Nat) : Int); omega
      · show ((n + 9 : Nat) : Int) ≤ 56; omega
      · show V i = 0 ∨ V i = 1
        rw [hV i]
        split
        · exact bandBit_01 (by omega) hd (by
            have : 1 ≤ imbeBands (n + 9) := by unfold imbeBands; omega
            omega)
        · exact hc.vl i
    · subst h1
      rw [imbeDecodeBody_over (by omega) hd hk hk' h2]
      rcases hlax with h | h
      · cases h
      · exact OkU.error h

theorem vuv_01 : AmbeVuv.all (fun r => r.all fun x => decide (x ≤ 1)) = true := by decide +kernel

theorem getD_le_one {l : List (List Nat)} (h : l.all (fun r => r.all fun x => decide (x ≤ 1)) = true) (i j : Nat) :
    (l.getD i []).getD j 0 ≤ 1 := by
  by_cases hi : i < l.length
  · have hr := List.all_eq_true.mp h _ (getD_mem (x := []) hi)
    by_cases hj : j < (l.getD i []).length
    · have := List.all_eq_true.mp hr _ (getD_mem (x := 0) hj)
      simpa using this
    · rw [List.getD_eq_getElem?_getD, List.getElem?_eq_none (by omega), Option.getD_none]
      omega
  · rw [List.getD_eq_getElem?_getD (l := l), List.getElem?_eq_none (l := l) (by omega), Option.getD_none]
    simp

theorem harm2450_range : ∀ b0 < 120, 9 ≤ AmbeLtable.getD b0 0 ∧ AmbeLtable.getD b0 0 ≤ 56 := by decide +kernel

theorem harm2450 {b0 : Nat} (h : b0 < 120 ∨ b0 = 124 ∨ b0 = 125) : 9 ≤ ambeHarmonics2450 b0 ∧ ambeHarmonics2450 b0 ≤ 56 := by
  unfold ambeHarmonics2450
  by_cases h1 : b0 = 124
  · rw [if_pos h1]; omega
  · rw [if_neg h1]
    by_cases h2 : b0 = 125
    · rw [if_pos h2]; omega
    · rw [if_neg h2]
      exact harm2450_range b0 (by omega)

theorem decodeAmbe2450_u {U : UB → Prop} {lax : Bool} (hlax : lax = true ∨ U .oobRead) {d : Nat → Int} (hd : Bits 49 d)
    (e : Int) {cur prev : Parms (IEEE m)} (t : Tls (IEEE m)) (hc : SetOk cur) (hp : SetOk prev) :
    OkU U (decodeAmbe2450 lax d e cur prev t) fun r => SetOk r.cur ∧ SetOk r.prev := by
  obtain ⟨k1, k2⟩ := decodeAmbe2450_eq hd lax e cur prev t
  by_cases c1 : ToneSig d ∧ e < 6
  · rw [k1 c1]; exact OkU.ok ⟨hc.congr rfl rfl rfl rfl, hp⟩
  obtain ⟨k3, k4⟩ := k2 c1
  by_cases c2 : 120 ≤ ambeFund2450 d ∧ ambeFund2450 d ≠ 124 ∧ ambeFund2450 d ≠ 125
  · rw [k3 c2]; exact OkU.ok ⟨hc.congr rfl rfl rfl rfl, hp⟩
  have hb : ambeFund2450 d < 120 ∨ ambeFund2450 d = 124 ∨ ambeFund2450 d = 125 := by omega
  rw [k4 hb]
  obtain ⟨k, hk, hk'⟩ := hp.nat
  have hL := harm2450 hb
  obtain ⟨g1, g2⟩ := ambe2450Voice_split (lax := lax) hd hb { cur with repeat_ := prev.repeat_ } prev t hk hk'
  rcases noOver_or (lax := lax) hk' (show 1 ≤ (ambeHarmonics2450 (ambeFund2450 d)).toNat by omega) (by omega) with h | ⟨h1, h2⟩
  · refine ((Ok.toU (g1 h)).post fun r hr => And.intro (ambe2450Voice_w0 lax d hb _ _ _ r hr)
      (ambe2450Voice_frame _ _ _ _ _ _ _ hr).1.cur_eq).mono ?_
    rintro r ⟨⟨_, e1, e2, hV⟩, hw, hf⟩
    refine ⟨⟨by rw [e1]; exact hL.1, by rw [e1]; exact hL.2, fun i => ?_, ?_, ?_⟩, hp.same e2⟩
    · rw [hV i]
      split
      · split
        · exact .inl rfl
        · have := getD_le_one vuv_01 (fieldVal d [4, 5, 6, 7, 35]) (colQ (f0Q (ambeFund2450 d)) i)
          omega
      · exact hc.vl i
    · rw [hw]
      split
      · exact silW0_bnd
      · exact ambeW0_bnd (by omega)
    · have h2 := congrArg Parms.noiseSeed hf; dsimp only at h2; rw [h2]; exact hc.seed
  · rw [g2 h1 h2]
    subst h1
    rcases hlax with h | h
    · cases h
    · exact OkU.error h

theorem sil2400W0_bnd0 : bndB (toF ((ofInt 2 *ᵈ mpi) /ᵈ ofInt 32) : IEEE libm0) 1 = true := by decide +kernel
theorem sil2400W0_bnd : Bnd (toF ((ofInt 2 *ᵈ mpi) /ᵈ ofInt 32) : IEEE m) 32768 :=
  (Bnd.of (x := (toF ((ofInt 2 *ᵈ mpi) /ᵈ ofInt 32) : IEEE m)) sil2400W0_bnd0).mono (by norm_num)

theorem decodeAmbe2400_u (hm : Exp2Acc m) {U : UB → Prop} {lax : Bool} (hlax : lax = true ∨ U .oobRead) {d : Nat → Int}
    (hd : Bits 49 d) {cur prev : Parms (IEEE m)} (t : Tls (IEEE m)) (hc : SetOk cur) (hp : SetOk prev) :
    OkU U (decodeAmbe2400 lax d cur prev t) fun r => SetOk r.cur ∧ SetOk r.prev := by
  obtain ⟨k1, k2⟩ := decodeAmbe2400_eq hd lax cur prev t
  by_cases hb : ambeFund2400 d < 126
  · rw [k1 hb]
    obtain ⟨k, hk, hk'⟩ := hp.nat
    have hL := ltabPlus_check _ hb
    obtain ⟨g1, g2⟩ := ambe2400Voice_split hm (lax := lax) hd hb { cur with repeat_ := prev.repeat_ } prev t hk hk'
    rcases noOver_or (lax := lax) hk' (show 1 ≤ (AmbePlusLtable.getD (ambeFund2400 d) 0).toNat by omega) (by omega) with h | ⟨h1, h2⟩
    · refine ((Ok.toU (g1 h)).post fun r hr => And.intro (ambe2400Voice_w0 lax d _ _ _ _ r hr)
        (ambe2400Voice_frame _ _ _ _ _ _ _ hr).1.cur_eq).mono ?_
      rintro r ⟨⟨_, e1, e2, hV⟩, hw, hf⟩
      refine ⟨⟨by rw [e1]; exact hL.1, by rw [e1]; exact hL.2, fun i => ?_, by rw [hw]; exact f02400_bnd hm hb, ?_⟩, hp.same e2⟩
      · rcases hV i with h | h
        · rw [h]; exact hc.vl i
        · exact h
      · have h2 := congrArg Parms.noiseSeed hf; dsimp only at h2; rw [h2]; exact hc.seed
    · rw [g2 h1 h2]
      subst h1
      rcases hlax with h | h
      · cases h
      · exact OkU.error h
  · obtain ⟨k3, k4, k5⟩ := k2 (by omega)
    by_cases c1 : 5 ≤ toneIdx2400 d ∧ toneIdx2400 d ≤ 122
    · rw [k3 c1]; exact OkU.ok ⟨hc.congr rfl rfl rfl rfl, hp⟩
    by_cases c2 : 128 ≤ toneIdx2400 d ∧ toneIdx2400 d ≤ 163
    · rw [k4 c2]; exact OkU.ok ⟨hc.congr rfl rfl rfl rfl, hp⟩
    refine Ok.toU ((k5 ⟨c1, c2⟩).mono ?_)
    rintro r ⟨_, e1, _, V, e2, hV⟩
    rw [e1, e2]
    refine ⟨⟨show (9 : Int) ≤ 14 by decide, show (14 : Int) ≤ 56 by decide, fun i => ?_, sil2400W0_bnd, hc.seed⟩, hp⟩
    show V i = 0 ∨ V i = 1
    rw [hV i]
    split
    · exact .inl rfl
    · exact hc.vl i

instance : Decodes (IEEE m) where
  Acc := Exp2Acc m
  imbe := decodeImbe4400_u
  ambe2450 := decodeAmbe2450_u
  ambe2400 := decodeAmbe2400_u
  tone := toneSteps
  dstar := dstarSteps

end Verif.Model
