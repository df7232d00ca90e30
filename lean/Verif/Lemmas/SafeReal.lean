import Verif.Lemmas.SafeStep
import Verif.Lemmas.RealTotal
import Verif.Lemmas.PredictHist
import Verif.Lemmas.Lax

/-!
# Exact arithmetic provides what the process functions need
-/

namespace Verif.Model
open Verif Verif.Gen Verif.Spec Verif.Num Arith
set_option linter.unusedSectionVars false

/-! ## Conversions -/

theorem toI32_real {x : ℝ} (h0 : -2147483648 < x) (h1 : x < 2147483647) : Fine (toI32 x) := by
  unfold toI32
  show Fine (match (some (if 0 ≤ x then ⌊x⌋ else ⌈x⌉) : Option Int) with
    | some n => if -2147483648 ≤ n ∧ n < 2147483648 then .ok n else .error .floatToInt
    | none => .error .floatToInt)
  dsimp only
  rw [if_pos]
  · exact Ok.ok trivial
  · split
    · exact ⟨Int.le_floor.mpr (by push_cast; linarith), Int.floor_lt.mpr (by push_cast; linarith)⟩
    · have := Int.ceil_lt_add_one x
      refine ⟨?_, ?_⟩
      · have h : (-2147483648 : ℝ) < ⌈x⌉ := lt_of_lt_of_le h0 (Int.le_ceil x)
        have : (-2147483648 : Int) < ⌈x⌉ := by exact_mod_cast h
        omega
      · have h : (⌈x⌉ : ℝ) < 2147483648 := by linarith
        exact_mod_cast h

theorem toU32_real {x : ℝ} (h0 : 0 ≤ x) (h1 : x < 4294967296) : ∃ n, toU32 x = .ok n := by
  unfold toU32
  rw [RealArith.trunc_nonneg h0]
  dsimp only
  rw [if_pos ⟨Int.floor_nonneg.mpr h0, Int.floor_lt.mpr (by push_cast; exact h1)⟩]
  exact ⟨_, rfl⟩

theorem binMultiplier_r (w : ℝ) : binMultiplier w = 128 / Real.pi * w := by
  unfold binMultiplier
  rw [RealArith.mul_r, RealArith.div_r, RealArith.mul_r, RealArith.lit_r 256 1 (by decide), RealArith.lit_r 2 1 (by decide)]
  rw [show (lit 314159265358979323846 100000000000000000000 : ℝ) = Real.pi from RealArith.mpi_r]
  have := Real.pi_ne_zero
  field_simp
  norm_num
  ring

theorem edge_real {w y : ℝ} (hw : |w| ≤ 32768) (hy : |y| ≤ 64) : Fine (toI32 (ceil (y *ᶠ binMultiplier w))) := by
  rw [binMultiplier_r, RealArith.mul_r, RealArith.ceil_r]
  have h3 := Real.pi_gt_three
  have hc : 128 / Real.pi ≤ 64 := by
    rw [div_le_iff₀ Real.pi_pos]; linarith
  have hc0 : 0 ≤ 128 / Real.pi := by positivity
  have hb : |y * (128 / Real.pi * w)| ≤ 64 * (64 * 32768) := by
    rw [abs_mul, abs_mul, abs_of_nonneg hc0]
    exact mul_le_mul hy (mul_le_mul hc hw (abs_nonneg _) (by norm_num)) (by positivity) (by norm_num)
  obtain ⟨b1, b2⟩ := abs_le.mp hb
  generalize y * (128 / Real.pi * w) = z at b1 b2
  have h1 := Int.le_ceil z
  have h2 := Int.ceil_lt_add_one z
  exact toI32_real (by linarith) (by linarith)

theorem edgeConv_real {w : ℝ} (hw : |w| ≤ 32768) {L : Int} (hL : L ≤ 56) : EdgeConv w L := by
  intro l h1 h2
  have hl : (l : ℝ) ≤ 56 := by exact_mod_cast (show (l : Int) ≤ 56 by omega)
  have hl0 : (0 : ℝ) ≤ l := by positivity
  have e5 : (lit 5 10 : ℝ) = 1 / 2 := by rw [RealArith.lit_r 5 10 (by decide)]; norm_num
  constructor
  · unfold bandLo
    refine Ok.bind (edge_real hw ?_) fun _ _ => Ok.ok trivial
    rw [RealArith.sub_r, RealArith.ofInt_r, e5, abs_le]
    push_cast
    constructor <;> linarith
  · unfold bandHi
    refine Ok.bind (edge_real hw ?_) fun _ _ => Ok.ok trivial
    rw [RealArith.add_r, RealArith.ofInt_r, e5, abs_le]
    push_cast
    constructor <;> linarith

theorem seedConv_real {x : ℝ} (h : x < 4294967296) : SeedConv x := by
  by_cases h0 : x < 0
  · left
    rw [RealArith.lt_r, lit0_r]
    exact h0
  · exact .inr (toU32_real (not_lt.mp h0) h)

theorem imbeDefaultW0_r : (imbeDefaultW0 : ℝ) = 4 * Real.pi / ((134 : ℕ) + 79 / 2) := by
  unfold imbeDefaultW0
  rw [RealArith.toF_r, RealArith.ddiv_r, RealArith.dmul_r, RealArith.dadd_r, RealArith.mpi_r, RealArith.dlit_r _ _ (by decide),
    RealArith.dlit_r _ _ (by decide), RealArith.dlit_r _ _ (by decide)]
  push_cast
  norm_num

theorem w0_frac {n : Nat} : |4 * Real.pi / ((n : ℝ) + 79 / 2)| ≤ 32768 := by
  have h4 := Real.pi_le_four
  have h0 := Real.pi_pos
  have hn : (0 : ℝ) ≤ n := by positivity
  rw [abs_of_nonneg (by positivity), div_le_iff₀ (by positivity)]
  nlinarith

noncomputable instance : Base ℝ where
  W w := |w| ≤ 32768
  G x := x < 4294967296
  edge a b := edgeConv_real a b
  conv := seedConv_real
  next h ht := by
    rcases h with rfl | rfl | ⟨n, hn, rfl⟩
    · rw [RealArith.ofInt_r]
      have := (Nat.cast_le (α := ℝ)).mpr ht
      push_cast at this ⊢
      linarith
    · rw [RealArith.lit_r 3147 1 (by decide)]; norm_num
    · rw [RealArith.ofInt_r]
      have := (Nat.cast_le (α := ℝ)).mpr hn.le
      push_cast at this ⊢
      linarith
  seedNeg := by
    rw [RealArith.neg_r, RealArith.lit_r 1 1 (by decide)]; norm_num
  wZero := by rw [lit0_r]; norm_num
  wAmbe := by
    rw [RealArith.toF_r, RealArith.dmul_r, RealArith.ddiv_r, RealArith.dmul_r, RealArith.mpi_r,
      RealArith.dlit_r 32 1 (by decide), RealArith.dlit_r 2 1 (by decide)]
    have h4 := Real.pi_le_four
    have h0 := Real.pi_pos
    push_cast
    rw [abs_of_nonneg (by positivity)]
    nlinarith
  wImbe := by rw [imbeDefaultW0_r]; exact w0_frac
  reset p := by
    rw [imbeReset_eq, imbeDefaultL_r, ok_bind]
  init s := by
    unfold initMbeState
    rw [initMbeParms_eq, imbeDefaultL_r, ok_bind, ok_bind]

/-! ## Voicing decisions -/

section
variable {F : Type} [Arith F]

theorem mem_le_one {l : List (List Nat)} (h : l.all (fun r => r.all fun x => decide (x ≤ 1)) = true) {i j : Nat} {r : List Nat}
    {a : Nat} (hr : l[i]? = some r) (ha : r[j]? = some a) : a ≤ 1 := by
  have h1 := List.all_eq_true.mp h r (List.mem_of_getElem? hr)
  have h2 := List.all_eq_true.mp h1 a (List.mem_of_getElem? ha)
  simpa using h2

theorem ambeVoicing_vl {t : List (List Nat)} (h : t.all (fun r => r.all fun x => decide (x ≤ 1)) = true) (b1 : Nat) (f0 : F)
    (sil : Bool) (L : Int) {Vl : Arr 57 Int} (hV : Vl01 Vl) : Post (ambeVoicing t b1 f0 sil L Vl) Vl01 := by
  unfold ambeVoicing
  refine loopFT_post' _ hV fun l V hV => Post.bind Post.true fun _ _ => Post.ite (fun _ => Post.pure hV) fun _ => ?_
  refine Post.bind tab2_post fun v hv => hV.wr _ ?_
  obtain ⟨r, _, _, hr, ha⟩ := hv
  have := mem_le_one h hr ha
  omega

theorem clearVl_vl (L : Nat) {Vl : Arr 57 Int} (hV : Vl01 Vl) : Post (clearVl L Vl) Vl01 := by
  unfold clearVl
  exact loopFT_post' _ hV fun l V hV => hV.wr _ (.inl rfl)

theorem ambe2450Voice_vl (lax : Bool) (d : Nat → Int) (b0 : Nat) {cur : Parms F} (prev : Parms F) (t : Tls F) (h : Vl01 cur.Vl)
    (ht : AmbeVuv.all (fun r => r.all fun x => decide (x ≤ 1)) = true) :
    Post (ambe2450Voice lax d b0 cur prev t) fun r => Vl01 r.cur.Vl := by
  unfold ambe2450Voice
  refine Post.bind (P := fun r : F × Parms F × Int => Vl01 r.2.1.Vl) ?_ fun r hr => ?_
  · unfold ambe2450Header
    refine Post.ite (fun _ => Post.bind (clearVl_vl _ h) fun V hV => Post.pure hV) fun _ => ?_
    exact Post.bind Post.true fun _ _ => Post.bind Post.true fun _ _ => Post.bind Post.true fun _ _ => Post.pure h
  · refine Post.bind Post.true fun _ _ => Post.bind (ambeVoicing_vl ht _ _ _ _ hr) fun V hV => Post.bind Post.true fun _ _ => ?_
    refine Post.bind (ambeBody_post _ _ _ _ _ _ _ _) fun q hq => Post.pure ?_
    dsimp only
    rw [hq.1]
    exact hV

theorem ambe2400Voice_vl (lax : Bool) (d : Nat → Int) (b0 : Nat) {cur : Parms F} (prev : Parms F) (t : Tls F) (h : Vl01 cur.Vl)
    (ht : AmbePlusVuv.all (fun r => r.all fun x => decide (x ≤ 1)) = true) :
    Post (ambe2400Voice lax d b0 cur prev t) fun r => Vl01 r.cur.Vl := by
  unfold ambe2400Voice
  refine Post.bind Post.true fun _ _ => Post.bind Post.true fun _ _ => Post.bind Post.true fun _ _ => ?_
  refine Post.bind (ambeVoicing_vl (Vl := cur.Vl) ht _ _ _ _ h) fun V hV => Post.bind Post.true fun _ _ => ?_
  refine Post.bind (ambeBody_post _ _ _ _ _ _ _ _) fun q hq => Post.pure ?_
  dsimp only
  rw [hq.1]
  exact hV

end

theorem vuv_le_one : AmbeVuv.all (fun r => r.all fun x => decide (x ≤ 1)) = true := by decide +kernel
theorem vuvPlus_le_one : AmbePlusVuv.all (fun r => r.all fun x => decide (x ≤ 1)) = true := by decide +kernel

/-! ## The decoders -/

/-- A statement about the variant without the out-of-bounds read carries over, if that read is tolerated. -/
theorem OkU.of_refines {α : Type} {U : UB → Prop} {x y : Exec α} {P : α → Prop} (h : Refines x y) (hU : U .oobRead)
    (hy : OkU U y P) : OkU U x P := by
  rcases h with rfl | rfl
  · exact hy
  · exact OkU.error hU

theorem decodeImbe4400_good_r {d : Nat → Int} (hd : Bits 88 d) (h : imbeFund d ≤ 207) (lax : Bool) (cur prev : Parms ℝ) (t : Tls ℝ) :
    decodeImbe4400 lax d cur prev t = imbeDecodeBody lax d ((imbeLTab (imbeFund d) : Nat) : Int)
      ((imbeBands (imbeLTab (imbeFund d)) : Nat) : Int)
      { cur with repeat_ := prev.repeat_, w0 := imbeW0 (imbeFund d), L := ((imbeLTab (imbeFund d) : Nat) : Int),
                 K := ((imbeBands (imbeLTab (imbeFund d)) : Nat) : Int) } prev t := by
  unfold decodeImbe4400
  obtain ⟨r1, r2⟩ := imbeLTab_range (imbeFund d) (by omega)
  rw [imbeFund_field hd, ok_bind, if_neg (by omega)]
  simp only []
  rw [imbeLOfW0_r (show imbeFund d < 1000 by omega) (imbeW0_r _), ok_bind, if_neg (by omega), imbeKOfL_r r1 (by omega), ok_bind]

theorem decodeImbe4400_real {d : Nat → Int} (hd : Bits 88 d) {cur prev : Parms ℝ} (t : Tls ℝ) (hc : SetOk cur)
    (hp : SetOk prev) : Ok (decodeImbe4400 true d cur prev t) fun r => SetOk r.cur ∧ SetOk r.prev := by
  by_cases hb : 207 < imbeFund d
  · rw [decodeImbe4400_bad hd hb]
    exact Ok.ok ⟨hc.congr rfl rfl rfl rfl, hp⟩
  · have hframe := decodeImbe4400_frame true d cur prev t
    rw [decodeImbe4400_good_r hd (by omega)] at hframe ⊢
    obtain ⟨r1, r2⟩ := imbeLTab_range (imbeFund d) (by omega)
    obtain ⟨n, hn⟩ : ∃ n, imbeLTab (imbeFund d) = n + 9 := ⟨_, (Nat.sub_add_cancel r1).symm⟩
    rw [hn] at hframe ⊢
    obtain ⟨k, hk, hk'⟩ := hp.nat
    obtain ⟨r, hr, _, hL, hpr, hV⟩ := imbeDecodeBody_ok_r (n := n)
      (cur := { cur with repeat_ := prev.repeat_, w0 := imbeW0 (imbeFund d), L := ((n + 9 : Nat) : Int), K := ((imbeBands (n + 9) : Nat) : Int) })
      (t := t) (by omega) hd hk hk'
    obtain ⟨_, V, hsame⟩ := imbeDecodeBody_post _ _ _ _ _ _ _ r hr
    refine ⟨r, hr, ⟨?_, ?_, fun i => ?_, ?_, ?_⟩, hp.same hpr⟩
    · rw [hL]; show (9 : Int) ≤ ((n + 9 : Nat) : Int); omega
    · rw [hL]; show ((n + 9 : Nat) : Int) ≤ 56; omega
    · rw [hV i]
      split
      · exact bandBit_01 (by omega) hd (by
          have : 1 ≤ imbeBands (n + 9) := by unfold imbeBands; omega
          omega)
      · exact hc.vl i
    · have e : r.cur.w0 = imbeW0 (imbeFund d) := by rw [hsame]
      rw [e, imbeW0_r]
      exact w0_frac
    · have e : r.cur.noiseSeed = cur.noiseSeed := by rw [hsame]
      rw [e]; exact hc.seed

theorem pi_bnd {x : ℝ} (h0 : 0 ≤ x) (h1 : x ≤ 1) : |x * 2 * Real.pi| ≤ 32768 := by
  have h4 := Real.pi_le_four
  have h0 := Real.pi_pos
  rw [abs_of_nonneg (by positivity)]
  nlinarith

theorem ambeW0_r (x : ℝ) : (ambeW0 x : ℝ) = x * 2 * Real.pi := by
  unfold ambeW0
  rw [RealArith.toF_r, RealArith.dmul_r, RealArith.mul_r, RealArith.mpi_r, RealArith.ofInt_r]
  push_cast
  rfl

theorem f0tab_le_one : ∀ b0 < 120, 0 ≤ AmbeW0table.getD b0 0 ∧ AmbeW0table.getD b0 0 ≤ 1000000000 ∧
    AmbeW0table.getD b0 0 ≤ (AmbeW0table_den : Int) := by decide +kernel

theorem ambeW0tab_real {b0 : Nat} (h : b0 < 120) : |(ambeW0 (ftab (AmbeW0table.getD b0 0) AmbeW0table_den) : ℝ)| ≤ 32768 := by
  obtain ⟨f1, f2, f3⟩ := f0tab_le_one b0 h
  have hden : (0 : ℝ) < (AmbeW0table_den : ℝ) := by exact_mod_cast (show 0 < AmbeW0table_den by decide)
  rw [ambeW0_r, ftab_r (b := 1000000000) (by rw [abs_of_nonneg f1]; exact f2) (by decide)]
  generalize AmbeW0table_den = D at f3 hden ⊢
  generalize AmbeW0table.getD b0 0 = w at f1 f2 f3 ⊢
  have f1' : (0 : ℝ) ≤ (w : ℝ) := by exact_mod_cast f1
  have f3' : (w : ℝ) ≤ (D : ℝ) := by exact_mod_cast f3
  exact pi_bnd (by positivity) (by rw [div_le_one hden]; exact f3')

theorem f02400_real {b0 : Nat} (h : b0 < 126) : |(ambeW0 (f0Of2400 b0) : ℝ)| ≤ 32768 := by
  rw [ambeW0_r, f0Of2400_r]
  have hy : ((y2400 b0 : ℚ) : ℝ) ≤ 0 := by
    have := (y2400_check b0 h).1
    have : ((y2400 b0 : ℚ) : ℝ) ≤ ((-4 : ℚ) : ℝ) := by exact_mod_cast this
    push_cast at this
    linarith
  exact pi_bnd (by positivity) (Real.rpow_le_one_of_one_le_of_nonpos (by norm_num) hy)

theorem silW0_real : |((fpi /ᶠ lit 32 1) *ᶠ toF (dlit 2 1 *ᵈ mpi) : ℝ)| ≤ 32768 := by
  rw [RealArith.mul_r, RealArith.div_r, RealArith.fpi_r, RealArith.toF_r, RealArith.dmul_r, RealArith.mpi_r,
    RealArith.lit_r 32 1 (by decide), RealArith.dlit_r 2 1 (by decide)]
  have h4 := Real.pi_le_four
  have h0 := Real.pi_pos
  push_cast
  rw [abs_of_nonneg (by positivity)]
  nlinarith

theorem sil2400W0_real : |(toF ((ofInt 2 *ᵈ mpi) /ᵈ ofInt 32) : ℝ)| ≤ 32768 := by
  rw [RealArith.toF_r, RealArith.ddiv_r, RealArith.dmul_r, RealArith.mpi_r, RealArith.ofInt_r, RealArith.ofInt_r]
  have h4 := Real.pi_le_four
  have h0 := Real.pi_pos
  push_cast
  rw [abs_of_nonneg (by positivity)]
  linarith

theorem decodeAmbe2450_real {d : Nat → Int} (hd : Bits 49 d) (e : Int) {cur prev : Parms ℝ} (t : Tls ℝ) (hc : SetOk cur)
    (hp : SetOk prev) : Ok (decodeAmbe2450 true d e cur prev t) fun r => SetOk r.cur ∧ SetOk r.prev := by
  obtain ⟨k1, k2⟩ := decodeAmbe2450_eq hd true e cur prev t
  by_cases c1 : ToneSig d ∧ e < 6
  · rw [k1 c1]; exact Ok.ok ⟨hc.congr rfl rfl rfl rfl, hp⟩
  obtain ⟨k3, k4⟩ := k2 c1
  by_cases c2 : 120 ≤ ambeFund2450 d ∧ ambeFund2450 d ≠ 124 ∧ ambeFund2450 d ≠ 125
  · rw [k3 c2]; exact Ok.ok ⟨hc.congr rfl rfl rfl rfl, hp⟩
  have hb : ambeFund2450 d < 120 ∨ ambeFund2450 d = 124 ∨ ambeFund2450 d = 125 := by omega
  rw [k4 hb]
  obtain ⟨k, hk, hk'⟩ := hp.nat
  have hL : 9 ≤ ambeHarmonics2450 (ambeFund2450 d) ∧ ambeHarmonics2450 (ambeFund2450 d) ≤ 56 := by
    unfold ambeHarmonics2450
    by_cases h1 : ambeFund2450 d = 124
    · rw [if_pos h1]; omega
    · rw [if_neg h1]
      by_cases h2 : ambeFund2450 d = 125
      · rw [if_pos h2]; omega
      · rw [if_neg h2]
        have := ltab_check (ambeFund2450 d) (by omega)
        omega
  obtain ⟨r, hr, _, e1, e2⟩ := ambe2450Voice_ok_r hd hb { cur with repeat_ := prev.repeat_ } prev t hk hk'
  have hw := ambe2450Voice_w0 true d hb _ _ _ r hr
  have hV := ambe2450Voice_vl true d _ (cur := { cur with repeat_ := prev.repeat_ }) prev t hc.vl vuv_le_one r hr
  have hf := (ambe2450Voice_frame _ _ _ _ _ _ _ hr).1.cur_eq
  refine ⟨r, hr, ⟨by rw [e1]; exact hL.1, by rw [e1]; exact hL.2, hV, ?_, ?_⟩, hp.same e2⟩
  · rw [hw]
    split
    · exact silW0_real
    · exact ambeW0tab_real (by omega)
  · have h2 := congrArg Parms.noiseSeed hf; dsimp only at h2; rw [h2]; exact hc.seed

theorem decodeAmbe2400_real {d : Nat → Int} (hd : Bits 49 d) {cur prev : Parms ℝ} (t : Tls ℝ) (hc : SetOk cur)
    (hp : SetOk prev) : Ok (decodeAmbe2400 true d cur prev t) fun r => SetOk r.cur ∧ SetOk r.prev := by
  obtain ⟨k1, k2⟩ := decodeAmbe2400_eq hd true cur prev t
  by_cases hb : ambeFund2400 d < 126
  · rw [k1 hb]
    obtain ⟨k, hk, hk'⟩ := hp.nat
    have hL := ltabPlus_check _ hb
    obtain ⟨r, hr, _, e1, e2⟩ := ambe2400Voice_ok_r hd hb { cur with repeat_ := prev.repeat_ } prev t hk hk'
    have hw := ambe2400Voice_w0 true d _ _ _ _ r hr
    have hV := ambe2400Voice_vl true d _ (cur := { cur with repeat_ := prev.repeat_ }) prev t hc.vl vuvPlus_le_one r hr
    have hf := (ambe2400Voice_frame _ _ _ _ _ _ _ hr).1.cur_eq
    refine ⟨r, hr, ⟨by rw [e1]; exact hL.1, by rw [e1]; exact hL.2, hV, by rw [hw]; exact f02400_real hb, ?_⟩, hp.same e2⟩
    have h2 := congrArg Parms.noiseSeed hf; dsimp only at h2; rw [h2]; exact hc.seed
  · obtain ⟨k3, k4, k5⟩ := k2 (by omega)
    by_cases c1 : 5 ≤ toneIdx2400 d ∧ toneIdx2400 d ≤ 122
    · rw [k3 c1]; exact Ok.ok ⟨hc.congr rfl rfl rfl rfl, hp⟩
    by_cases c2 : 128 ≤ toneIdx2400 d ∧ toneIdx2400 d ≤ 163
    · rw [k4 c2]; exact Ok.ok ⟨hc.congr rfl rfl rfl rfl, hp⟩
    refine (k5 ⟨c1, c2⟩).mono ?_
    rintro r ⟨_, e1, _, V, e2, hV⟩
    rw [e1, e2]
    refine ⟨⟨show (9 : Int) ≤ 14 by decide, show (14 : Int) ≤ 56 by decide, fun i => ?_, sil2400W0_real, hc.seed⟩, hp⟩
    show V i = 0 ∨ V i = 1
    rw [hV i]
    split
    · exact .inl rfl
    · exact hc.vl i

/-! ## Tones -/

theorem tonePhaseStep_real {f : ℝ} (h : f ≤ 4000) : Fine (tonePhaseStep f) := by
  unfold tonePhaseStep
  simp only []
  have e : ((f /ᵈ dlit 8000 1) *ᵈ dlit 4294967296 1 : ℝ) = f / 8000 * 4294967296 := by
    rw [RealArith.dmul_r, RealArith.ddiv_r, RealArith.dlit_r 8000 1 (by decide), RealArith.dlit_r 4294967296 1 (by decide)]
    norm_num
  rw [e]
  have e0 : (dlit 0 1 : ℝ) = 0 := by rw [RealArith.dlit_r 0 1 (by decide)]; norm_num
  have e5 : (dlit 5 10 : ℝ) = 1 / 2 := by rw [RealArith.dlit_r 5 10 (by decide)]; norm_num
  refine Ok.ite (fun _ => Ok.ok trivial) fun hn => ?_
  rw [RealArith.le_r, e0, not_le] at hn
  obtain ⟨n, h⟩ := toU32_real (x := f / 8000 * 4294967296 +ᵈ dlit 5 10) (by rw [RealArith.dadd_r, e5]; linarith)
    (by rw [RealArith.dadd_r, e5]; linarith)
  exact ⟨n, h, trivial⟩

theorem toneTab_le : ∀ id < 256, ∀ p, toneTab.lookup id = some p → (p.1 ≤ 4000 ∧ p.2 ≤ 4000) ∧ 0 ≤ p.1 ∧ 0 ≤ p.2 := by decide +kernel

theorem toneFreq_le {id : Nat} (h : id < 256) : (lookupToneFreqs id : ℝ × ℝ × Bool).1 ≤ 4000 ∧
    (lookupToneFreqs id : ℝ × ℝ × Bool).2.1 ≤ 4000 := by
  unfold lookupToneFreqs
  simp only []
  split
  · rw [RealArith.lit_r 15625 100 (by decide)]; norm_num
  split
  · rw [RealArith.lit_r 1875 10 (by decide)]; norm_num
  split
  · rename_i a b hl
    obtain ⟨⟨h1, h2⟩, h3, h4⟩ := toneTab_le id h (a, b) hl
    have h1' : (a : ℝ) ≤ 4000 := by exact_mod_cast h1
    have h2' : (b : ℝ) ≤ 4000 := by exact_mod_cast h2
    rw [RealArith.lit_r a 1 (by dsimp only at h1 h3; omega), RealArith.lit_r b 1 (by dsimp only at h2 h4; omega)]
    exact ⟨by simpa using h1', by simpa using h2'⟩
  · split
    · rename_i hr
      have : (id : ℝ) ≤ 122 := by exact_mod_cast hr.2
      rw [RealArith.mul_r, RealArith.lit_r 3125 100 (by decide), RealArith.ofInt_r]
      push_cast
      constructor <;> linarith
    · rw [lit0_r]; norm_num

theorem dstarFreq_le {id : Nat} (h : id < 123) : (dstarFreq (id : Int) : ℝ) ≤ 4000 := by
  unfold dstarFreq
  split
  · rw [RealArith.toF_r, RealArith.dlit_r 15625 100 (by decide)]; norm_num
  split
  · rw [RealArith.toF_r, RealArith.dlit_r 1875 10 (by decide)]; norm_num
  split
  · have : (id : ℝ) ≤ 122 := by exact_mod_cast (show id ≤ 122 by omega)
    rw [RealArith.mul_r, RealArith.lit_r 3125 100 (by decide), RealArith.ofInt_r]
    push_cast
    linarith
  · rw [RealArith.ofInt_r]; norm_num

theorem OkU.of_lax {α : Type} {U : UB → Prop} {lax : Bool} {f : Bool → Exec α} {P : α → Prop} (hlax : lax = true ∨ U .oobRead)
    (h : Refines (f false) (f true)) (hf : Ok (f true) P) : OkU U (f lax) P := by
  cases lax with
  | true => exact Ok.toU hf
  | false => exact OkU.of_refines h (hlax.resolve_left (by decide)) (Ok.toU hf)

instance : Decodes ℝ where
  Acc := True
  imbe hlax _ hd _ _ t hc hp :=
    OkU.of_lax (f := fun lax => decodeImbe4400 lax _ _ _ t) hlax (decodeImbe4400_lax _ _ _ _) (decodeImbe4400_real hd t hc hp)
  ambe2450 hlax _ hd e _ _ t hc hp :=
    OkU.of_lax (f := fun lax => decodeAmbe2450 lax _ e _ _ t) hlax (decodeAmbe2450_lax _ _ _ _ _) (decodeAmbe2450_real hd e t hc hp)
  ambe2400 _ _ _ hlax _ hd _ _ t hc hp :=
    OkU.of_lax (f := fun lax => decodeAmbe2400 lax _ _ _ t) hlax (decodeAmbe2400_lax _ _ _ _) (decodeAmbe2400_real hd t hc hp)
  tone h := ⟨tonePhaseStep_real (toneFreq_le h).1, tonePhaseStep_real (toneFreq_le h).2⟩
  dstar h := tonePhaseStep_real (dstarFreq_le h)

end Verif.Model
