import Verif.Model.Ecc
import Verif.Lemmas.Bits

/-! Helper lemmas about the model of `src/ecc/ecc.c`. -/

namespace Verif
open Verif.Spec Verif.Model Verif.Gen

theorem bitOf_lt (c : Int) : bitOf c < 2 := by unfold bitOf; omega

theorem bitOf_eq_one_or (c : Int) : bitOf c = 0 ∨ bitOf c = 1 := by have := bitOf_lt c; omega

theorem testBit_mod_two_pow32 (x i : Nat) : (x % 2^32).testBit i = (decide (i < 32) && x.testBit i) := by
  rw [Nat.testBit_mod_two_pow]

theorem packBits_testBit {n : Nat} (hn : n ≤ 32) (inp : Nat → Int) (j : Nat) :
    (packBits n inp).testBit j = (decide (j < n) && (bitOf (inp j) == 1)) := by
  have h := ploopDown_inv (n := n) (f := fun i block => ((block <<< 1) % 2^32) ||| bitOf (inp i)) (s := 0)
    (fun i block => ∀ j, block.testBit j = (decide (i + j < n) && (bitOf (inp (i + j)) == 1)))
    (by intro j; have : ¬ n + j < n := by omega
        simp [this])
    (by
      intro i hi s hI j
      rw [Nat.testBit_or, testBit_mod_two_pow32, Nat.testBit_shiftLeft]
      cases j with
      | zero =>
        rcases bitOf_eq_one_or (inp i) with h | h <;> simp [h, hi]
      | succ j =>
        have h0 : (bitOf (inp i)).testBit (j + 1) = false :=
          Nat.testBit_lt_two_pow (Nat.lt_of_lt_of_le (bitOf_lt _) (by
            have : 2^1 ≤ 2^(j+1) := Nat.pow_le_pow_right (by omega) (by omega)
            simpa using this))
        have e : i + 1 + j = i + (j + 1) := by omega
        rw [h0]
        simp only [Nat.add_sub_cancel, hI j, e]
        by_cases hlt : i + (j + 1) < n
        · have : j + 1 < 32 := by omega
          simp [hlt, this]
        · simp [hlt])
  simpa [packBits] using h j

theorem packBits_lt {n : Nat} (hn : n ≤ 32) (inp : Nat → Int) : packBits n inp < 2^n := by
  apply Nat.lt_pow_two_of_testBit
  intro i hi
  rw [packBits_testBit hn]
  have : ¬ i < n := by omega
  simp [this]

/-- Packing a bit plane that spells `w` gives `w`. -/
theorem packBits_eq {n : Nat} (hn : n ≤ 32) {inp : Nat → Int} {w : Nat} (hw : w < 2^n)
    (h : ∀ i, i < n → inp i = bit w i) : packBits n inp = w := by
  apply Nat.eq_of_testBit_eq; intro i
  rw [packBits_testBit hn]
  by_cases hi : i < n
  · rw [h i hi]
    unfold bit bitOf
    cases w.testBit i <;> simp [hi]
  · have : w.testBit i = false :=
      Nat.testBit_lt_two_pow (Nat.lt_of_lt_of_le hw (Nat.pow_le_pow_right (by omega) (by omega)))
    simp [hi, this]

theorem unpackBits_spec {hi n top block : Nat} (h1 : n ≤ hi + 1) (h2 : n ≤ top + 1) (h3 : top < 32)
    (out : Nat → Int) (j : Nat) :
    unpackBits hi n top block out j =
      if hi + 1 - n ≤ j ∧ j ≤ hi then bit block (top - (hi - j)) else out j := by
  have h := ploop_inv (n := n) (f := fun k (s : (Nat → Int) × Nat) =>
      (upd s.1 (hi - k) (((s.2 &&& (2^top)) >>> top : Nat) : Int), (s.2 <<< 1) % 2^32)) (s := (out, block))
    (fun k s => (∀ j, s.1 j = if hi + 1 - k ≤ j ∧ j ≤ hi then bit block (top - (hi - j)) else out j) ∧
      (∀ t, t < 32 → s.2.testBit t = (decide (k ≤ t) && block.testBit (t - k))))
    (by
      constructor
      · intro j
        rw [if_neg (by omega)]
      · intro t _; simp)
    (by
      intro k hk s ⟨hA, hB⟩
      constructor
      · intro j
        simp only [upd]
        by_cases hj : j = hi - k
        · subst hj
          rw [if_pos rfl, if_pos (by omega), and_shiftRight_two_pow, hB top h3]
          have e : hi - (hi - k) = k := by omega
          rw [e]
          have : k ≤ top := by omega
          simp only [this, decide_true, Bool.true_and, bit]
          cases block.testBit (top - k) <;> rfl
        · rw [if_neg hj, hA j]
          by_cases hc : hi + 1 - k ≤ j ∧ j ≤ hi
          · rw [if_pos hc, if_pos (by omega)]
          · rw [if_neg hc, if_neg (by omega)]
      · intro t ht
        simp only [testBit_mod_two_pow32, Nat.testBit_shiftLeft, ht, decide_true, Bool.true_and]
        cases t with
        | zero => simp
        | succ t =>
          have e : t + 1 - (k + 1) = t - k := by omega
          rw [Nat.add_sub_cancel, hB t (by omega), e]
          simp)
  exact h.1 j

/-! ### Golay -/

/-- Closed form of the `eccexpected` loop. -/
def golayLin : List Nat → Nat → Nat → Nat
  | [], _, _ => 0
  | g :: gs, k, b => (if b.testBit k then g else 0) ^^^ golayLin gs (k - 1) b

theorem golay_fold (gs : List Nat) (k b e : Nat) (hk : gs.length ≤ k + 1) :
    (gs.foldl (fun (s : Nat × Nat) g => (if b &&& s.2 ≠ 0 then s.1 ^^^ g else s.1, s.2 >>> 1)) (e, 2^k)).1
      = e ^^^ golayLin gs k b := by
  induction gs generalizing k e with
  | nil => simp [golayLin]
  | cons g gs ih =>
    cases gs with
    | nil =>
      simp only [List.foldl, golayLin, and_two_pow_ne_zero, Nat.xor_zero]
      cases b.testBit k <;> simp
    | cons g' gs' =>
      have hk' : 1 ≤ k := by simp at hk; omega
      have hsh : (2^k) >>> 1 = 2^(k-1) := by
        rw [Nat.shiftRight_eq_div_pow]
        obtain ⟨m, rfl⟩ : ∃ m, k = m + 1 := ⟨k - 1, by omega⟩
        simp [Nat.pow_succ]
      rw [List.foldl_cons]
      simp only [and_two_pow_ne_zero, hsh]
      have := ih (k - 1) (if b.testBit k = true then e ^^^ g else e) (by simp at hk ⊢; omega)
      rw [this]
      show _ = e ^^^ ((if b.testBit k = true then g else 0) ^^^ golayLin (g' :: gs') (k - 1) b)
      rw [← Nat.xor_assoc]
      cases b.testBit k <;> simp

theorem golayLin_linear (gs : List Nat) (k : Nat) : Linear (golayLin gs k) := by
  induction gs generalizing k with
  | nil => intro a b; simp [golayLin]
  | cons g gs ih =>
    refine Linear.xor (f := fun b => if b.testBit k then g else 0) ?_ (ih (k - 1))
    intro a b
    simp only [Nat.testBit_xor]
    cases a.testBit k <;> cases b.testBit k <;> simp

theorem golayExpected_eq (b : Nat) : golayExpected b = golayLin golayGenerator 22 b := by
  have := golay_fold golayGenerator 22 b 0 (by decide)
  rw [Nat.zero_xor] at this
  exact this

theorem golayExpected_linear : Linear golayExpected := by
  have : golayExpected = golayLin golayGenerator 22 := funext golayExpected_eq
  rw [this]; exact golayLin_linear _ _

theorem golaySyndrome_linear : Linear golaySyndrome := golayExpected_linear.xor (linear_and 0x7ff)

theorem golayLin_lt (gs : List Nat) (k b n : Nat) (h : ∀ g ∈ gs, g < 2^n) : golayLin gs k b < 2^n := by
  induction gs generalizing k with
  | nil => simp only [golayLin]; exact Nat.two_pow_pos n
  | cons g gs ih =>
    unfold golayLin
    refine Nat.xor_lt_two_pow ?_ (ih _ fun x hx => h x (List.mem_cons_of_mem _ hx))
    split
    · exact h g List.mem_cons_self
    · exact Nat.two_pow_pos n

theorem golayExpected_lt (b : Nat) : golayExpected b < 2^11 := by
  rw [golayExpected_eq]
  exact golayLin_lt _ _ _ _ (by decide)

theorem golaySyndrome_lt (b : Nat) : golaySyndrome b < 2^11 := by
  unfold golaySyndrome
  exact Nat.xor_lt_two_pow (golayExpected_lt b) (Nat.lt_of_le_of_lt Nat.and_le_right (by decide))

/-- The correction table entry for a syndrome. -/
def golayFix (s : Nat) : Nat := golayMatrix.getD s 0

theorem golayMatrix_length : golayMatrix.length = 2048 := by decide +kernel

theorem tab_getD {α} {t : List α} {i : Nat} (d : α) (h : i < t.length) : tab t i = .ok (t.getD i d) := by
  unfold tab
  rw [List.getElem?_eq_getElem h]
  simp [List.getD, List.getElem?_eq_getElem h]

theorem checkGolayBlockU_eq (b : Nat) :
    checkGolayBlockU b = .ok ((b >>> 11) ^^^ golayFix (golaySyndrome b)) := by
  unfold checkGolayBlockU
  rw [tab_getD 0 (by rw [golayMatrix_length]; exact golaySyndrome_lt b)]
  rfl

/-! Fast evaluation of the table lookup inside the kernel: the table packed into one number and the
syndrome as pure arithmetic on literals. -/

/-- A list of 12-bit entries packed into one number. -/
def packL : List Nat → Nat
  | [] => 0
  | x :: xs => x + 4096 * packL xs

theorem packL_getD (l : List Nat) (h : l.all (fun x => Nat.blt x 4096) = true) (i : Nat) :
    (packL l >>> (12 * i)) % 4096 = l.getD i 0 := by
  induction l generalizing i with
  | nil => simp [packL]
  | cons x xs ih =>
    simp only [List.all_cons, Bool.and_eq_true] at h
    have hx : x < 4096 := by simpa [Nat.blt_eq] using h.1
    cases i with
    | zero => simp only [packL, Nat.mul_zero, Nat.shiftRight_zero, List.getD_cons_zero]; omega
    | succ i =>
      have e : 12 * (i + 1) = 12 + 12 * i := by omega
      rw [e, Nat.shiftRight_add]
      have : (packL (x :: xs)) >>> 12 = packL xs := by
        rw [Nat.shiftRight_eq_div_pow]; simp only [packL]; omega
      rw [this, ih h.2]; simp

theorem golayMatrix_small : golayMatrix.all (fun x => Nat.blt x 4096) = true := by decide +kernel

/-- `golayMatrix` as one number. -/
def golayPacked : Nat := packL golayMatrix

theorem golayFix_packed (s : Nat) : golayFix s = (golayPacked >>> (12 * s)) % 4096 :=
  (packL_getD golayMatrix golayMatrix_small s).symm

/-- Syndrome as arithmetic on literals. -/
def linFast : List Nat → Nat → Nat → Nat
  | [], _, _ => 0
  | g :: gs, k, b => (((b >>> k) % 2) * g) ^^^ linFast gs (k - 1) b

theorem linFast_eq (gs : List Nat) (k b : Nat) : golayLin gs k b = linFast gs k b := by
  induction gs generalizing k with
  | nil => rfl
  | cons g gs ih =>
    simp only [golayLin, linFast, ih]
    congr 1
    rw [Nat.testBit_eq_decide_div_mod_eq, Nat.shiftRight_eq_div_pow]
    rcases Nat.mod_two_eq_zero_or_one (b / 2^k) with h | h <;> simp [h]

theorem golaySyndrome_fast (b : Nat) : golaySyndrome b = linFast golayGenerator 22 b ^^^ (b &&& 0x7ff) := by
  unfold golaySyndrome; rw [golayExpected_eq, linFast_eq]

/-- Every error pattern of weight at most three is looked up correctly: one kernel evaluation over
the complete list of patterns. -/
theorem golay_table :
    (fun T => (patterns 23 3).all fun e =>
      Nat.beq ((T >>> (12 * (linFast golayGenerator 22 e ^^^ (e &&& 0x7ff)))) % 4096) (e >>> 11)) golayPacked
      = true := by decide +kernel

theorem golayFix_of_weight {e : Nat} (he : e < 2^23) (hw : weight 23 e ≤ 3) :
    golayFix (golaySyndrome e) = e >>> 11 := by
  have := List.all_eq_true.mp golay_table e (mem_patterns he hw)
  rw [golayFix_packed, golaySyndrome_fast]
  exact Nat.eq_of_beq_eq_true this


theorem golayFix_lt (s : Nat) : golayFix s < 2^12 := by
  rw [golayFix_packed]; exact Nat.mod_lt _ (by decide)

/-! ### the Golay code -/

theorem golaySyndrome_low {x : Nat} (hx : x < 2^11) : golaySyndrome x = x := by
  have h := Linear.ext golaySyndrome_linear (g := fun x => x) (fun _ _ => rfl) (n := 11) (by decide) hx
  exact h

theorem Spec.IsGolay.syndrome {c : Nat} (h : IsGolay c) : golaySyndrome c = 0 := by
  obtain ⟨q, _, rfl⟩ := h
  exact golaySyndrome_linear.clmul_zero (n := 12) (by decide) q

theorem Spec.IsGolay.lt {c : Nat} (h : IsGolay c) : c < 2^23 := by
  obtain ⟨q, _, rfl⟩ := h
  exact clmul_lt (n := 11) (k := 12) (by decide)

theorem Spec.IsGolay.xor {c d : Nat} (hc : IsGolay c) (hd : IsGolay d) : IsGolay (c ^^^ d) := by
  obtain ⟨q, hq, rfl⟩ := hc
  obtain ⟨r, hr, rfl⟩ := hd
  exact ⟨q ^^^ r, Nat.xor_lt_two_pow hq hr, (clmul_xor _ _ _ _).symm⟩

/-- Quotient polynomial of the codeword with data `m`. -/
def golayQuot (m : Nat) : Nat :=
  golayLin [0xf92, 0x7c9, 0x3e4, 0x1f2, 0xf9, 0x7c, 0x3e, 0x1f, 0xf, 0x7, 0x3, 0x1] 11 m

theorem golayQuot_linear : Linear golayQuot := golayLin_linear _ _

/-- The codeword whose top twelve bits are `m`. -/
def golayWord (m : Nat) : Nat := clmul 12 (golayQuot m) golayPoly

theorem golayWord_isGolay (m : Nat) : IsGolay (golayWord m) :=
  ⟨golayQuot m, golayLin_lt _ _ _ _ (by decide), rfl⟩

theorem golayWord_data {m : Nat} (hm : m < 2^12) : golayWord m >>> 11 = m := by
  have h := Linear.ext (f := fun m => golayWord m >>> 11) (g := fun x => x) (n := 12)
    (fun a b => by
      show clmul 12 (golayQuot (a ^^^ b)) golayPoly >>> 11 = _
      rw [golayQuot_linear, clmul_xor]; exact linear_shiftRight 11 _ _) (fun _ _ => rfl) (by decide) hm
  exact h

theorem shiftRight_lt {w a b : Nat} (h : w < 2^(a + b)) : w >>> b < 2^a := by
  rw [Nat.shiftRight_eq_div_pow]
  exact Nat.div_lt_of_lt_mul (by rw [Nat.mul_comm, ← Nat.pow_add]; exact h)

theorem lt_of_shiftRight_eq_zero {x k : Nat} (h : x >>> k = 0) : x < 2^k := by
  rw [Nat.shiftRight_eq_div_pow] at h
  have h2 : 0 < 2^k := Nat.two_pow_pos k
  exact (Nat.div_eq_zero_iff_lt h2).mp h

theorem isGolay_iff (c : Nat) : IsGolay c ↔ c < 2^23 ∧ golaySyndrome c = 0 := by
  constructor
  · intro h; exact ⟨h.lt, h.syndrome⟩
  · intro ⟨hlt, hs⟩
    have hm : c >>> 11 < 2^12 := shiftRight_lt hlt
    have hw := golayWord_isGolay (c >>> 11)
    have hsyn : golaySyndrome (c ^^^ golayWord (c >>> 11)) = 0 := by
      rw [golaySyndrome_linear, hs, hw.syndrome]; rfl
    have htop : (c ^^^ golayWord (c >>> 11)) >>> 11 = 0 := by
      have := linear_shiftRight 11 c (golayWord (c >>> 11))
      simp only at this
      rw [this, golayWord_data hm, Nat.xor_self]
    have hsmall := lt_of_shiftRight_eq_zero htop
    rw [golaySyndrome_low hsmall] at hsyn
    rw [xor_eq_zero hsyn]
    exact hw

/-- A codeword is determined by its data bits. -/
theorem Spec.IsGolay.eq_of_data {c d : Nat} (hc : IsGolay c) (hd : IsGolay d) (h : c >>> 11 = d >>> 11) : c = d := by
  have hx := (hc.xor hd).syndrome
  have htop : (c ^^^ d) >>> 11 = 0 := by
    have := linear_shiftRight 11 c d
    simp only at this
    rw [this, h, Nat.xor_self]
  rw [golaySyndrome_low (lt_of_shiftRight_eq_zero htop)] at hx
  exact xor_eq_zero hx

/-- The error pattern the decoder assumes for a syndrome. -/
def golayErr (s : Nat) : Nat := (golayFix s <<< 11) ^^^ (golayExpected (golayFix s <<< 11) ^^^ s)

/-- Every one of the 2048 syndromes belongs to a pattern of weight at most three. -/
theorem golayErr_table :
    (fun T => (List.range 2048).all fun s =>
      (fun D => Nat.ble (weight 23 (D ^^^ (linFast golayGenerator 22 D ^^^ s))) 3)
        (((T >>> (12 * s)) % 4096) <<< 11)) golayPacked = true := by decide +kernel

theorem golayErr_weight {s : Nat} (hs : s < 2^11) : weight 23 (golayErr s) ≤ 3 := by
  have := List.all_eq_true.mp golayErr_table s (List.mem_range.mpr hs)
  unfold golayErr
  rw [golayExpected_eq, linFast_eq, golayFix_packed]
  exact Nat.le_of_ble_eq_true this

theorem golayErr_lt {s : Nat} (hs : s < 2^11) : golayErr s < 2^23 := by
  unfold golayErr
  refine Nat.xor_lt_two_pow ?_ (Nat.xor_lt_two_pow ?_ ?_)
  · rw [Nat.shiftLeft_eq]
    have := golayFix_lt s
    omega
  · exact Nat.lt_of_lt_of_le (golayExpected_lt _) (by decide)
  · omega

theorem golaySyndrome_shift (d : Nat) : golaySyndrome (d <<< 11) = golayExpected (d <<< 11) := by
  unfold golaySyndrome
  have : (d <<< 11) &&& 0x7ff = 0 := by
    have h : (0x7ff : Nat) = 2^11 - 1 := by decide
    rw [h, Nat.and_two_pow_sub_one_eq_mod, Nat.shiftLeft_eq, Nat.mul_mod_left]
  rw [this, Nat.xor_zero]

theorem golayErr_syndrome {s : Nat} (hs : s < 2^11) : golaySyndrome (golayErr s) = s := by
  unfold golayErr
  rw [golaySyndrome_linear, golaySyndrome_linear, golaySyndrome_shift,
    golaySyndrome_low (golayExpected_lt _), golaySyndrome_low hs, ← Nat.xor_assoc, Nat.xor_self, Nat.zero_xor]

theorem golayErr_data {s : Nat} (hs : s < 2^11) : golayErr s >>> 11 = golayFix s := by
  have := golayFix_of_weight (golayErr_lt hs) (golayErr_weight hs)
  rw [golayErr_syndrome hs] at this
  exact this.symm

/-- Patterns of weight at most three are determined by their syndrome. -/
theorem pattern_unique {e f : Nat} (he : e < 2^23) (hf : f < 2^23) (hwe : weight 23 e ≤ 3) (hwf : weight 23 f ≤ 3)
    (h : golaySyndrome e = golaySyndrome f) : e = f := by
  have h1 := golayFix_of_weight he hwe
  have h2 := golayFix_of_weight hf hwf
  have htop : (e ^^^ f) >>> 11 = 0 := by
    have := linear_shiftRight 11 e f
    simp only at this
    rw [this, ← h1, ← h2, h, Nat.xor_self]
  have hs : golaySyndrome (e ^^^ f) = 0 := by rw [golaySyndrome_linear, h, Nat.xor_self]
  rw [golaySyndrome_low (lt_of_shiftRight_eq_zero htop)] at hs
  exact xor_eq_zero hs

/-! ### the decoder -/

/-- Data bits produced by the decoder for the packed word `w`. -/
def golayData (w : Nat) : Nat := (w >>> 11) ^^^ golayFix (golaySyndrome w)

theorem golayData_lt {w : Nat} (hw : w < 2^23) : golayData w < 2^12 :=
  Nat.xor_lt_two_pow (shiftRight_lt hw) (golayFix_lt _)

theorem ploop_copy (n : Nat) (inp out : Nat → Int) (j : Nat) :
    ploop (n + 1) (fun k out => upd out (n - k) (inp (n - k))) out j = if j ≤ n then inp j else out j := by
  have h := ploop_inv (n := n + 1) (f := fun k out => upd out (n - k) (inp (n - k))) (s := out)
    (fun k o => ∀ j, o j = if j ≤ n ∧ n < j + k then inp j else out j)
    (by intro j; rw [if_neg (by omega)])
    (by
      intro i hi s hs j
      simp only [upd]
      by_cases e : j = n - i
      · subst e; rw [if_pos rfl, if_pos (by omega)]
      · rw [if_neg e, hs j]
        by_cases h : j ≤ n ∧ n < j + i
        · rw [if_pos h, if_pos (by omega)]
        · rw [if_neg h, if_neg (by omega)])
  rw [h j]
  by_cases hj : j ≤ n
  · rw [if_pos (by omega), if_pos hj]
  · rw [if_neg (by omega), if_neg hj]

/-- Complete description of `mbe_golay2312` for every input. -/
theorem golay2312_eq (inp out : Nat → Int) :
    ∃ o errs, golay2312 inp out = .ok (o, errs) ∧
      (∀ j, o j = if j ≤ 10 then inp j else if j ≤ 22 then bit (golayData (packBits 23 inp)) (j - 11) else out j) ∧
      errs = ploop 12 (fun k errs => if o (22 - k) ≠ inp (22 - k) then errs + 1 else errs) 0 := by
  have hlt := packBits_lt (n := 23) (by decide) inp
  have hd := golayData_lt hlt
  unfold golay2312
  rw [checkGolayBlockU_eq]
  refine ⟨_, _, rfl, ?_, rfl⟩
  intro j
  rw [ploop_copy 10]
  by_cases h10 : j ≤ 10
  · rw [if_pos h10, if_pos h10]
  · rw [if_neg h10, if_neg h10, unpackBits_spec (by decide) (by decide) (by decide)]
    by_cases h22 : j ≤ 22
    · rw [if_pos h22, if_pos (by omega)]
      have e : 11 - (22 - j) = j - 11 := by omega
      rw [e]
      congr 1
      exact Nat.mod_eq_of_lt (Nat.lt_of_lt_of_le hd (by decide))
    · rw [if_neg h22, if_neg (by omega)]

theorem bit_ne_bit (a b i j : Nat) : (bit a i ≠ bit b j) ↔ (a.testBit i ≠ b.testBit j) := by
  unfold bit
  cases a.testBit i <;> cases b.testBit j <;> simp

/-- The error count of `mbe_golay2312` for 0/1 inputs. -/
theorem golay_errs {inp o : Nat → Int} {w f : Nat}
    (hin : ∀ i, i < 23 → inp i = bit w i)
    (ho : ∀ j, 11 ≤ j → j ≤ 22 → o j = bit ((w >>> 11) ^^^ f) (j - 11)) :
    ploop 12 (fun k errs => if o (22 - k) ≠ inp (22 - k) then errs + 1 else errs) 0 = weight 12 f := by
  have step : ∀ k, k < 12 → (o (22 - k) ≠ inp (22 - k) ↔ f.testBit (11 - k) = true) := by
    intro k hk
    rw [hin _ (by omega), ho _ (by omega) (by omega), bit_ne_bit, Nat.testBit_xor, Nat.testBit_shiftRight]
    have e1 : 22 - k - 11 = 11 - k := by omega
    have e2 : 11 + (11 - k) = 22 - k := by omega
    rw [e1, e2]
    cases w.testBit (22 - k) <;> cases f.testBit (11 - k) <;> simp
  have hc : ∀ k, k < 12 → ∀ n : Nat, (if o (22 - k) ≠ inp (22 - k) then n + 1 else n) = n + (f.testBit (11 - k)).toNat := by
    intro k hk n
    by_cases hb : f.testBit (11 - k) = true
    · rw [if_pos ((step k hk).mpr hb), hb]; rfl
    · have hb' : f.testBit (11 - k) = false := by simpa using hb
      rw [if_neg (fun h => hb ((step k hk).mp h)), hb']; rfl
  simp only [ploop, weight_succ, weight_zero_left, hc 0 (by decide), hc 1 (by decide), hc 2 (by decide), hc 3 (by decide),
    hc 4 (by decide), hc 5 (by decide), hc 6 (by decide), hc 7 (by decide), hc 8 (by decide), hc 9 (by decide),
    hc 10 (by decide), hc 11 (by decide), Nat.sub_zero, Nat.reduceSub]
  omega

/-! ### Hamming -/

theorem parity15_eq (x : Nat) : parity15 x = weight 15 x % 2 := by
  have hb : ∀ x, x &&& 1 = (x.testBit 0).toNat := by
    intro x; have := and_two_pow_eq x 0; simpa using this
  have h := ploop_inv (n := 14)
    (f := fun _ (s : Nat × Nat) => (s.1 >>> 1, s.2 ^^^ ((s.1 >>> 1) &&& 1))) (s := (x, x &&& 1))
    (fun k s => s.1 = x >>> k ∧ s.2 = weight (k + 1) x % 2)
    (by
      refine ⟨rfl, ?_⟩
      simp only [weight_succ, weight_zero_left, hb]
      cases x.testBit 0 <;> rfl)
    (by
      intro k hk s ⟨h1, h2⟩
      have e : s.1 >>> 1 = x >>> (k + 1) := by rw [h1, ← Nat.shiftRight_add]
      refine ⟨e, ?_⟩
      simp only [e, h2, hb, Nat.testBit_shiftRight, Nat.add_zero]
      rw [weight_succ (k + 1)]
      rcases Nat.mod_two_eq_zero_or_one (weight (k + 1) x) with h | h <;> cases x.testBit (k + 1) <;>
        simp [h, Nat.add_mod])
  exact h.2

theorem parity15_lt (x : Nat) : parity15 x < 2 := by rw [parity15_eq]; omega

theorem parity15_xor (a b : Nat) : parity15 (a ^^^ b) = parity15 a ^^^ parity15 b := by
  simp only [parity15_eq]
  rw [weight_xor_mod]
  rcases Nat.mod_two_eq_zero_or_one (weight 15 a) with h | h <;>
    rcases Nat.mod_two_eq_zero_or_one (weight 15 b) with h' | h' <;> simp [h, h', Nat.add_mod]

theorem hammingSyndrome4 (g0 g1 g2 g3 b : Nat) : hammingSyndrome [g0, g1, g2, g3] b =
    parity15 (b &&& g0) + 2 * parity15 (b &&& g1) + 4 * parity15 (b &&& g2) + 8 * parity15 (b &&& g3) := by
  simp only [hammingSyndrome, List.foldl]
  have h0 := parity15_lt (b &&& g0)
  have h1 := parity15_lt (b &&& g1)
  have h2 := parity15_lt (b &&& g2)
  have h3 := parity15_lt (b &&& g3)
  generalize parity15 (b &&& g0) = p0 at *
  generalize parity15 (b &&& g1) = p1 at *
  generalize parity15 (b &&& g2) = p2 at *
  generalize parity15 (b &&& g3) = p3 at *
  obtain rfl | rfl : p0 = 0 ∨ p0 = 1 := by omega
  all_goals obtain rfl | rfl : p1 = 0 ∨ p1 = 1 := by omega
  all_goals obtain rfl | rfl : p2 = 0 ∨ p2 = 1 := by omega
  all_goals obtain rfl | rfl : p3 = 0 ∨ p3 = 1 := by omega
  all_goals rfl

theorem hammingSyndrome_linear (g0 g1 g2 g3 : Nat) : Linear (hammingSyndrome [g0, g1, g2, g3]) := by
  intro a b
  simp only [hammingSyndrome4, and_xor_distrib_right, parity15_xor]
  have h0 := parity15_lt (a &&& g0)
  have h1 := parity15_lt (a &&& g1)
  have h2 := parity15_lt (a &&& g2)
  have h3 := parity15_lt (a &&& g3)
  have k0 := parity15_lt (b &&& g0)
  have k1 := parity15_lt (b &&& g1)
  have k2 := parity15_lt (b &&& g2)
  have k3 := parity15_lt (b &&& g3)
  generalize parity15 (a &&& g0) = p0 at *
  generalize parity15 (a &&& g1) = p1 at *
  generalize parity15 (a &&& g2) = p2 at *
  generalize parity15 (a &&& g3) = p3 at *
  generalize parity15 (b &&& g0) = q0 at *
  generalize parity15 (b &&& g1) = q1 at *
  generalize parity15 (b &&& g2) = q2 at *
  generalize parity15 (b &&& g3) = q3 at *
  obtain rfl | rfl : p0 = 0 ∨ p0 = 1 := by omega
  all_goals obtain rfl | rfl : p1 = 0 ∨ p1 = 1 := by omega
  all_goals obtain rfl | rfl : p2 = 0 ∨ p2 = 1 := by omega
  all_goals obtain rfl | rfl : p3 = 0 ∨ p3 = 1 := by omega
  all_goals obtain rfl | rfl : q0 = 0 ∨ q0 = 1 := by omega
  all_goals obtain rfl | rfl : q1 = 0 ∨ q1 = 1 := by omega
  all_goals obtain rfl | rfl : q2 = 0 ∨ q2 = 1 := by omega
  all_goals obtain rfl | rfl : q3 = 0 ∨ q3 = 1 := by omega
  all_goals rfl

theorem hammingSyndrome_lt (g0 g1 g2 g3 b : Nat) : hammingSyndrome [g0, g1, g2, g3] b < 16 := by
  rw [hammingSyndrome4]
  have h0 := parity15_lt (b &&& g0)
  have h1 := parity15_lt (b &&& g1)
  have h2 := parity15_lt (b &&& g2)
  have h3 := parity15_lt (b &&& g3)
  omega

/-- What the decoder needs of its tables. -/
structure HammingTables (gen lut : List Nat) : Prop where
  len : lut.length = 16
  /-- every non-zero syndrome is that of one single-bit pattern, and the table names it -/
  fix : ∀ s, s < 16 → s ≠ 0 → hammingSyndrome gen (lut.getD s 0) = s ∧ lut.getD s 0 < 2^15 ∧ weight 15 (lut.getD s 0) = 1
  /-- no pattern of weight one or two is a codeword -/
  sep : (patterns 15 2).all (fun e => Nat.beq e 0 || !Nat.beq (hammingSyndrome gen e) 0) = true

theorem tables7200 : HammingTables hammingGenerator ham1511_lut where
  len := by decide
  fix := by decide +kernel
  sep := by decide +kernel

theorem tables7100 : HammingTables imbe7100x4400hammingGenerator ham1511_7100_lut where
  len := by decide
  fix := by decide +kernel
  sep := by decide +kernel

/-- The word the Hamming decoder settles on. -/
def hammingCorrect (gen lut : List Nat) (w : Nat) : Nat :=
  if hammingSyndrome gen w = 0 then w else w ^^^ lut.getD (hammingSyndrome gen w) 0

theorem hammingWith_eq {gen lut : List Nat} (ht : HammingTables gen lut)
    (hlt : ∀ b, hammingSyndrome gen b < 16) (inp out : Nat → Int) :
    ∃ o, hammingWith gen lut inp out = .ok (o, if hammingSyndrome gen (packBits 15 inp) = 0 then 0 else 1) ∧
      ∀ j, o j = if j ≤ 14 then bit (hammingCorrect gen lut (packBits 15 inp)) j else out j := by
  have hw := packBits_lt (n := 15) (by decide) inp
  unfold hammingWith
  generalize packBits 15 inp = w at *
  by_cases hs : hammingSyndrome gen w = 0
  · simp only [hs, Nat.lt_irrefl, if_false, if_true, gt_iff_lt]
    refine ⟨_, rfl, ?_⟩
    intro j
    rw [unpackBits_spec (by decide) (by decide) (by decide)]
    unfold hammingCorrect
    rw [if_pos hs]
    by_cases hj : j ≤ 14
    · rw [if_pos (by omega), if_pos hj, show 14 - (14 - j) = j by omega]
    · rw [if_neg (by omega), if_neg hj]
  · have hpos : hammingSyndrome gen w > 0 := by omega
    have htab : tab lut (hammingSyndrome gen w) = .ok (lut.getD (hammingSyndrome gen w) 0) :=
      tab_getD 0 (by rw [ht.len]; exact hlt w)
    simp only [hpos, if_true, htab, hs, if_false]
    refine ⟨_, rfl, ?_⟩
    intro j
    rw [unpackBits_spec (by decide) (by decide) (by decide)]
    unfold hammingCorrect
    rw [if_neg hs]
    by_cases hj : j ≤ 14
    · rw [if_pos (by omega), if_pos hj, show 14 - (14 - j) = j by omega]
    · rw [if_neg (by omega), if_neg hj]

end Verif
