import Verif.Model.Frames
import Verif.Spec.Frames
import Verif.Lemmas.Codes

/-! Closed forms of the loops in `Verif.Model.Frames`. -/

namespace Verif
open Verif.Spec Verif.Model

theorem rdF_ok {R C : Nat} {fr : Frame} {i j : Nat} (hi : i < R) (hj : j < C) : rdF R C fr i j = .ok (fr i j) := by
  simp [rdF, hi, hj]

theorem wrF_ok {R C : Nat} {fr : Frame} {i j : Nat} {v : Int} (hi : i < R) (hj : j < C) :
    wrF R C fr i j v = .ok (fun i' j' => if i' = i ∧ j' = j then v else fr i' j') := by
  simp [wrF, hi, hj]

theorem Ok.eq {α} {x : Exec α} {a : α} (h : Ok x (fun b => b = a)) : x = .ok a := by
  obtain ⟨b, hb, rfl⟩ := h; exact hb

theorem copyIn_eq {R C len : Nat} {fr : Frame} {i off n : Nat} {buf : Nat → Int} (hi : i < R) (hC : n + off ≤ C)
    (hlen : n ≤ len) :
    copyIn R C len fr i off n buf = .ok (fun j => if j < n then fr i (j + off) else buf j) := by
  apply Ok.eq
  unfold copyIn
  refine (loop_inv (fun k b => b = fun j => if j < k then fr i (j + off) else buf j) ?_ ?_).mono fun _ h => h
  · funext j; simp
  · intro k hk s hs
    rw [rdF_ok hi (by omega)]
    simp only [ok_bind]
    rw [wr_ok (by omega)]
    refine Ok.ok ?_
    subst hs
    funext j
    simp only [upd]
    by_cases h : j = k
    · subst h; simp
    · rw [if_neg h]
      by_cases h2 : j < k
      · rw [if_pos h2, if_pos (by omega)]
      · rw [if_neg h2, if_neg (by omega)]

theorem copyBack_eq {R C len : Nat} {fr : Frame} {i off n : Nat} {buf : Nat → Int} (hi : i < R) (hC : n + off ≤ C)
    (hlen : n ≤ len) :
    copyBack R C len fr i off n buf =
      .ok (fun i' j' => if i' = i ∧ off ≤ j' ∧ j' < off + n then buf (j' - off) else fr i' j') := by
  apply Ok.eq
  unfold copyBack
  refine (loop_inv (fun k b => b = fun i' j' => if i' = i ∧ off ≤ j' ∧ j' < off + k then buf (j' - off) else fr i' j')
    ?_ ?_).mono fun _ h => h
  · funext i' j'; rw [if_neg (by omega)]
  · intro k hk s hs
    rw [rd_ok (by omega)]
    simp only [ok_bind]
    rw [wrF_ok hi (by omega)]
    refine Ok.ok ?_
    subst hs
    funext i' j'
    simp only
    by_cases h : i' = i ∧ j' = k + off
    · obtain ⟨rfl, rfl⟩ := h
      rw [if_pos ⟨rfl, rfl⟩, if_pos ⟨rfl, by omega, by omega⟩]
      congr 1; omega
    · rw [if_neg h]
      by_cases h2 : i' = i ∧ off ≤ j' ∧ j' < off + k
      · rw [if_pos h2, if_pos ⟨h2.1, h2.2.1, by omega⟩]
      · rw [if_neg h2, if_neg ?_]
        intro h3
        exact h2 ⟨h3.1, h3.2.1, by
          have : j' ≠ k + off := fun e => h ⟨h3.1, e⟩
          omega⟩

/-- Closed form shared by the two emit loops. -/
def emitted (src : Nat → Int) (n : Nat) (s : (Nat → Int) × Nat) : (Nat → Int) × Nat :=
  (fun p => if s.2 ≤ p ∧ p < s.2 + n then src (p - s.2) else s.1 p, s.2 + n)

theorem emitRow_eq {R C len : Nat} {fr : Frame} {i hi n : Nat} {s : (Nat → Int) × Nat} (hR : i < R) (hC : hi < C)
    (hlen : s.2 + n ≤ len) :
    emitRow R C len fr i hi n s = .ok (emitted (fun k => fr i (hi - k)) n s) := by
  apply Ok.eq
  unfold emitRow
  refine (loop_inv (fun k b => b = emitted (fun k => fr i (hi - k)) k s) ?_ ?_).mono fun _ h => h
  · unfold emitted
    rw [Prod.ext_iff]
    refine ⟨?_, rfl⟩
    funext p; simp only; rw [if_neg (by omega)]
  · intro k hk t ht
    subst ht
    rw [rdF_ok hR (by omega)]
    simp only [ok_bind]
    rw [wr_ok (by simp only [emitted]; omega)]
    simp only [ok_bind]
    refine Ok.ok ?_
    unfold emitted
    rw [Prod.ext_iff]
    refine ⟨?_, rfl⟩
    funext p
    simp only [upd]
    by_cases h : p = s.2 + k
    · subst h
      rw [if_pos rfl, if_pos (by omega)]
      congr 2; omega
    · rw [if_neg h]
      by_cases h2 : s.2 ≤ p ∧ p < s.2 + k
      · rw [if_pos h2, if_pos (by omega)]
      · rw [if_neg h2, if_neg (by omega)]

theorem emitBuf_eq {blen len : Nat} {buf : Nat → Int} {hi n : Nat} {s : (Nat → Int) × Nat} (hC : hi < blen)
    (hlen : s.2 + n ≤ len) :
    emitBuf blen len buf hi n s = .ok (emitted (fun k => buf (hi - k)) n s) := by
  apply Ok.eq
  unfold emitBuf
  refine (loop_inv (fun k b => b = emitted (fun k => buf (hi - k)) k s) ?_ ?_).mono fun _ h => h
  · unfold emitted
    rw [Prod.ext_iff]
    refine ⟨?_, rfl⟩
    funext p; simp only; rw [if_neg (by omega)]
  · intro k hk t ht
    subst ht
    rw [rd_ok (by omega)]
    simp only [ok_bind]
    rw [wr_ok (by simp only [emitted]; omega)]
    simp only [ok_bind]
    refine Ok.ok ?_
    unfold emitted
    rw [Prod.ext_iff]
    refine ⟨?_, rfl⟩
    funext p
    simp only [upd]
    by_cases h : p = s.2 + k
    · subst h
      rw [if_pos rfl, if_pos (by omega)]
      congr 2; omega
    · rw [if_neg h]
      by_cases h2 : s.2 ≤ p ∧ p < s.2 + k
      · rw [if_pos h2, if_pos (by omega)]
      · rw [if_neg h2, if_neg (by omega)]

/-! ### pseudo-random sequence -/

theorem pnState_lt (seed k : Nat) : pnState seed k < 65536 := by
  cases k <;> exact Nat.mod_lt _ (by decide)

theorem pnState_zero (seed : Nat) : pnState seed 0 = (16 * seed) % 65536 := by rw [pnState]
theorem pnState_succ (seed k : Nat) : pnState seed (k + 1) = (173 * pnState seed k + 13849) % 65536 := by rw [pnState]

theorem i32_ok {x : Int} (h1 : -2147483648 ≤ x) (h2 : x < 2147483648) : i32 x = .ok x := by
  unfold i32
  rw [if_pos ⟨by omega, by omega⟩]

theorem prStep_eq {p : Nat} (hp : p < 65536) : prStep p = .ok ((173 * p + 13849) % 65536) := by
  unfold prStep
  rw [i32_ok (by omega) (by omega), ok_bind, i32_ok (by omega) (by omega), ok_bind, i32_ok (by omega) (by omega),
    ok_bind, i32_ok (by omega) (by omega), ok_bind]
  have h : ((173 * (p : Int) + 13849 - 65536 * ((173 * (p : Int) + 13849) / 65536)) % 65536).toNat =
    (173 * p + 13849) % 65536 := by omega
  rw [h]

theorem pnBit_toNat (seed k : Nat) : pnState seed k >>> 15 = (pnBit seed k).toNat := by
  have h := pnState_lt seed k
  rw [Nat.shiftRight_eq_div_pow]
  unfold pnBit
  by_cases h2 : 32768 ≤ pnState seed k
  · simp only [h2, decide_true, Bool.toNat_true]; omega
  · simp only [h2, decide_false, Bool.toNat_false]; omega

theorem prFill_ok {seed n : Nat} (hn : n ≤ 115) {pr0 : Nat → Option Nat} (h0 : pr0 0 = some (pnState seed 0)) :
    Ok (loop (n - 1) (fun k pr => do
      let p ← rd 115 pr k
      let p ← init? p
      let v ← prStep p
      wr 115 pr (k + 1) (some v)) pr0) (fun pr => ∀ k, k < n → pr k = some (pnState seed k)) := by
  refine (loop_inv (fun m pr => ∀ k, k ≤ m → pr k = some (pnState seed k)) ?_ ?_).mono ?_
  · intro k hk
    have : k = 0 := by omega
    subst this; exact h0
  · intro m hm pr hpr
    rw [rd_ok (by omega), hpr m (Nat.le_refl m), ok_bind, show init? (some (pnState seed m)) = .ok _ from rfl, ok_bind,
      prStep_eq (pnState_lt _ _), ok_bind, wr_ok (by omega), ← pnState_succ]
    refine Ok.ok ?_
    intro k hk
    simp only [upd]
    by_cases h : k = m + 1
    · subst h; rw [if_pos rfl]
    · rw [if_neg h]; exact hpr k (by omega)
  · intro pr hpr k hk; exact hpr k (by omega)

theorem prBits_ok {seed n : Nat} (hn : n ≤ 115) {pr0 : Nat → Option Nat} (h0 : ∀ k, k < n → pr0 k = some (pnState seed k)) :
    Ok (loop (n - 1) (fun k pr => do
      let p ← rd 115 pr (k + 1)
      let p ← init? p
      wr 115 pr (k + 1) (some (p >>> 15))) pr0) (fun pr => ∀ k, 1 ≤ k → k < n → pr k = some (pnBit seed k).toNat) := by
  refine (loop_inv (fun m pr => ∀ k, k < n → pr k =
      some (if 1 ≤ k ∧ k ≤ m then (pnBit seed k).toNat else pnState seed k)) ?_ ?_).mono ?_
  · intro k hk
    rw [if_neg (by omega)]; exact h0 k hk
  · intro m hm pr hpr
    rw [rd_ok (by omega), hpr (m + 1) (by omega), if_neg (by omega), ok_bind,
      show init? (some (pnState seed (m + 1))) = .ok _ from rfl, ok_bind, wr_ok (by omega)]
    refine Ok.ok ?_
    intro k hk
    simp only [upd]
    by_cases h : k = m + 1
    · subst h; rw [if_pos rfl, if_pos (by omega), pnBit_toNat]
    · rw [if_neg h, hpr k hk]
      congr 1
      by_cases h2 : 1 ≤ k ∧ k ≤ m
      · rw [if_pos h2, if_pos (by omega)]
      · rw [if_neg h2, if_neg (by omega)]
  · intro pr hpr k h1 h2
    rw [hpr k h2, if_pos (by omega)]

theorem prArray_ok {seed n : Nat} (hn : n ≤ 115) :
    Ok (prArray seed n) (fun pr => ∀ k, 1 ≤ k → k < n → pr k = some (pnBit seed k).toNat) := by
  unfold prArray
  refine Ok.bind_eq (wr_ok (by decide)) ?_
  refine Ok.bind (prFill_ok (seed := seed) hn ?_) ?_
  · rw [upd_same, pnState_zero]
  · intro pr hpr
    exact prBits_ok hn hpr

/-- A frame with row `i`, columns below `n`, xored with the sequence starting at `k0`. -/
def xored (pn : Nat → Bool) (i n k0 : Nat) (fr : Frame) : Frame :=
  fun i' j => if i' = i ∧ j < n then xorBit (fr i' j) (pn (k0 + (n - 1 - j))).toNat else fr i' j

theorem xorRow_eq {R C N : Nat} {pr : Nat → Option Nat} {pn : Nat → Bool} {i n : Nat} {s : Frame × Nat}
    (hpr : ∀ k, 1 ≤ k → k < N → pr k = some (pn k).toNat) (hN : N ≤ 115)
    (hi : i < R) (hC : n ≤ C) (h1 : 1 ≤ s.2) (hk : s.2 + n ≤ N) :
    xorRow R C pr i n s = .ok (xored pn i n s.2 s.1, s.2 + n) := by
  apply Ok.eq
  unfold xorRow
  refine (loopDown_inv (fun m t => t.2 = s.2 + (n - m) ∧ m ≤ n ∧ t.1 = fun i' j =>
    if i' = i ∧ j < n ∧ m ≤ j then xorBit (s.1 i' j) (pn (s.2 + (n - 1 - j))).toNat else s.1 i' j) ?_ ?_).mono ?_
  · refine ⟨by omega, Nat.le_refl _, ?_⟩
    funext i' j; rw [if_neg (by omega)]
  · intro m hm t ⟨h2, h3, h4⟩
    rw [rdF_ok hi (by omega)]
    simp only [ok_bind]
    rw [rd_ok (by omega), hpr t.2 (by omega) (by omega)]
    simp only [ok_bind, init?]
    rw [wrF_ok hi (by omega)]
    simp only [ok_bind]
    refine Ok.ok ⟨by omega, by omega, ?_⟩
    funext i' j
    simp only
    by_cases h : i' = i ∧ j = m
    · obtain ⟨rfl, rfl⟩ := h
      rw [if_pos ⟨rfl, rfl⟩, if_pos ⟨rfl, hm, Nat.le_refl _⟩, h4]
      simp only
      rw [if_neg (by omega)]
      congr 3; omega
    · rw [if_neg h, h4]
      simp only
      by_cases h5 : i' = i ∧ j < n ∧ m + 1 ≤ j
      · rw [if_pos h5, if_pos (by omega)]
      · rw [if_neg h5, if_neg (by omega)]
  · intro t ⟨h2, _, h4⟩
    rw [Prod.ext_iff]
    refine ⟨?_, by simpa using h2⟩
    rw [h4]
    funext i' j
    simp only [xored]
    by_cases h : i' = i ∧ j < n
    · rw [if_pos ⟨h.1, h.2, Nat.zero_le _⟩, if_pos h]
    · rw [if_neg (fun h2 => h ⟨h2.1, h2.2.1⟩), if_neg h]

/-! ### seeds -/

theorem strtol2_bits (n : Nat) (f : Nat → Bool) (acc : Nat) :
    strtol2 ((List.range n).map fun k => chr (f k) + 48) acc =
      (List.range n).foldl (fun a k => 2 * a + (f k).toNat) acc := by
  have h : ∀ (l : List Nat) (acc : Nat), strtol2 (l.map fun k => chr (f k) + 48) acc =
      l.foldl (fun a k => 2 * a + (f k).toNat) acc := by
    intro l
    induction l with
    | nil => intro acc; rfl
    | cons k l ih =>
      intro acc
      simp only [List.map_cons, strtol2, List.foldl_cons, ← ih]
      unfold chr
      cases f k <;> simp
  exact h _ _

theorem foldl_bits_lt (n : Nat) (f : Nat → Bool) : (List.range n).foldl (fun a k => 2 * a + (f k).toNat) 0 < 2^n := by
  induction n with
  | zero => exact Nat.one_pos
  | succ n ih =>
    rw [List.range_succ, List.foldl_append]
    simp only [List.foldl_cons, List.foldl_nil]
    have : (f n).toNat ≤ 1 := by cases f n <;> decide
    rw [Nat.pow_succ]; omega

theorem foldl_bits_testBit (n : Nat) (f : Nat → Bool) (i : Nat) (hi : i < n) :
    ((List.range n).foldl (fun a k => 2 * a + (f k).toNat) 0).testBit i = f (n - 1 - i) := by
  induction n generalizing i with
  | zero => omega
  | succ n ih =>
    rw [List.range_succ, List.foldl_append]
    simp only [List.foldl_cons, List.foldl_nil]
    cases i with
    | zero =>
      rw [Nat.testBit_zero]
      cases hf : f n <;> simp [hf, Nat.add_mod]
    | succ i =>
      rw [Nat.testBit_succ]
      have : (2 * (List.range n).foldl (fun a k => 2 * a + (f k).toNat) 0 + (f n).toNat) / 2 =
          (List.range n).foldl (fun a k => 2 * a + (f k).toNat) 0 := by
        have : (f n).toNat ≤ 1 := by cases f n <;> decide
        omega
      rw [this, ih i (by omega)]
      congr 1; omega

/-- The number read most significant bit first from the bits `hi .. hi-n+1` of a word. -/
theorem foldl_bits_word {w hi n : Nat} (h : n ≤ hi + 1) (hw : w < 2^(hi + 1)) :
    (List.range n).foldl (fun a k => 2 * a + (w.testBit (hi - k)).toNat) 0 = w >>> (hi + 1 - n) := by
  apply Nat.eq_of_testBit_eq; intro i
  by_cases hi' : i < n
  · rw [foldl_bits_testBit n (fun k => w.testBit (hi - k)) i hi', Nat.testBit_shiftRight]
    congr 1; omega
  · rw [testBit_lt_of_lt (foldl_bits_lt n fun k => w.testBit (hi - k)) (by omega), Nat.testBit_shiftRight,
      testBit_lt_of_lt hw (by omega)]

theorem bit_eq_chr (w i : Nat) : bit w i = chr (w.testBit i) := rfl

theorem xorBit_chr (a b : Bool) : xorBit (chr a) b.toNat = chr (a ^^ b) := by
  cases a <;> cases b <;> rfl

theorem xorBit_xorBit (c : Int) (b : Nat) : xorBit (xorBit c b) b = c := by
  unfold xorBit
  split
  · by_cases h : c % 2 = 0
    · rw [if_pos h, if_neg (by omega)]; omega
    · rw [if_neg h, if_pos (by omega)]; omega
  · rfl

end Verif
