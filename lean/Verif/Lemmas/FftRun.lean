import Verif.Lemmas.Stores

/-!
# The transform runs without undefined behaviour and is a function of its input
-/

set_option linter.unusedSectionVars false

namespace Verif.Model
open Verif Arith

variable {F : Type} [Arith F]

/-! ## Stores of the passes -/

def endsF (ido q : Int) (c : Int → F) (c0 h0 : Int) : List (Int × F) :=
  [(h0 + (2 * ido - 1), c c0 -ᶠ c (c0 + 2 * q)),
   (h0 + 2 * ido, c (c0 + 3 * q) -ᶠ c (c0 + q)),
   (h0, (c (c0 + q) +ᶠ c (c0 + 3 * q)) +ᶠ (c c0 +ᶠ c (c0 + 2 * q))),
   (h0 + (4 * ido - 1), (c c0 +ᶠ c (c0 + 2 * q)) -ᶠ (c (c0 + q) +ᶠ c (c0 + 3 * q)))]

/-- The products with the twiddle factors. -/
def twF (q : Int) (c w : Int → F) (w1 i p j : Int) : F × F :=
  mulConj (c (p + j * q)) (c (p + j * q + 1)) (w (w1 + (i - 2))) (w (w1 + (i - 1)))

def midF (ido q : Int) (c w : Int → F) (w1 w2 w3 k i p : Int) : List (Int × F) :=
  let c2 := twF q c w w1 i p 1
  let c3 := twF q c w w2 i p 2
  let c4 := twF q c w w3 i p 3
  [(i - 1 + 4 * k, (c2.1 +ᶠ c4.1) +ᶠ (c p +ᶠ c3.1)),
   (ido - i - 1 + 4 * k + 3 * ido, (c p +ᶠ c3.1) -ᶠ (c2.1 +ᶠ c4.1)),
   (i - 1 + 4 * k + 2 * ido, (c2.2 -ᶠ c4.2) +ᶠ (c p -ᶠ c3.1)),
   (ido - i - 1 + 4 * k + 1 * ido, (c p -ᶠ c3.1) -ᶠ (c2.2 -ᶠ c4.2)),
   (i + 4 * k, (c2.2 +ᶠ c4.2) +ᶠ (c (p + 1) +ᶠ c3.2)),
   (ido - i + 4 * k + 3 * ido, (c2.2 +ᶠ c4.2) -ᶠ (c (p + 1) +ᶠ c3.2)),
   (i + 4 * k + 2 * ido, (c4.1 -ᶠ c2.1) +ᶠ (c (p + 1) -ᶠ c3.2)),
   (ido - i + 4 * k + 1 * ido, (c4.1 -ᶠ c2.1) -ᶠ (c (p + 1) -ᶠ c3.2))]

def halfF (ido q : Int) (c : Int → F) (k : Int) : List (Int × F) :=
  let b := ido - 1 + k
  [(ido - 1 + 4 * k, (minusHsqt2 *ᶠ (c (b + 3 * q) -ᶠ c (b + q))) +ᶠ c b),
   (ido - 1 + 4 * k + 2 * ido, c b -ᶠ (minusHsqt2 *ᶠ (c (b + 3 * q) -ᶠ c (b + q)))),
   (4 * k + 1 * ido, (minusHsqt2 *ᶠ (c (b + q) +ᶠ c (b + 3 * q))) -ᶠ c (b + 2 * q)),
   (4 * k + 3 * ido, (minusHsqt2 *ᶠ (c (b + q) +ᶠ c (b + 3 * q))) +ᶠ c (b + 2 * q))]

def endsB (ido q : Int) (c : Int → F) (c0 h0 : Int) : List (Int × F) :=
  [(h0 + 0 * q, (c c0 +ᶠ c (c0 + (4 * ido - 1))) +ᶠ (fi 2 *ᶠ c (c0 + (2 * ido - 1)))),
   (h0 + 2 * q, (c c0 +ᶠ c (c0 + (4 * ido - 1))) -ᶠ (fi 2 *ᶠ c (c0 + (2 * ido - 1)))),
   (h0 + 1 * q, (c c0 -ᶠ c (c0 + (4 * ido - 1))) -ᶠ (fi 2 *ᶠ c (c0 + 2 * ido))),
   (h0 + 3 * q, (c c0 -ᶠ c (c0 + (4 * ido - 1))) +ᶠ (fi 2 *ᶠ c (c0 + 2 * ido)))]

def midB (ido q : Int) (c w : Int → F) (w1 w2 w3 i p h : Int) : List (Int × F) :=
  let tr1 := c (p + i) -ᶠ c (p + (4 * ido - i))
  let tr2 := c (p + i) +ᶠ c (p + (4 * ido - i))
  let ti4 := c (p + (2 * ido + i)) -ᶠ c (p + (2 * ido - i))
  let tr3 := c (p + (2 * ido + i)) +ᶠ c (p + (2 * ido - i))
  let ti3 := c (p + (2 * ido + i + 1)) -ᶠ c (p + (2 * ido - i + 1))
  let tr4 := c (p + (2 * ido + i + 1)) +ᶠ c (p + (2 * ido - i + 1))
  let ti1 := c (p + (i + 1)) +ᶠ c (p + (4 * ido - i + 1))
  let ti2 := c (p + (i + 1)) -ᶠ c (p + (4 * ido - i + 1))
  let c2 := mulCplx (tr1 -ᶠ tr4) (ti1 +ᶠ ti4) (w (w1 + (i - 2))) (w (w1 + (i - 1)))
  let c3 := mulCplx (tr2 -ᶠ tr3) (ti2 -ᶠ ti3) (w (w2 + (i - 2))) (w (w2 + (i - 1)))
  let c4 := mulCplx (tr1 +ᶠ tr4) (ti1 -ᶠ ti4) (w (w3 + (i - 2))) (w (w3 + (i - 1)))
  [(h, tr2 +ᶠ tr3), (h + 1, ti2 +ᶠ ti3), (h + q, c2.1), (h + q + 1, c2.2),
   (h + 2 * q, c3.1), (h + 2 * q + 1, c3.2), (h + 3 * q, c4.1), (h + 3 * q + 1, c4.2)]

def halfB (ido q : Int) (c : Int → F) (k : Int) : List (Int × F) :=
  let b := ido - 1 + k
  let i0 := 4 * k + ido
  let tr1 := c (i0 - 1) -ᶠ c (i0 + 2 * ido - 1)
  let tr2 := c (i0 - 1) +ᶠ c (i0 + 2 * ido - 1)
  let ti1 := c (i0 + 2 * ido) +ᶠ c i0
  let ti2 := c (i0 + 2 * ido) -ᶠ c i0
  [(b + 0 * q, tr2 +ᶠ tr2), (b + 1 * q, minusSqrt2 *ᶠ (ti1 -ᶠ tr1)), (b + 2 * q, ti2 +ᶠ ti2),
   (b + 3 * q, minusSqrt2 *ᶠ (ti1 +ᶠ tr1))]

/-- Rows of initialised twiddle factors of one pass. -/
def TwRows {sz : Nat} (wa : Loc sz F) (w : Int → F) (ido w1 w2 w3 : Int) : Prop :=
  ∀ a, (w1 ≤ a ∧ a < w1 + (ido - 2)) ∨ (w2 ≤ a ∧ a < w2 + (ido - 2)) ∨ (w3 ≤ a ∧ a < w3 + (ido - 2)) →
    wa.rd a = .ok (w a)

theorem radf4Ends_eq {n : Nat} {ido q k : Int} (c : Int → F) (ch : Loc n F) (hi : 1 ≤ ido) (hk : 0 ≤ k)
    (hq : k + ido ≤ q) (h4 : 4 * q = n) :
    radf4Ends ido q (full n c) k (4 * k) ch = .ok (stores ch (endsF ido q c k (4 * k))) := by
  unfold radf4Ends
  rw [rd_full (by omega) (by omega), ok_bind, rd_full (by omega) (by omega), ok_bind, rd_full (by omega) (by omega), ok_bind,
    rd_full (by omega) (by omega), ok_bind]
  dsimp only
  rw [wr_stores (by omega) (by omega), ok_bind, wr_stores (by omega) (by omega), ok_bind, wr_stores (by omega) (by omega),
    ok_bind, wr_stores (by omega) (by omega)]
  rfl

theorem radf4Mid_eq {sz n : Nat} {ido q k i : Int} (c w : Int → F) (wa : Loc sz F) (ch : Loc n F) {w1 w2 w3 : Int}
    (hw : TwRows wa w ido w1 w2 w3) (hk : 0 ≤ k) (hq : k + ido ≤ q) (h4 : 4 * q = n) (hi : 2 ≤ i) (hi' : i + 1 < ido) :
    radf4Mid ido q (full n c) wa w1 w2 w3 k i (k + i - 1) ch =
      .ok (stores ch (midF ido q c w w1 w2 w3 k i (k + i - 1))) := by
  unfold radf4Mid
  dsimp only
  rw [rd_full (by omega) (by omega), ok_bind, rd_full (by omega) (by omega), ok_bind, hw _ (by omega), ok_bind,
    hw _ (by omega), ok_bind, rd_full (by omega) (by omega), ok_bind, rd_full (by omega) (by omega), ok_bind, hw _ (by omega), ok_bind,
    hw _ (by omega), ok_bind, rd_full (by omega) (by omega), ok_bind, rd_full (by omega) (by omega), ok_bind, hw _ (by omega), ok_bind,
    hw _ (by omega), ok_bind, rd_full (by omega) (by omega), ok_bind]
  rw [wr_stores (by omega) (by omega), ok_bind, wr_stores (by omega) (by omega), ok_bind, wr_stores (by omega) (by omega),
    ok_bind, wr_stores (by omega) (by omega), ok_bind, rd_full (by omega) (by omega), ok_bind,
    wr_stores (by omega) (by omega), ok_bind, wr_stores (by omega) (by omega), ok_bind, wr_stores (by omega) (by omega),
    ok_bind, wr_stores (by omega) (by omega)]
  simp only [stores_stores, List.cons_append, List.nil_append, midF, twF, Int.add_zero, Int.add_assoc, Int.one_mul]

theorem radf4Half_eq {n : Nat} {ido q k : Int} (c : Int → F) (ch : Loc n F) (hi : 1 ≤ ido) (hk : 0 ≤ k)
    (hq : k + ido ≤ q) (h4 : 4 * q = n) :
    radf4Half ido q (full n c) k ch = .ok (stores ch (halfF ido q c k)) := by
  unfold radf4Half
  rw [rd_full (by omega) (by omega), ok_bind, rd_full (by omega) (by omega), ok_bind, rd_full (by omega) (by omega), ok_bind,
    rd_full (by omega) (by omega), ok_bind]
  dsimp only
  rw [wr_stores (by omega) (by omega), ok_bind, wr_stores (by omega) (by omega), ok_bind, wr_stores (by omega) (by omega),
    ok_bind, wr_stores (by omega) (by omega)]
  rfl

theorem radb4Ends_eq {n : Nat} {ido q k : Int} (c : Int → F) (ch : Loc n F) (hi : 1 ≤ ido) (hk : 0 ≤ k)
    (hq : k + ido ≤ q) (h4 : 4 * q = n) :
    radb4Ends ido q (full n c) (4 * k) k ch = .ok (stores ch (endsB ido q c (4 * k) k)) := by
  unfold radb4Ends
  rw [rd_full (by omega) (by omega), ok_bind, rd_full (by omega) (by omega), ok_bind, rd_full (by omega) (by omega), ok_bind,
    rd_full (by omega) (by omega), ok_bind]
  dsimp only
  rw [wr_stores (by omega) (by omega), ok_bind, wr_stores (by omega) (by omega), ok_bind, wr_stores (by omega) (by omega),
    ok_bind, wr_stores (by omega) (by omega)]
  rfl

theorem radb4Mid_eq {sz n : Nat} {ido q k i : Int} (c w : Int → F) (wa : Loc sz F) (ch : Loc n F) {w1 w2 w3 : Int}
    (hw : TwRows wa w ido w1 w2 w3) (hk : 0 ≤ k) (hq : k + ido ≤ q) (h4 : 4 * q = n) (hi : 2 ≤ i) (hi' : i + 1 < ido) :
    radb4Mid ido q (full n c) wa w1 w2 w3 i (-1 + 4 * k) (k + i - 1) ch =
      .ok (stores ch (midB ido q c w w1 w2 w3 i (-1 + 4 * k) (k + i - 1))) := by
  unfold radb4Mid
  dsimp only
  rw [rd_full (by omega) (by omega), ok_bind, rd_full (by omega) (by omega), ok_bind, rd_full (by omega) (by omega), ok_bind,
    rd_full (by omega) (by omega), ok_bind, wr_stores (by omega) (by omega), ok_bind, rd_full (by omega) (by omega), ok_bind,
    rd_full (by omega) (by omega), ok_bind, rd_full (by omega) (by omega), ok_bind, rd_full (by omega) (by omega), ok_bind,
    wr_stores (by omega) (by omega), ok_bind, hw _ (by omega), ok_bind, hw _ (by omega), ok_bind,
    wr_stores (by omega) (by omega), ok_bind, wr_stores (by omega) (by omega), ok_bind, hw _ (by omega), ok_bind, hw _ (by omega), ok_bind,
    wr_stores (by omega) (by omega), ok_bind, wr_stores (by omega) (by omega), ok_bind, hw _ (by omega), ok_bind, hw _ (by omega), ok_bind,
    wr_stores (by omega) (by omega), ok_bind, wr_stores (by omega) (by omega)]
  have e2 : k + i - 1 + q + q = k + i - 1 + 2 * q := by omega
  have e3 : k + i - 1 + 2 * q + q = k + i - 1 + 3 * q := by omega
  simp only [stores_stores, List.cons_append, List.nil_append, midB, Int.add_zero, e2, e3]

theorem radb4Half_eq {n : Nat} {ido q k : Int} (c : Int → F) (ch : Loc n F) (hi : 1 ≤ ido) (hk : 0 ≤ k)
    (hq : k + ido ≤ q) (h4 : 4 * q = n) :
    radb4Half ido q (full n c) k ch = .ok (stores ch (halfB ido q c k)) := by
  unfold radb4Half
  dsimp only
  rw [rd_full (by omega) (by omega), ok_bind, rd_full (by omega) (by omega), ok_bind, rd_full (by omega) (by omega), ok_bind,
    rd_full (by omega) (by omega), ok_bind]
  rw [wr_stores (by omega) (by omega), ok_bind, wr_stores (by omega) (by omega), ok_bind, wr_stores (by omega) (by omega),
    ok_bind, wr_stores (by omega) (by omega)]
  simp only [stores_stores, List.cons_append, List.nil_append, halfB, Int.add_zero]

/-- The four shapes of a pass: `ido` and `l1`. -/
def passes : List (Nat × Nat) := [(1, 64), (4, 16), (16, 4), (64, 1)]

theorem mem_passes {ido l1 : Nat} (h : (ido, l1) ∈ passes) :
    (ido = 1 ∧ l1 = 64) ∨ (ido = 4 ∧ l1 = 16) ∨ (ido = 16 ∧ l1 = 4) ∨ (ido = 64 ∧ l1 = 1) := by
  simpa [passes] using h

/-- All stores of a forward pass, in order. -/
def passF (ido l1 : Nat) (c w : Int → F) (w1 w2 w3 : Int) : List (Int × F) :=
  (List.range l1).flatMap (fun t => endsF ido 64 c ((t * ido : Nat) : Int) (4 * ((t * ido : Nat) : Int))) ++
  if ido = 1 then [] else
    (List.range l1).flatMap (fun t => (List.range ((ido - 1) / 2)).flatMap fun u =>
      midF ido 64 c w w1 w2 w3 ((t * ido : Nat) : Int) ((2 * u + 2 : Nat) : Int) (((t * ido : Nat) : Int) + ((2 * u + 2 : Nat) : Int) - 1)) ++
    (List.range l1).flatMap (fun t => halfF ido 64 c ((t * ido : Nat) : Int))

/-- All stores of a backward pass, in order. -/
def passB (ido l1 : Nat) (c w : Int → F) (w1 w2 w3 : Int) : List (Int × F) :=
  (List.range l1).flatMap (fun t => endsB ido 64 c (4 * ((t * ido : Nat) : Int)) ((t * ido : Nat) : Int)) ++
  if ido = 1 then [] else
    (List.range l1).flatMap (fun t => (List.range ((ido - 1) / 2)).flatMap fun u =>
      midB ido 64 c w w1 w2 w3 ((2 * u + 2 : Nat) : Int) (-1 + 4 * ((t * ido : Nat) : Int)) (((t * ido : Nat) : Int) + ((2 * u + 2 : Nat) : Int) - 1)) ++
    (List.range l1).flatMap (fun t => halfB ido 64 c ((t * ido : Nat) : Int))

/-- The addresses of the stores of a forward pass. -/
def addrF (ido l1 : Nat) : List Int :=
  (List.range l1).flatMap (fun t =>
    let h : Int := 4 * ((t * ido : Nat) : Int)
    [h + (2 * ido - 1), h + 2 * ido, h, h + (4 * ido - 1)]) ++
  if ido = 1 then [] else
    (List.range l1).flatMap (fun t => (List.range ((ido - 1) / 2)).flatMap fun u =>
      let k : Int := ((t * ido : Nat) : Int)
      let i : Int := ((2 * u + 2 : Nat) : Int)
      [i - 1 + 4 * k, ido - i - 1 + 4 * k + 3 * ido, i - 1 + 4 * k + 2 * ido, ido - i - 1 + 4 * k + 1 * ido,
        i + 4 * k, ido - i + 4 * k + 3 * ido, i + 4 * k + 2 * ido, ido - i + 4 * k + 1 * ido]) ++
    (List.range l1).flatMap (fun t =>
      let k : Int := ((t * ido : Nat) : Int)
      [ido - 1 + 4 * k, ido - 1 + 4 * k + 2 * ido, 4 * k + 1 * ido, 4 * k + 3 * ido])

/-- The addresses of the stores of a backward pass. -/
def addrB (ido l1 : Nat) : List Int :=
  (List.range l1).flatMap (fun t =>
    let h : Int := ((t * ido : Nat) : Int)
    [h + 0 * 64, h + 2 * 64, h + 1 * 64, h + 3 * 64]) ++
  if ido = 1 then [] else
    (List.range l1).flatMap (fun t => (List.range ((ido - 1) / 2)).flatMap fun u =>
      let h : Int := ((t * ido : Nat) : Int) + ((2 * u + 2 : Nat) : Int) - 1
      [h, h + 1, h + 64, h + 64 + 1, h + 2 * 64, h + 2 * 64 + 1, h + 3 * 64, h + 3 * 64 + 1]) ++
    (List.range l1).flatMap (fun t =>
      let b : Int := ido - 1 + ((t * ido : Nat) : Int)
      [b + 0 * 64, b + 1 * 64, b + 2 * 64, b + 3 * 64])

theorem passF_addr (ido l1 : Nat) (c w : Int → F) (w1 w2 w3 : Int) :
    (passF ido l1 c w w1 w2 w3).map Prod.fst = addrF ido l1 := by
  unfold passF addrF
  by_cases h : ido = 1
  · simp only [h, if_true, List.append_nil, List.map_flatMap, endsF, List.map_cons, List.map_nil]
  · simp only [h, if_false, List.map_append, List.map_flatMap, endsF, midF, halfF, List.map_cons, List.map_nil]

theorem passB_addr (ido l1 : Nat) (c w : Int → F) (w1 w2 w3 : Int) :
    (passB ido l1 c w w1 w2 w3).map Prod.fst = addrB ido l1 := by
  unfold passB addrB
  by_cases h : ido = 1
  · simp only [h, if_true, List.append_nil, List.map_flatMap, endsB, List.map_cons, List.map_nil]
  · simp only [h, if_false, List.map_append, List.map_flatMap, endsB, midB, halfB, List.map_cons, List.map_nil]

/-- Each address of the list is below 256 and seen for the first time; returns the set of addresses as bits. -/
def bitSet : List Int → Nat → Option Nat
  | [], m => some m
  | a :: r, m => if 0 ≤ a ∧ a < 256 ∧ m.testBit a.toNat = false then bitSet r (m ||| 2 ^ a.toNat) else none

theorem bitSet_spec {l : List Int} {m m' : Nat} (h : bitSet l m = some m') :
    l.Nodup ∧ (∀ a ∈ l, 0 ≤ a ∧ a < 256 ∧ m.testBit a.toNat = false) ∧
      ∀ j : Nat, m'.testBit j = true → m.testBit j = true ∨ (j : Int) ∈ l := by
  induction l generalizing m with
  | nil =>
    cases h
    exact ⟨List.nodup_nil, by simp, fun j hj => Or.inl hj⟩
  | cons a r ih =>
    rw [bitSet] at h
    split at h
    · rename_i ha
      obtain ⟨h1, h2, h3⟩ := ih h
      refine ⟨List.nodup_cons.2 ⟨fun hm => ?_, h1⟩, ?_, ?_⟩
      · have := (h2 a hm).2.2
        rw [Nat.testBit_or, Nat.testBit_two_pow_self, Bool.or_true] at this
        cases this
      · intro b hb
        rcases List.mem_cons.1 hb with rfl | hb
        · exact ha
        · obtain ⟨b1, b2, b3⟩ := h2 b hb
          rw [Nat.testBit_or, Bool.or_eq_false_iff] at b3
          exact ⟨b1, b2, b3.1⟩
      · intro j hj
        rcases h3 j hj with h | h
        · rw [Nat.testBit_or, Bool.or_eq_true] at h
          rcases h with h | h
          · exact Or.inl h
          · rw [Nat.testBit_two_pow] at h
            have : a.toNat = j := of_decide_eq_true h
            exact Or.inr (List.mem_cons.2 (Or.inl (by omega)))
        · exact Or.inr (List.mem_cons_of_mem _ h)
    · cases h

/-- Each pass writes every element of its target exactly once: the whole address lists, for all four shapes. -/
theorem addrs_bits : ∀ p ∈ passes, bitSet (addrF p.1 p.2) 0 = some (2 ^ 256 - 1) ∧ bitSet (addrB p.1 p.2) 0 = some (2 ^ 256 - 1) := by
  decide +kernel

theorem bits_ok {l : List Int} (h : bitSet l 0 = some (2 ^ 256 - 1)) :
    l.Nodup ∧ (∀ a ∈ l, 0 ≤ a ∧ a < 256) ∧ ∀ j : Nat, j < 256 → (j : Int) ∈ l := by
  obtain ⟨h1, h2, h3⟩ := bitSet_spec h
  refine ⟨h1, fun a ha => ⟨(h2 a ha).1, (h2 a ha).2.1⟩, fun j hj => ?_⟩
  rcases h3 j (by rw [Nat.testBit_two_pow_sub_one]; exact decide_eq_true hj) with h | h
  · rw [Nat.zero_testBit] at h; cases h
  · exact h

theorem addrs_ok : ∀ p ∈ passes,
    ((addrF p.1 p.2).Nodup ∧ (∀ a ∈ addrF p.1 p.2, 0 ≤ a ∧ a < 256) ∧ ∀ j : Nat, j < 256 → (j : Int) ∈ addrF p.1 p.2) ∧
    ((addrB p.1 p.2).Nodup ∧ (∀ a ∈ addrB p.1 p.2, 0 ≤ a ∧ a < 256) ∧ ∀ j : Nat, j < 256 → (j : Int) ∈ addrB p.1 p.2) :=
  fun p hp => ⟨bits_ok (addrs_bits p hp).1, bits_ok (addrs_bits p hp).2⟩

/-- The result of a forward pass as a function. -/
def stepF (ido l1 : Nat) (w : Int → F) (w1 w2 w3 : Int) (c : Int → F) : Int → F :=
  valAt (fi 0) (passF ido l1 c w w1 w2 w3)

/-- The result of a backward pass as a function. -/
def stepB (ido l1 : Nat) (w : Int → F) (w1 w2 w3 : Int) (c : Int → F) : Int → F :=
  valAt (fi 0) (passB ido l1 c w w1 w2 w3)

theorem radf4_stores {ido l1 : Nat} (hp : (ido, l1) ∈ passes) (c w : Int → F) (wa ch : Loc 256 F) {w1 w2 w3 : Int}
    (hw : TwRows wa w ido w1 w2 w3) :
    radf4 ido l1 (full 256 c) wa w1 w2 w3 ch = .ok (stores ch (passF ido l1 c w w1 w2 w3)) := by
  have hp := mem_passes hp
  have hq : (l1 : Int) * (ido : Int) = 64 := by
    rcases hp with ⟨rfl, rfl⟩ | ⟨rfl, rfl⟩ | ⟨rfl, rfl⟩ | ⟨rfl, rfl⟩ <;> rfl
  have hk : ∀ t, t < l1 → ((t * ido : Nat) : Int) + ido ≤ 64 := by
    intro t ht
    rcases hp with ⟨rfl, rfl⟩ | ⟨rfl, rfl⟩ | ⟨rfl, rfl⟩ | ⟨rfl, rfl⟩ <;> omega
  have hc : ∀ t : Nat, (t : Int) * (ido : Int) = ((t * ido : Nat) : Int) := fun t => by push_cast; rfl
  have hc4 : ∀ t : Nat, (t : Int) * (4 * (ido : Int)) = 4 * ((t * ido : Nat) : Int) := fun t => by
    rw [← hc, Int.mul_left_comm]
  have hi1 : (1 : Int) ≤ ido := by
    rcases hp with ⟨rfl, rfl⟩ | ⟨rfl, rfl⟩ | ⟨rfl, rfl⟩ | ⟨rfl, rfl⟩ <;> omega
  unfold radf4
  dsimp only
  rw [hq, Int.toNat_natCast]
  rw [loop_stores (fun t => endsF ido 64 c ((t * ido : Nat) : Int) (4 * ((t * ido : Nat) : Int))) (by
    intro t ht s
    rw [hc, hc4]
    exact radf4Ends_eq c s hi1 (by omega) (hk t ht) (by omega)), ok_bind]
  by_cases h1 : ido = 1
  · rw [if_pos (by omega), passF, if_pos h1, List.append_nil]
  · have h2 : ¬ (ido : Int) = 2 ∧ (ido : Int) % 2 = 0 ∧ ¬ (ido : Int) < 2 := by
      rcases hp with ⟨rfl, rfl⟩ | ⟨rfl, rfl⟩ | ⟨rfl, rfl⟩ | ⟨rfl, rfl⟩ <;> omega
    rw [if_neg h2.2.2, if_pos h2.1]
    have hn : (((ido : Int) - 1) / 2).toNat = (ido - 1) / 2 := by omega
    rw [hn]
    rw [loop_stores (fun t => (List.range ((ido - 1) / 2)).flatMap fun u =>
      midF ido 64 c w w1 w2 w3 ((t * ido : Nat) : Int) ((2 * u + 2 : Nat) : Int) (((t * ido : Nat) : Int) + ((2 * u + 2 : Nat) : Int) - 1)) (by
      intro t ht s
      refine loop_stores _ ?_ s
      intro u hu s
      have e1 : (2 * (u : Int) + 2) = ((2 * u + 2 : Nat) : Int) := by push_cast; rfl
      have e2 : 1 + ((t * ido : Nat) : Int) + 2 * (u : Int) = ((t * ido : Nat) : Int) + ((2 * u + 2 : Nat) : Int) - 1 := by omega
      rw [hc, e2, e1]
      exact radf4Mid_eq c w wa s hw (by omega) (hk t ht) (by omega) (by omega) (by omega)), ok_bind, if_neg (by omega)]
    rw [loop_stores (fun t => halfF ido 64 c ((t * ido : Nat) : Int)) (by
      intro t ht s
      rw [hc]
      exact radf4Half_eq c s hi1 (by omega) (hk t ht) (by omega))]
    rw [stores_stores, stores_stores, passF, if_neg h1]

theorem radb4_stores {ido l1 : Nat} (hp : (ido, l1) ∈ passes) (c w : Int → F) (wa ch : Loc 256 F) {w1 w2 w3 : Int}
    (hw : TwRows wa w ido w1 w2 w3) :
    radb4 ido l1 (full 256 c) wa w1 w2 w3 ch = .ok (stores ch (passB ido l1 c w w1 w2 w3)) := by
  have hp := mem_passes hp
  have hq : (l1 : Int) * (ido : Int) = 64 := by
    rcases hp with ⟨rfl, rfl⟩ | ⟨rfl, rfl⟩ | ⟨rfl, rfl⟩ | ⟨rfl, rfl⟩ <;> rfl
  have hk : ∀ t, t < l1 → ((t * ido : Nat) : Int) + ido ≤ 64 := by
    intro t ht
    rcases hp with ⟨rfl, rfl⟩ | ⟨rfl, rfl⟩ | ⟨rfl, rfl⟩ | ⟨rfl, rfl⟩ <;> omega
  have hc : ∀ t : Nat, (t : Int) * (ido : Int) = ((t * ido : Nat) : Int) := fun t => by push_cast; rfl
  have hc4 : ∀ t : Nat, (t : Int) * (4 * (ido : Int)) = 4 * ((t * ido : Nat) : Int) := fun t => by
    rw [← hc, Int.mul_left_comm]
  have hi1 : (1 : Int) ≤ ido := by
    rcases hp with ⟨rfl, rfl⟩ | ⟨rfl, rfl⟩ | ⟨rfl, rfl⟩ | ⟨rfl, rfl⟩ <;> omega
  unfold radb4
  dsimp only
  rw [hq, Int.toNat_natCast]
  rw [loop_stores (fun t => endsB ido 64 c (4 * ((t * ido : Nat) : Int)) ((t * ido : Nat) : Int)) (by
    intro t ht s
    rw [hc, hc4]
    exact radb4Ends_eq c s hi1 (by omega) (hk t ht) (by omega)), ok_bind]
  by_cases h1 : ido = 1
  · rw [if_pos (by omega), passB, if_pos h1, List.append_nil]
  · have h2 : ¬ (ido : Int) = 2 ∧ (ido : Int) % 2 = 0 ∧ ¬ (ido : Int) < 2 := by
      rcases hp with ⟨rfl, rfl⟩ | ⟨rfl, rfl⟩ | ⟨rfl, rfl⟩ | ⟨rfl, rfl⟩ <;> omega
    rw [if_neg h2.2.2, if_pos h2.1]
    have hn : (((ido : Int) - 1) / 2).toNat = (ido - 1) / 2 := by omega
    rw [hn]
    rw [loop_stores (fun t => (List.range ((ido - 1) / 2)).flatMap fun u =>
      midB ido 64 c w w1 w2 w3 ((2 * u + 2 : Nat) : Int) (-1 + 4 * ((t * ido : Nat) : Int)) (((t * ido : Nat) : Int) + ((2 * u + 2 : Nat) : Int) - 1)) (by
      intro t ht s
      refine loop_stores _ ?_ s
      intro u hu s
      have e1 : (2 * (u : Int) + 2) = ((2 * u + 2 : Nat) : Int) := by push_cast; rfl
      have e2 : ((t * ido : Nat) : Int) + 1 + 2 * (u : Int) = ((t * ido : Nat) : Int) + ((2 * u + 2 : Nat) : Int) - 1 := by omega
      rw [hc, e2, e1]
      exact radb4Mid_eq c w wa s hw (by omega) (hk t ht) (by omega) (by omega) (by omega)), ok_bind, if_neg (by omega)]
    rw [loop_stores (fun t => halfB ido 64 c ((t * ido : Nat) : Int)) (by
      intro t ht s
      rw [hc]
      exact radb4Half_eq c s hi1 (by omega) (hk t ht) (by omega))]
    rw [stores_stores, stores_stores, passB, if_neg h1]

theorem radf4_eq {ido l1 : Nat} (hp : (ido, l1) ∈ passes) (c w : Int → F) (wa ch : Loc 256 F) {w1 w2 w3 : Int}
    (hw : TwRows wa w ido w1 w2 w3) :
    radf4 ido l1 (full 256 c) wa w1 w2 w3 ch = .ok (full 256 (stepF ido l1 w w1 w2 w3 c)) := by
  obtain ⟨h1, h2, h3⟩ := (addrs_ok _ hp).1
  rw [radf4_stores hp c w wa ch hw, stores_full (fi 0) ch (by rw [passF_addr]; exact h1)
    (by rw [passF_addr]; exact fun a ha => (h2 a ha).1) (by rw [passF_addr]; exact h3)]
  rfl

theorem radb4_eq {ido l1 : Nat} (hp : (ido, l1) ∈ passes) (c w : Int → F) (wa ch : Loc 256 F) {w1 w2 w3 : Int}
    (hw : TwRows wa w ido w1 w2 w3) :
    radb4 ido l1 (full 256 c) wa w1 w2 w3 ch = .ok (full 256 (stepB ido l1 w w1 w2 w3 c)) := by
  obtain ⟨h1, h2, h3⟩ := (addrs_ok _ hp).2
  rw [radb4_stores hp c w wa ch hw, stores_full (fi 0) ch (by rw [passB_addr]; exact h1)
    (by rw [passB_addr]; exact fun a ha => (h2 a ha).1) (by rw [passB_addr]; exact h3)]
  rfl

theorem stepF_mem {ido l1 : Nat} (hp : (ido, l1) ∈ passes) {c w : Int → F} {w1 w2 w3 : Int} {a : Int} {v : F}
    (h : (a, v) ∈ passF ido l1 c w w1 w2 w3) : stepF ido l1 w w1 w2 w3 c a = v :=
  valAt_mem _ (by rw [passF_addr]; exact (addrs_ok _ hp).1.1) h

theorem stepB_mem {ido l1 : Nat} (hp : (ido, l1) ∈ passes) {c w : Int → F} {w1 w2 w3 : Int} {a : Int} {v : F}
    (h : (a, v) ∈ passB ido l1 c w w1 w2 w3) : stepB ido l1 w w1 w2 w3 c a = v :=
  valAt_mem _ (by rw [passB_addr]; exact (addrs_ok _ hp).2.1) h

end Verif.Model
