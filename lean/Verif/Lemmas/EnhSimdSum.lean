import Verif.Lemmas.EnhAcc
import Verif.Lemmas.Simd
import Verif.Lemmas.SimdIeee

/-!
# The sums of the spectral enhancement of the vector build in binary32
-/

namespace Verif.Model
open Verif Verif.Gen Verif.Spec Verif.Num Arith
variable {m : Libm}

/-- A sum with the exact value `Q`, whose terms have the exact bounds with the sum `P`, after `k` levels of additions and `n` additions. -/
def Acc (k n : Nat) (x : IEEE m) (Q P : ℚ) : Prop :=
  ∃ q, Val x q ∧ |q - Q| ≤ (k + 2) * (P / 16000000) + n * (1 / 2 ^ 143) ∧ |Q| ≤ P

/-- A term. -/
def Term (y : IEEE m) (w u : ℚ) : Prop := ∃ v, Val y v ∧ |v - w| ≤ u / 8000000 + 3 * pow2 (-150) ∧ |w| ≤ u

theorem Acc.mono {k k' n n' : Nat} {x : IEEE m} {Q P : ℚ} (h : Acc k n x Q P) (hk : k ≤ k') (hn : n ≤ n') : Acc k' n' x Q P := by
  obtain ⟨q, v, e, b⟩ := h
  have hP : 0 ≤ P := (abs_nonneg _).trans b
  have a1 : (k : ℚ) ≤ k' := by exact_mod_cast hk
  have a2 : (n : ℚ) ≤ n' := by exact_mod_cast hn
  exact ⟨q, v, e.trans (add_le_add (mul_le_mul_of_nonneg_right (by linarith) (by positivity)) (mul_le_mul_of_nonneg_right a2 (by positivity))), b⟩

theorem Acc.zero : Acc 0 0 (lit 0 1 : IEEE m) 0 0 := ⟨0, ⟨false, rfl⟩, by simp, by simp⟩

theorem Acc.step {k n : Nat} {x y : IEEE m} {Q P w u : ℚ} (h : Acc k n x Q P) (h' : Term y w u) (hk : k ≤ 56) (hn : n ≤ 500) (hb : P + u ≤ 2 ^ 100) :
    Acc (k + 1) (n + 1) (x +ᶠ y : IEEE m) (Q + w) (P + u) := by
  obtain ⟨q, hx, hq, hQ⟩ := h
  obtain ⟨v, hy, hv, hw⟩ := h'
  have hP : 0 ≤ P := (abs_nonneg _).trans hQ
  have hu : 0 ≤ u := (abs_nonneg _).trans hw
  have hk' : (k : ℚ) ≤ 56 := by exact_mod_cast hk
  have hn' : (n : ℚ) ≤ 500 := by exact_mod_cast hn
  have hk0 : (0 : ℚ) ≤ k := by positivity
  have t : pow2 (-150) ≤ 1 / 2 ^ 149 := by rw [pow2_eq]; norm_num
  rw [Acc]
  obtain ⟨τ, hτ⟩ : ∃ τ : ℚ, τ = 1 / 2 ^ 143 := ⟨_, rfl⟩
  rw [← hτ] at hq ⊢
  have hτ0 : 0 < τ := by rw [hτ]; positivity
  have t' : pow2 (-150) ≤ τ / 64 := t.trans (by rw [hτ]; norm_num)
  have hB : (k : ℚ) * (P / 16000000) ≤ 56 * (P / 16000000) := mul_le_mul_of_nonneg_right hk' (by positivity)
  have hB2 : (n : ℚ) * τ ≤ 500 * τ := mul_le_mul_of_nonneg_right hn' hτ0.le
  have hB3 : 0 ≤ (n : ℚ) * τ := by positivity
  have hs : |q + v| ≤ 100001 / 100000 * (P + u) + 510 * τ := by
    have h1 := abs_le.1 hq
    have h2 := abs_le.1 hQ
    have h3 := abs_le.1 hv
    have h4 := abs_le.1 hw
    rw [abs_le]
    constructor <;> linarith
  have hτ1 : τ ≤ 1 := by rw [hτ]; norm_num
  obtain ⟨r, hr, he⟩ := hx.addE hy (hs.trans (le_trans (by linarith) (le_trans (by norm_num : (2 : ℚ) * 2 ^ 100 + 510 ≤ 2 ^ 127) big_ge)))
  refine ⟨r, hr, ?_, (abs_add_le _ _).trans (add_le_add hQ hw)⟩
  rw [p24] at he
  have ku : 0 ≤ (k : ℚ) * (u / 16000000) := by positivity
  have e : (((k + 1 : Nat) : ℚ) + 2) * ((P + u) / 16000000) + ((n + 1 : Nat) : ℚ) * τ =
    (k + 2) * (P / 16000000) + n * τ + (P / 16000000 + 3 * (u / 16000000) + k * (u / 16000000) + τ) := by push_cast; ring
  rw [e]
  have he' : |r - (q + v)| ≤ (100001 / 100000 * (P + u) + 510 * τ) / 16777216 + τ / 64 := by linarith
  have h1 := abs_le.1 hq
  have h3 := abs_le.1 hv
  have h5 := abs_le.1 he'
  rw [abs_le]
  constructor <;> linarith

theorem Acc.add {k n n' : Nat} {x y : IEEE m} {Q P Q' P' : ℚ} (h : Acc k n x Q P) (h' : Acc k n' y Q' P') (hk : k ≤ 56) (hn : n + n' ≤ 500)
    (hb : P + P' ≤ 2 ^ 100) : Acc (k + 1) (n + n' + 1) (x +ᶠ y : IEEE m) (Q + Q') (P + P') := by
  obtain ⟨q, hx, hq, hQ⟩ := h
  obtain ⟨v, hy, hv, hw⟩ := h'
  have hP : 0 ≤ P := (abs_nonneg _).trans hQ
  have hu : 0 ≤ P' := (abs_nonneg _).trans hw
  have hk' : (k : ℚ) ≤ 56 := by exact_mod_cast hk
  have hn' : (n : ℚ) + n' ≤ 500 := by exact_mod_cast hn
  have hk0 : (0 : ℚ) ≤ k := by positivity
  have t : pow2 (-150) ≤ 1 / 2 ^ 149 := by rw [pow2_eq]; norm_num
  rw [Acc]
  obtain ⟨τ, hτ⟩ : ∃ τ : ℚ, τ = 1 / 2 ^ 143 := ⟨_, rfl⟩
  rw [← hτ] at hq hv ⊢
  have hτ0 : 0 < τ := by rw [hτ]; positivity
  have t' : pow2 (-150) ≤ τ / 64 := t.trans (by rw [hτ]; norm_num)
  have hB : (k : ℚ) * (P / 16000000) ≤ 56 * (P / 16000000) := mul_le_mul_of_nonneg_right hk' (by positivity)
  have hB' : (k : ℚ) * (P' / 16000000) ≤ 56 * (P' / 16000000) := mul_le_mul_of_nonneg_right hk' (by positivity)
  have hB2 : (n : ℚ) * τ + n' * τ ≤ 500 * τ := by rw [← add_mul]; exact mul_le_mul_of_nonneg_right hn' hτ0.le
  have hB3 : 0 ≤ (n : ℚ) * τ := by positivity
  have hB4 : 0 ≤ (n' : ℚ) * τ := by positivity
  have hs : |q + v| ≤ 100001 / 100000 * (P + P') + 510 * τ := by
    have h1 := abs_le.1 hq
    have h2 := abs_le.1 hQ
    have h3 := abs_le.1 hv
    have h4 := abs_le.1 hw
    rw [abs_le]
    constructor <;> linarith
  have hτ1 : τ ≤ 1 := by rw [hτ]; norm_num
  obtain ⟨r, hr, he⟩ := hx.addE hy (hs.trans (le_trans (by linarith) (le_trans (by norm_num : (2 : ℚ) * 2 ^ 100 + 510 ≤ 2 ^ 127) big_ge)))
  refine ⟨r, hr, ?_, (abs_add_le _ _).trans (add_le_add hQ hw)⟩
  rw [p24] at he
  have e : (((k + 1 : Nat) : ℚ) + 2) * ((P + P') / 16000000) + ((n + n' + 1 : Nat) : ℚ) * τ =
    (k + 2) * (P / 16000000) + n * τ + ((k + 2) * (P' / 16000000) + n' * τ) + ((P + P') / 16000000 + τ) := by push_cast; ring
  rw [e]
  have he' : |r - (q + v)| ≤ (100001 / 100000 * (P + P') + 510 * τ) / 16777216 + τ / 64 := by linarith
  have h1 := abs_le.1 hq
  have h3 := abs_le.1 hv
  have h5 := abs_le.1 he'
  rw [abs_le]
  constructor <;> linarith

/-- The square of an amplitude and its product with a cosine. -/
theorem terms {x c : IEEE m} {a r : ℚ} (ha : Val x a) (h0 : 0 ≤ a) (hA : a ≤ 2 ^ 40) :
    Term (x *ᶠ x : IEEE m) (a * a) (a * a) ∧ (Val c r → |r| ≤ 1 → Term ((x *ᶠ x) *ᶠ c : IEEE m) (a * a * r) (a * a)) ∧ a * a ≤ 2 ^ 80 := by
  have t0 := pow2_pos (-150)
  obtain ⟨u, hu1, hu0, hu2, haa⟩ := sq_err ha h0 hA le_rfl
  have haa0 : 0 ≤ a * a := mul_nonneg h0 h0
  have hu3 := abs_le.1 hu2
  have t : pow2 (-150) ≤ 1 / 2 ^ 100 := p150
  have t1 : (1 : ℚ) / 2 ^ 100 ≤ 1 := by norm_num
  refine ⟨⟨u, hu1, by linarith, by rw [abs_of_nonneg haa0]⟩, fun hc2 hc3 => ?_, haa⟩
  have hur : |u * r| ≤ u := by
    rw [abs_mul, abs_of_nonneg hu0]
    exact mul_le_of_le_one_right hu0 hc3
  have har : |a * a * r| ≤ a * a := by
    rw [abs_mul, abs_of_nonneg haa0]
    exact mul_le_of_le_one_right haa0 hc3
  obtain ⟨v, hv1, hv2⟩ := hu1.mulE hc2 (hur.trans (by
    have : (2 : ℚ) ^ 80 + 2 ^ 80 + 1 ≤ 2 ^ 127 := by norm_num
    have := big_ge
    linarith))
  rw [p24] at hv2
  refine ⟨v, hv1, ?_, har⟩
  have e : v - a * a * r = (v - u * r) + (u - a * a) * r := by ring
  rw [e]
  refine (abs_add_le _ _).trans ?_
  have : |(u - a * a) * r| ≤ |u - a * a| := by
    rw [abs_mul]
    exact mul_le_of_le_one_right (abs_nonneg _) hc3
  linarith

/-- The terms that lane `j` takes up in `k` rounds. -/
def lane (f : Nat → ℚ) (j k : Nat) : ℚ := ∑ i ∈ Finset.range k, f (1 + 4 * i + j)

theorem lane_succ (f : Nat → ℚ) (j k : Nat) : lane f j (k + 1) = lane f j k + f (1 + 4 * k + j) := Finset.sum_range_succ _ _

theorem lanes (f : Nat → ℚ) (k : Nat) : lane f 0 k + lane f 1 k + lane f 2 k + lane f 3 k = sumBelow f (1 + 4 * k) := by
  induction k with
  | zero => simp [lane, sumBelow]
  | succ k ih =>
    rw [show 1 + 4 * (k + 1) = 1 + 4 * k + 1 + 1 + 1 + 1 by ring, sumBelow_succ _ (by omega), sumBelow_succ _ (by omega), sumBelow_succ _ (by omega),
      sumBelow_succ _ (by omega), ← ih, lane_succ, lane_succ, lane_succ, lane_succ]
    ring

theorem lane_const {f : Nat → ℚ} {j k : Nat} {B : ℚ} (hk : k ≤ 14) (hB : 0 ≤ B) (h : ∀ i, i < k → f (1 + 4 * i + j) ≤ B) : lane f j k ≤ 14 * B := by
  refine (Finset.sum_le_card_nsmul _ _ B fun i hi => h i (by rwa [Finset.mem_range] at hi)).trans ?_
  rw [Finset.card_range, nsmul_eq_mul]
  refine mul_le_mul_of_nonneg_right ?_ hB
  exact_mod_cast hk

/-- The four lanes after `k` rounds. -/
def LanesAcc (k : Nat) (v : V4 (IEEE m)) (f g : Nat → ℚ) : Prop :=
  Acc k k v.a (lane f 0 k) (lane g 0 k) ∧ Acc k k v.b (lane f 1 k) (lane g 1 k) ∧ Acc k k v.c (lane f 2 k) (lane g 2 k) ∧ Acc k k v.d (lane f 3 k) (lane g 3 k)

theorem LanesAcc.zero (f g : Nat → ℚ) : LanesAcc 0 (V4.splat (lit 0 1 : IEEE m)) f g :=
  ⟨Acc.zero, Acc.zero, Acc.zero, Acc.zero⟩

theorem LanesAcc.step {k : Nat} {v w : V4 (IEEE m)} {f g : Nat → ℚ} (h : LanesAcc k v f g) (hk : k < 14)
    (hg : ∀ i, 1 ≤ i → i ≤ 4 * k + 4 → g i ≤ 2 ^ 80)
    (ha : Term w.a (f (1 + 4 * k)) (g (1 + 4 * k))) (hb : Term w.b (f (1 + 4 * k + 1)) (g (1 + 4 * k + 1)))
    (hc : Term w.c (f (1 + 4 * k + 2)) (g (1 + 4 * k + 2))) (hd : Term w.d (f (1 + 4 * k + 3)) (g (1 + 4 * k + 3))) :
    LanesAcc (k + 1) (V4.map₂ Arith.add v w) f g := by
  have bd : ∀ j, j < 4 → lane g j k + g (1 + 4 * k + j) ≤ 2 ^ 100 := fun j hj => by
    have h1 := lane_const (f := g) (j := j) (k := k) (B := 2 ^ 80) (by omega) (by norm_num) fun i hi => hg _ (by omega) (by omega)
    have h2 := hg (1 + 4 * k + j) (by omega) (by omega)
    have : (14 : ℚ) * 2 ^ 80 + 2 ^ 80 ≤ 2 ^ 100 := by norm_num
    linarith
  obtain ⟨h1, h2, h3, h4⟩ := h
  rw [LanesAcc, lane_succ, lane_succ, lane_succ, lane_succ, lane_succ, lane_succ, lane_succ, lane_succ]
  exact ⟨h1.step ha (by omega) (by omega) (bd 0 (by omega)), h2.step hb (by omega) (by omega) (bd 1 (by omega)), h3.step hc (by omega) (by omega) (bd 2 (by omega)),
    h4.step hd (by omega) (by omega) (bd 3 (by omega))⟩

/-- The horizontal sum. -/
theorem LanesAcc.hsum {k : Nat} {v : V4 (IEEE m)} {f g : Nat → ℚ} (isa : Isa) (h : LanesAcc k v f g) (k1 : 1 ≤ k) (hk : k ≤ 14)
    (hg : ∀ i, 1 ≤ i → i ≤ 4 * k → g i ≤ 2 ^ 80) : Acc (4 * k) (8 * (4 * k)) (Model.hsum isa v) (sumBelow f (1 + 4 * k)) (sumBelow g (1 + 4 * k)) := by
  have bd : ∀ j, j < 4 → lane g j k ≤ 14 * 2 ^ 80 := fun j hj =>
    lane_const (f := g) (j := j) (k := k) (B := 2 ^ 80) (by omega) (by norm_num) fun i hi => hg _ (by omega) (by omega)
  have b0 := bd 0 (by omega)
  have b1 := bd 1 (by omega)
  have b2 := bd 2 (by omega)
  have b3 := bd 3 (by omega)
  have big : (4 : ℚ) * (14 * 2 ^ 80) ≤ 2 ^ 100 := by norm_num
  have p : (0 : ℚ) ≤ 14 * 2 ^ 80 := by norm_num
  obtain ⟨h1, h2, h3, h4⟩ := h
  rw [← lanes f, ← lanes g]
  generalize (14 : ℚ) * 2 ^ 80 = B at *
  cases isa
  · have := (h1.add h2 (by omega) (by omega) (by linarith)).add (h3.add h4 (by omega) (by omega) (by linarith)) (by omega) (by omega) (by linarith)
    rw [show lane f 0 k + lane f 1 k + lane f 2 k + lane f 3 k = lane f 0 k + lane f 1 k + (lane f 2 k + lane f 3 k) by ring,
      show lane g 0 k + lane g 1 k + lane g 2 k + lane g 3 k = lane g 0 k + lane g 1 k + (lane g 2 k + lane g 3 k) by ring]
    exact this.mono (by omega) (by omega)
  · have := (h1.add h3 (by omega) (by omega) (by linarith)).add (h2.add h4 (by omega) (by omega) (by linarith)) (by omega) (by omega) (by linarith)
    rw [show lane f 0 k + lane f 1 k + lane f 2 k + lane f 3 k = lane f 0 k + lane f 2 k + (lane f 1 k + lane f 3 k) by ring,
      show lane g 0 k + lane g 1 k + lane g 2 k + lane g 3 k = lane g 0 k + lane g 2 k + (lane g 1 k + lane g 3 k) by ring]
    exact this.mono (by omega) (by omega)

theorem rd4_nat {n : Nat} {α : Type} (x : Arr n α) {k : Nat} (h : 1 + 4 * k + 3 < n) : Arr.rd4 x (1 + 4 * (k : Int)) =
    .ok ⟨x ⟨1 + 4 * k, by omega⟩, x ⟨1 + 4 * k + 1, by omega⟩, x ⟨1 + 4 * k + 2, by omega⟩, x ⟨1 + 4 * k + 3, by omega⟩⟩ := by
  unfold Arr.rd4
  rw [show (1 + 4 * (k : Int)) = ((1 + 4 * k : Nat) : Int) by push_cast; ring,
    show (((1 + 4 * k : Nat) : Int) + 1) = ((1 + 4 * k + 1 : Nat) : Int) by push_cast; ring,
    show (((1 + 4 * k : Nat) : Int) + 2) = ((1 + 4 * k + 2 : Nat) : Int) by push_cast; ring,
    show (((1 + 4 * k : Nat) : Int) + 3) = ((1 + 4 * k + 3 : Nat) : Int) by push_cast; ring,
    Arr.rd_nat (show 1 + 4 * k < n by omega), ok_bind, Arr.rd_nat (show 1 + 4 * k + 1 < n by omega), ok_bind, Arr.rd_nat (show 1 + 4 * k + 2 < n by omega), ok_bind,
    Arr.rd_nat (show 1 + 4 * k + 3 < n by omega), ok_bind]

theorem locRd4_nat {n : Nat} {α : Type} (x : Loc n α) {k : Nat} (h : 1 + 4 * k + 3 < n) {a b c d : α} (ha : x ⟨1 + 4 * k, by omega⟩ = some a)
    (hb : x ⟨1 + 4 * k + 1, by omega⟩ = some b) (hc : x ⟨1 + 4 * k + 2, by omega⟩ = some c) (hd : x ⟨1 + 4 * k + 3, by omega⟩ = some d) :
    Loc.rd4 x (1 + 4 * (k : Int)) = .ok ⟨a, b, c, d⟩ := by
  unfold Loc.rd4
  rw [show (1 + 4 * (k : Int)) = ((1 + 4 * k : Nat) : Int) by push_cast; ring,
    show (((1 + 4 * k : Nat) : Int) + 1) = ((1 + 4 * k + 1 : Nat) : Int) by push_cast; ring,
    show (((1 + 4 * k : Nat) : Int) + 2) = ((1 + 4 * k + 2 : Nat) : Int) by push_cast; ring,
    show (((1 + 4 * k : Nat) : Int) + 3) = ((1 + 4 * k + 3 : Nat) : Int) by push_cast; ring,
    Loc.rd_nat (show 1 + 4 * k < n by omega) ha, ok_bind, Loc.rd_nat (show 1 + 4 * k + 1 < n by omega) hb, ok_bind,
    Loc.rd_nat (show 1 + 4 * k + 2 < n by omega) hc, ok_bind, Loc.rd_nat (show 1 + 4 * k + 3 < n by omega) hd, ok_bind]

/-- From the last round to the claim. -/
theorem Acc.fin {N : Nat} {x : IEEE m} {Q P : ℚ} (h : Acc N (8 * N) x Q P) (hN : N ≤ 56) :
    ∃ q, Val x q ∧ |q - Q| ≤ 58 * (P / 16000000) + 56 * (1 / 2 ^ 140) := by
  obtain ⟨q, v, e, b⟩ := h.mono hN (show 8 * N ≤ 448 by omega)
  refine ⟨q, v, e.trans (le_of_eq ?_)⟩
  push_cast
  ring

/-- `Rm0` and `Rm1` of the vector build against the exact sums. -/
theorem rm01Simd_near (isa : Isa) {L : Int} (hL : L ≤ 56) {Ml : Arr 57 (IEEE m)} {ct : Loc 57 (IEEE m)} {a r : Nat → ℚ}
    (ha : ∀ l : Fin 57, 1 ≤ l.val → (l.val : Int) ≤ L → Val (Ml l) (a l.val) ∧ 0 ≤ a l.val ∧ a l.val ≤ 2 ^ 40)
    (hc : ∀ l : Fin 57, 1 ≤ l.val → (l.val : Int) ≤ L → ∃ c : IEEE m, ct l = some c ∧ Val c (r l.val) ∧ |r l.val| ≤ 1) :
    Ok (rm01Simd isa L Ml ct) fun s => ∃ q0 q1 : ℚ, Val s.1 q0 ∧ Val s.2 q1 ∧
      |q0 - sumBelow (fun j => a j * a j) (L.toNat + 1)| ≤ 58 * (sumBelow (fun j => a j * a j) (L.toNat + 1) / 16000000) + 56 * (1 / 2 ^ 140) ∧
      |q1 - sumBelow (fun j => a j * a j * r j) (L.toNat + 1)| ≤ 58 * (sumBelow (fun j => a j * a j) (L.toNat + 1) / 16000000) + 56 * (1 / 2 ^ 140) := by
  unfold rm01Simd
  by_cases h4 : L ≥ 4
  swap
  · rw [if_neg h4]
    exact rm01_near hL ha hc
  rw [if_pos h4]
  dsimp only
  have T : ∀ (i : Nat) (hi : i < 57), 1 ≤ i → (i : Int) ≤ L → ∃ c : IEEE m, ct ⟨i, hi⟩ = some c ∧ Term (Ml ⟨i, hi⟩ *ᶠ Ml ⟨i, hi⟩ : IEEE m) (a i * a i) (a i * a i) ∧
      Term ((Ml ⟨i, hi⟩ *ᶠ Ml ⟨i, hi⟩) *ᶠ c : IEEE m) (a i * a i * r i) (a i * a i) ∧ a i * a i ≤ 2 ^ 80 := fun i hi h1 h2 => by
    obtain ⟨a1, a2, a3⟩ := ha ⟨i, hi⟩ h1 h2
    obtain ⟨c, c1, c2, c3⟩ := hc ⟨i, hi⟩ h1 h2
    obtain ⟨t1, t2, t3⟩ := terms (c := c) (r := r i) a1 a2 a3
    exact ⟨c, c1, t1, t2 c2 c3, t3⟩
  have sq : ∀ i : Nat, 1 ≤ i → (i : Int) ≤ L → a i * a i ≤ 2 ^ 80 := fun i h1 h2 => (T i (by omega) h1 h2).choose_spec.2.2.2
  refine Ok.bind (loop_inv (fun k (s : V4 (IEEE m) × V4 (IEEE m)) => LanesAcc k s.1 (fun j => a j * a j) (fun j => a j * a j) ∧
    LanesAcc k s.2 (fun j => a j * a j * r j) (fun j => a j * a j)) ⟨LanesAcc.zero _ _, LanesAcc.zero _ _⟩ ?_) fun s hs => ?_
  · rintro k hk s ⟨s1, s2⟩
    obtain ⟨c0, e0, x0, y0, _⟩ := T (1 + 4 * k) (by omega) (by omega) (by omega)
    obtain ⟨c1, e1, x1, y1, _⟩ := T (1 + 4 * k + 1) (by omega) (by omega) (by omega)
    obtain ⟨c2, e2, x2, y2, _⟩ := T (1 + 4 * k + 2) (by omega) (by omega) (by omega)
    obtain ⟨c3, e3, x3, y3, _⟩ := T (1 + 4 * k + 3) (by omega) (by omega) (by omega)
    rw [rd4_nat Ml (show 1 + 4 * k + 3 < 57 by omega), ok_bind, locRd4_nat ct (show 1 + 4 * k + 3 < 57 by omega) e0 e1 e2 e3, ok_bind]
    exact Ok.ok ⟨s1.step (by omega) (fun i h1 h2 => sq i h1 (by omega)) x0 x1 x2 x3, s2.step (by omega) (fun i h1 h2 => sq i h1 (by omega)) y0 y1 y2 y3⟩
  · obtain ⟨s1, s2⟩ := hs
    refine (loopFT_inv (lo := 1 + 4 * (L.toNat / 4)) (hi := L.toNat) (fun k (s : IEEE m × IEEE m) =>
      Acc (k - 1) (8 * (k - 1)) s.1 (sumBelow (fun j => a j * a j) k) (sumBelow (fun j => a j * a j) k) ∧
      Acc (k - 1) (8 * (k - 1)) s.2 (sumBelow (fun j => a j * a j * r j) k) (sumBelow (fun j => a j * a j) k)) (by omega) ?_ ?_).mono ?_
    · rw [Nat.add_sub_cancel_left]
      exact ⟨s1.hsum isa (by omega) (by omega) fun i h1 h2 => sq i h1 (by omega), s2.hsum isa (by omega) (by omega) fun i h1 h2 => sq i h1 (by omega)⟩
    · rintro i h1 h2 s ⟨u1, u2⟩
      obtain ⟨c0, e0, x0, y0, z0⟩ := T i (by omega) (by omega) (by omega)
      rw [Arr.rd_nat (show i < 57 by omega), ok_bind, Loc.rd_nat (show i < 57 by omega) e0, ok_bind, sumBelow_succ _ (by omega), sumBelow_succ _ (by omega)]
      have hPu : sumBelow (fun j => a j * a j) i + a i * a i ≤ 2 ^ 100 := by
        have h1 : sumBelow (fun j => a j * a j) i ≤ 56 * 2 ^ 80 := sumBelow_const (by omega) (by norm_num) fun j j1 j2 => sq j j1 (by omega)
        have : (56 : ℚ) * 2 ^ 80 + 2 ^ 80 ≤ 2 ^ 100 := by norm_num
        linarith
      exact Ok.ok ⟨(u1.step x0 (by omega) (by omega) hPu).mono (by omega) (by omega), (u2.step y0 (by omega) (by omega) hPu).mono (by omega) (by omega)⟩
    · rintro s ⟨u1, u2⟩
      obtain ⟨q0, v0, n0⟩ := u1.fin (by omega)
      obtain ⟨q1, v1, n1⟩ := u2.fin (by omega)
      exact ⟨q0, q1, v0, v1, n0, n1⟩

theorem abs_val {x : IEEE m} {a : ℚ} (h : Val x a) : Val (Arith.abs x : IEEE m) |a| := by
  obtain ⟨s, rfl⟩ := h
  exact ⟨_, rfl⟩

/-- The second sum of squares of the vector build against the exact sum. -/
theorem enhSumSimd_near (isa : Isa) {L : Int} (hL : L ≤ 56) {Ml : Arr 57 (IEEE m)} {b : Nat → ℚ}
    (hb : ∀ l : Fin 57, 1 ≤ l.val → (l.val : Int) ≤ L → Val (Ml l) (b l.val) ∧ 0 ≤ b l.val ∧ b l.val ≤ 2 ^ 40) :
    Ok (enhSumSimd isa L Ml) fun s => ∃ q : ℚ, Val s q ∧
      |q - sumBelow (fun j => b j * b j) (L.toNat + 1)| ≤ 58 * (sumBelow (fun j => b j * b j) (L.toNat + 1) / 16000000) + 56 * (1 / 2 ^ 140) := by
  unfold enhSumSimd
  by_cases h4 : L ≥ 4
  swap
  · rw [if_neg h4]
    exact enhSum_near hL hb
  rw [if_pos h4]
  dsimp only
  have T : ∀ (i : Nat) (hi : i < 57), 1 ≤ i → (i : Int) ≤ L → Term (Arith.abs (Ml ⟨i, hi⟩) *ᶠ Arith.abs (Ml ⟨i, hi⟩) : IEEE m) (b i * b i) (b i * b i) ∧
      Term (Ml ⟨i, hi⟩ *ᶠ Ml ⟨i, hi⟩ : IEEE m) (b i * b i) (b i * b i) ∧ b i * b i ≤ 2 ^ 80 ∧ lt (Ml ⟨i, hi⟩) (lit 0 1 : IEEE m) = false := fun i hi h1 h2 => by
    obtain ⟨a1, a2, a3⟩ := hb ⟨i, hi⟩ h1 h2
    dsimp only at a1 a2 a3
    have a4 := abs_val a1
    rw [abs_of_nonneg a2] at a4
    obtain ⟨t1, _, t3⟩ := terms (c := Ml ⟨i, hi⟩) (r := 0) a1 a2 a3
    refine ⟨(terms (c := Ml ⟨i, hi⟩) (r := 0) a4 a2 a3).1, t1, t3, ?_⟩
    rw [a1.lt (⟨false, rfl⟩ : Val (lit 0 1 : IEEE m) 0)]
    simpa using a2
  have sq : ∀ i : Nat, 1 ≤ i → (i : Int) ≤ L → b i * b i ≤ 2 ^ 80 := fun i h1 h2 => (T i (by omega) h1 h2).2.2.1
  refine Ok.bind (loop_inv (fun k (s : V4 (IEEE m)) => LanesAcc k s (fun j => b j * b j) (fun j => b j * b j)) (LanesAcc.zero _ _) ?_) fun s hs => ?_
  · rintro k hk s s1
    rw [rd4_nat Ml (show 1 + 4 * k + 3 < 57 by omega), ok_bind]
    exact Ok.ok (s1.step (by omega) (fun i h1 h2 => sq i h1 (by omega)) (T (1 + 4 * k) (by omega) (by omega) (by omega)).1
      (T (1 + 4 * k + 1) (by omega) (by omega) (by omega)).1 (T (1 + 4 * k + 2) (by omega) (by omega) (by omega)).1 (T (1 + 4 * k + 3) (by omega) (by omega) (by omega)).1)
  · refine (loopFT_inv (lo := 1 + 4 * (L.toNat / 4)) (hi := L.toNat) (fun k (s : IEEE m) =>
      Acc (k - 1) (8 * (k - 1)) s (sumBelow (fun j => b j * b j) k) (sumBelow (fun j => b j * b j) k)) (by omega) ?_ ?_).mono ?_
    · rw [Nat.add_sub_cancel_left]
      exact hs.hsum isa (by omega) (by omega) fun i h1 h2 => sq i h1 (by omega)
    · rintro i h1 h2 s u1
      obtain ⟨_, x0, z0, n0⟩ := T i (by omega) (by omega) (by omega)
      rw [Arr.rd_nat (show i < 57 by omega), ok_bind, n0, if_neg (by simp), sumBelow_succ _ (by omega)]
      have hPu : sumBelow (fun j => b j * b j) i + b i * b i ≤ 2 ^ 100 := by
        have h1 : sumBelow (fun j => b j * b j) i ≤ 56 * 2 ^ 80 := sumBelow_const (by omega) (by norm_num) fun j j1 j2 => sq j j1 (by omega)
        have : (56 : ℚ) * 2 ^ 80 + 2 ^ 80 ≤ 2 ^ 100 := by norm_num
        linarith
      exact Ok.ok ((u1.step x0 (by omega) (by omega) hPu).mono (by omega) (by omega))
    · rintro s u1
      exact u1.fin (by omega)

/-- Without any amplitude the sum is zero. -/
theorem enhSumSimd_zero (isa : Isa) {L : Int} (hL : L ≤ 56) {Ml : Arr 57 (IEEE m)}
    (h : ∀ l : Fin 57, 1 ≤ l.val → (l.val : Int) ≤ L → Val (Ml l) 0) : Post (enhSumSimd isa L Ml) fun s => Val s 0 := by
  have h0c : Val (lit 0 1 : IEEE m) 0 := ⟨false, rfl⟩
  unfold enhSumSimd
  by_cases h4 : L ≥ 4
  swap
  · rw [if_neg h4]
    exact enhSum_zero hL h
  rw [if_pos h4]
  dsimp only
  have T : ∀ (i : Nat) (hi : i < 57), 1 ≤ i → (i : Int) ≤ L → Val (Arith.abs (Ml ⟨i, hi⟩) *ᶠ Arith.abs (Ml ⟨i, hi⟩) : IEEE m) 0 := fun i hi h1 h2 => by
    have := abs_val (h ⟨i, hi⟩ h1 h2)
    rw [abs_zero] at this
    exact mul_zero_val this this
  refine Post.bind (loop_post (fun _ (s : V4 (IEEE m)) => Val s.a 0 ∧ Val s.b 0 ∧ Val s.c 0 ∧ Val s.d 0) ⟨h0c, h0c, h0c, h0c⟩ ?_) fun s hs => ?_
  · rintro k hk s ⟨h1, h2, h3, h5⟩
    rw [rd4_nat Ml (show 1 + 4 * k + 3 < 57 by omega), ok_bind]
    exact Post.pure ⟨zero_add_val h1 (T _ (by omega) (by omega) (by omega)), zero_add_val h2 (T _ (by omega) (by omega) (by omega)),
      zero_add_val h3 (T _ (by omega) (by omega) (by omega)), zero_add_val h5 (T _ (by omega) (by omega) (by omega))⟩
  · refine loopFT_post (fun _ (s : IEEE m) => Val s 0) (by omega) ?_ fun i h1 h2 s hs => ?_
    · obtain ⟨h1, h2, h3, h5⟩ := hs
      cases isa
      · exact zero_add_val (zero_add_val h1 h2) (zero_add_val h3 h5)
      · exact zero_add_val (zero_add_val h1 h3) (zero_add_val h2 h5)
    · have hz := h ⟨i, by omega⟩ (by show 1 ≤ i; omega) (by show (i : Int) ≤ L; omega)
      rw [Arr.rd_nat (show i < 57 by omega), ok_bind, hz.lt h0c, if_neg (by simp)]
      exact Post.pure (zero_add_val hs (mul_zero_val hz hz))

theorem sumBelow_one {f : Nat → ℚ} {n k : Nat} (h : ∀ j, 1 ≤ j → j < n → 0 ≤ f j) (k1 : 1 ≤ k) (k2 : k < n) : f k ≤ sumBelow f n :=
  Finset.single_le_sum (f := f) (fun j hj => by rw [Finset.mem_Ico] at hj; exact h j hj.1 hj.2) (by rw [Finset.mem_Ico]; omega)

/-- The bounds of the first two sums from their accuracy. -/
theorem rmVal_of_near {L : Int} (hL : L ≤ 56) {Ml : Arr 57 (IEEE m)} {ct : Loc 57 (IEEE m)} {a : Nat → ℚ} {M : ℚ} (hM0 : 1 / 1024 ≤ M) (hM1 : M ≤ 2 ^ 27)
    (ha : ∀ l : Fin 57, 1 ≤ l.val → (l.val : Int) ≤ L → Val (Ml l) (a l.val) ∧ 0 ≤ a l.val ∧ a l.val ≤ M) {k : Nat} (hk1 : 1 ≤ k) (hk2 : (k : Int) ≤ L)
    (hk : a k = M) (hc : ∀ l : Fin 57, 1 ≤ l.val → (l.val : Int) ≤ L → ∃ (c : IEEE m) (r : ℚ), ct l = some c ∧ Val c r ∧ |r| ≤ 1999 / 2000)
    {x : Exec (IEEE m × IEEE m)} (h : ∀ r : Nat → ℚ, (∀ l : Fin 57, 1 ≤ l.val → (l.val : Int) ≤ L → ∃ c : IEEE m, ct l = some c ∧ Val c (r l.val) ∧ |r l.val| ≤ 1) →
      Ok x fun s => ∃ q0 q1 : ℚ, Val s.1 q0 ∧ Val s.2 q1 ∧
      |q0 - sumBelow (fun j => a j * a j) (L.toNat + 1)| ≤ 58 * (sumBelow (fun j => a j * a j) (L.toNat + 1) / 16000000) + 56 * (1 / 2 ^ 140) ∧
      |q1 - sumBelow (fun j => a j * a j * r j) (L.toNat + 1)| ≤ 58 * (sumBelow (fun j => a j * a j) (L.toNat + 1) / 16000000) + 56 * (1 / 2 ^ 140)) :
    Ok x fun s => ∃ q0 q1 : ℚ, Val s.1 q0 ∧ Val s.2 q1 ∧ M * M * (99 / 100) ≤ q0 ∧ q0 ≤ 57 * (M * M) ∧ |q1| ≤ 4095 / 4096 * q0 := by
  have ctv : ∀ l : Nat, ∃ r : ℚ, ∀ hl : l < 57, 1 ≤ l → (l : Int) ≤ L → ∃ c : IEEE m, ct ⟨l, hl⟩ = some c ∧ Val c r ∧ |r| ≤ 1999 / 2000 := by
    intro l
    by_cases h : l < 57 ∧ 1 ≤ l ∧ (l : Int) ≤ L
    · obtain ⟨c, r, e⟩ := hc ⟨l, h.1⟩ h.2.1 h.2.2
      exact ⟨r, fun _ _ _ => ⟨c, e⟩⟩
    · exact ⟨0, fun h1 h2 h3 => absurd ⟨h1, h2, h3⟩ h⟩
  obtain ⟨r, hr⟩ := Classical.skolem.1 ctv
  refine (h r fun l h1 h2 => ?_).mono fun s hs => ?_
  · obtain ⟨c, e1, e2, e3⟩ := hr l.val l.isLt h1 h2
    exact ⟨c, e1, e2, e3.trans (by norm_num)⟩
  obtain ⟨q0, q1, v0, v1, n0, n1⟩ := hs
  have S0 : M * M ≤ sumBelow (fun j => a j * a j) (L.toNat + 1) := by
    rw [← hk]
    exact sumBelow_one (f := fun j => a j * a j) (fun j _ _ => mul_self_nonneg _) hk1 (by omega)
  have S1 : sumBelow (fun j => a j * a j) (L.toNat + 1) ≤ 56 * (M * M) := sumBelow_const (by omega) (mul_self_nonneg _) fun j h1 h2 => by
    obtain ⟨_, b, c⟩ := ha ⟨j, by omega⟩ h1 (by show (j : Int) ≤ L; omega)
    exact mul_le_mul c c b (by linarith)
  have R : |sumBelow (fun j => a j * a j * r j) (L.toNat + 1)| ≤ 1999 / 2000 * sumBelow (fun j => a j * a j) (L.toNat + 1) := by
    have : 1999 / 2000 * sumBelow (fun j => a j * a j) (L.toNat + 1) = sumBelow (fun j => 1999 / 2000 * (a j * a j)) (L.toNat + 1) := Finset.mul_sum ..
    rw [this]
    refine sumBelow_abs fun j h1 h2 => ?_
    obtain ⟨_, _, _, e⟩ := hr j (by omega) h1 (by omega)
    rw [abs_mul, abs_of_nonneg (mul_self_nonneg _), mul_comm]
    exact mul_le_mul_of_nonneg_right e (mul_self_nonneg _)
  have hMM : (1 : ℚ) / 2 ^ 20 ≤ M * M := le_trans (by norm_num) (mul_le_mul hM0 hM0 (by norm_num) (by linarith))
  have small : 56 * ((1 : ℚ) / 2 ^ 140) ≤ 1 / 2 ^ 20 / 100000 := by norm_num
  refine ⟨q0, q1, v0, v1, ?_⟩
  generalize sumBelow (fun j => a j * a j) (L.toNat + 1) = S at *
  generalize sumBelow (fun j => a j * a j * r j) (L.toNat + 1) = T at *
  generalize 56 * ((1 : ℚ) / 2 ^ 140) = τ at *
  generalize (1 : ℚ) / 2 ^ 20 = σ at *
  generalize M * M = X at *
  have a0 := abs_le.1 n0
  have a1 := abs_le.1 n1
  have a2 := abs_le.1 R
  refine ⟨by linarith, by linarith, ?_⟩
  rw [abs_le]
  constructor <;> linarith

/-- The bounds of the third sum from its accuracy. -/
theorem sumVal_of_near {L : Int} (hL : L ≤ 56) {Ml : Arr 57 (IEEE m)} {b : Nat → ℚ} {B c : ℚ} (hB0 : 0 ≤ B)
    (hc : 1 / 2 ^ 30 ≤ c) (hb : ∀ l : Fin 57, 1 ≤ l.val → (l.val : Int) ≤ L → Val (Ml l) (b l.val) ∧ 0 ≤ b l.val ∧ b l.val ≤ B)
    {k : Nat} (hk1 : 1 ≤ k) (hk2 : (k : Int) ≤ L) (hk : c ≤ b k) {x : Exec (IEEE m)} (h : Ok x fun s => ∃ q : ℚ, Val s q ∧
      |q - sumBelow (fun j => b j * b j) (L.toNat + 1)| ≤ 58 * (sumBelow (fun j => b j * b j) (L.toNat + 1) / 16000000) + 56 * (1 / 2 ^ 140)) :
    Ok x fun s => ∃ q : ℚ, Val s q ∧ c * c * (999 / 1000) ≤ q ∧ q ≤ 57 * (B * B) := by
  refine h.mono fun s hs => ?_
  obtain ⟨q, v, n⟩ := hs
  have hc0 : 0 < c := lt_of_lt_of_le (by norm_num) hc
  have hcc : (1 : ℚ) / 2 ^ 60 ≤ c * c := le_trans (by norm_num) (mul_le_mul hc hc (by norm_num) hc0.le)
  have S0 : c * c ≤ sumBelow (fun j => b j * b j) (L.toNat + 1) :=
    (mul_le_mul hk hk hc0.le (hc0.le.trans hk)).trans (sumBelow_one (f := fun j => b j * b j) (fun j _ _ => mul_self_nonneg _) hk1 (by omega))
  have S1 : sumBelow (fun j => b j * b j) (L.toNat + 1) ≤ 56 * (B * B) := sumBelow_const (by omega) (mul_self_nonneg _) fun j h1 h2 => by
    obtain ⟨_, b, c⟩ := hb ⟨j, by omega⟩ h1 (by show (j : Int) ≤ L; omega)
    exact mul_le_mul c c b hB0
  have small : 56 * ((1 : ℚ) / 2 ^ 140) ≤ 1 / 2 ^ 60 / 100000 := by norm_num
  refine ⟨q, v, ?_⟩
  generalize sumBelow (fun j => b j * b j) (L.toNat + 1) = S at *
  generalize 56 * ((1 : ℚ) / 2 ^ 140) = τ at *
  generalize (1 : ℚ) / 2 ^ 60 = σ at *
  generalize c * c = X at *
  generalize B * B = Y at *
  have a0 := abs_le.1 n
  constructor <;> linarith

/-- The sums of the vector build. -/
theorem sumsNear_simd (isa : Isa) : SumsNear (m := m) (rm01Simd isa) (enhSumSimd isa) where
  rmVal hL _ _ _ _ _ hM0 hM1 ha _ k1 k2 hk hc := rmVal_of_near hL hM0 hM1 ha k1 k2 hk hc fun r hr => rm01Simd_near isa hL
    (fun l h1 h2 => ⟨(ha l h1 h2).1, (ha l h1 h2).2.1, ((ha l h1 h2).2.2.trans hM1).trans (by norm_num)⟩) hr
  sumVal hL _ _ _ _ _ hB1 hB0 hc hb _ k1 k2 hk := sumVal_of_near hL hB0 hc hb k1 k2 hk (enhSumSimd_near isa hL
    (fun l h1 h2 => ⟨(hb l h1 h2).1, (hb l h1 h2).2.1, ((hb l h1 h2).2.2.trans hB1).trans (by norm_num)⟩))
  zero hL _ h := enhSumSimd_zero isa hL h
  rmNear hL _ _ _ _ ha hc := rm01Simd_near isa hL ha hc
  sumNear hL _ _ hb := enhSumSimd_near isa hL hb

/-- The enhancement of the vector build. -/
theorem spectralAmpEnhanceSimd_with (isa : Isa) (addr : Nat) (cur : Parms (IEEE m)) (t : Tls (IEEE m)) (hL : cur.L ≤ 56) :
    spectralAmpEnhanceSimd isa addr cur t = enhanceWith (rm01Simd isa) (enhSumSimd isa) addr cur t := by
  unfold spectralAmpEnhanceSimd enhanceWith
  simp only [enhScaleSimd_eq mul_comm_ieee hL]

end Verif.Model
