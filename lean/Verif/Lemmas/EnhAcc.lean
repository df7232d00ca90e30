import Verif.Lemmas.FinEnh
import Verif.Lemmas.FinPitch
import Verif.Lemmas.Enhance
import Verif.Lemmas.AmbeFund
import Verif.Lemmas.ToneWave
import Verif.Lemmas.VoicedAcc

/-!
# The sums of the spectral enhancement in binary32
-/

namespace Verif.Model
open Verif Verif.Gen Verif.Spec Verif.Num Arith
variable {m : Libm}

/-- One addition: `Q` and `P` are the exact sums of the terms and of their bounds. -/
theorem sumAcc_step {x y : IEEE m} {k : Nat} {q Q P v w u : ℚ} (hk : k ≤ 56) (hx : Val x q)
    (hq : |q - Q| ≤ (k + 2) * (P / 16000000) + k * (1 / 2 ^ 140)) (hP : 0 ≤ P) (hQ : |Q| ≤ P) (hy : Val y v)
    (hv : |v - w| ≤ u / 8000000 + 3 * pow2 (-150)) (hw : |w| ≤ u) (hb : P + u ≤ 2 ^ 100) :
    ∃ q', Val (x +ᶠ y : IEEE m) q' ∧ |q' - (Q + w)| ≤ ((k + 1 : Nat) + 2) * ((P + u) / 16000000) + (k + 1 : Nat) * (1 / 2 ^ 140) := by
  have hu : 0 ≤ u := (abs_nonneg _).trans hw
  have hk' : (k : ℚ) ≤ 56 := by exact_mod_cast hk
  have hk0 : (0 : ℚ) ≤ k := by positivity
  have t : pow2 (-150) ≤ 1 / 2 ^ 149 := by rw [pow2_eq]; norm_num
  obtain ⟨τ, hτ⟩ : ∃ τ : ℚ, τ = 1 / 2 ^ 140 := ⟨_, rfl⟩
  rw [← hτ] at hq ⊢
  have hτ0 : 0 < τ := by rw [hτ]; positivity
  have t' : pow2 (-150) ≤ τ / 512 := t.trans (by rw [hτ]; norm_num)
  have hB : (k : ℚ) * (P / 16000000) ≤ 56 * (P / 16000000) := mul_le_mul_of_nonneg_right hk' (by positivity)
  have hB2 : (k : ℚ) * τ ≤ 56 * τ := mul_le_mul_of_nonneg_right hk' hτ0.le
  have hB3 : 0 ≤ (k : ℚ) * τ := by positivity
  have hs : |q + v| ≤ 100001 / 100000 * (P + u) + 60 * τ := by
    have h1 := abs_le.1 hq
    have h2 := abs_le.1 hQ
    have h3 := abs_le.1 hv
    have h4 := abs_le.1 hw
    rw [abs_le]
    constructor <;> linarith
  have hτ1 : τ ≤ 1 := by rw [hτ]; norm_num
  obtain ⟨r, hr, he⟩ := hx.addE hy (hs.trans (le_trans (by linarith) (le_trans (by norm_num : (2 : ℚ) * 2 ^ 100 + 60 ≤ 2 ^ 127) big_ge)))
  refine ⟨r, hr, ?_⟩
  rw [p24] at he
  have ku : 0 ≤ (k : ℚ) * (u / 16000000) := by positivity
  have e : (((k + 1 : Nat) : ℚ) + 2) * ((P + u) / 16000000) + ((k + 1 : Nat) : ℚ) * τ =
    (k + 2) * (P / 16000000) + k * τ + (P / 16000000 + 3 * (u / 16000000) + k * (u / 16000000) + τ) := by push_cast; ring
  rw [e]
  have he' : |r - (q + v)| ≤ (100001 / 100000 * (P + u) + 60 * τ) / 16777216 + τ / 512 := by linarith
  have h1 := abs_le.1 hq
  have h3 := abs_le.1 hv
  have h5 := abs_le.1 he'
  rw [abs_le]
  constructor <;> linarith

/-- The sum of the values below `k`. -/
def sumBelow (f : Nat → ℚ) (k : Nat) : ℚ := ∑ j ∈ Finset.Ico 1 k, f j

theorem sumBelow_succ (f : Nat → ℚ) {k : Nat} (h : 1 ≤ k) : sumBelow f (k + 1) = sumBelow f k + f k := Finset.sum_Ico_succ_top h f

theorem sumBelow_le {f g : Nat → ℚ} {k : Nat} (h : ∀ j, 1 ≤ j → j < k → f j ≤ g j) : sumBelow f k ≤ sumBelow g k :=
  Finset.sum_le_sum fun j hj => by rw [Finset.mem_Ico] at hj; exact h j hj.1 hj.2

theorem sumBelow_abs {f g : Nat → ℚ} {k : Nat} (h : ∀ j, 1 ≤ j → j < k → |f j| ≤ g j) : |sumBelow f k| ≤ sumBelow g k :=
  (Finset.abs_sum_le_sum_abs _ _).trans (Finset.sum_le_sum fun j hj => by rw [Finset.mem_Ico] at hj; exact h j hj.1 hj.2)

theorem sumBelow_nonneg {f : Nat → ℚ} {k : Nat} (h : ∀ j, 1 ≤ j → j < k → 0 ≤ f j) : 0 ≤ sumBelow f k :=
  Finset.sum_nonneg fun j hj => by rw [Finset.mem_Ico] at hj; exact h j hj.1 hj.2

theorem sumBelow_const {f : Nat → ℚ} {k : Nat} {B : ℚ} (hk : k ≤ 57) (hB : 0 ≤ B) (h : ∀ j, 1 ≤ j → j < k → f j ≤ B) : sumBelow f k ≤ 56 * B := by
  refine (Finset.sum_le_card_nsmul _ _ B fun j hj => by rw [Finset.mem_Ico] at hj; exact h j hj.1 hj.2).trans ?_
  rw [Nat.card_Ico, nsmul_eq_mul]
  refine mul_le_mul_of_nonneg_right ?_ hB
  have : k - 1 ≤ 56 := by omega
  exact_mod_cast this

theorem sq_err {x : IEEE m} {a A : ℚ} (ha : Val x a) (h0 : 0 ≤ a) (hA : a ≤ A) (h : A ≤ 2 ^ 40) :
    ∃ u, Val (x *ᶠ x : IEEE m) u ∧ 0 ≤ u ∧ |u - a * a| ≤ a * a / 16777216 + pow2 (-150) ∧ a * a ≤ 2 ^ 80 := by
  have h2 : a * a ≤ 2 ^ 80 := (mul_le_mul (hA.trans h) (hA.trans h) h0 (by norm_num)).trans (by norm_num)
  have h3 : |a * a| ≤ Val.big := by
    rw [abs_of_nonneg (mul_nonneg h0 h0)]; exact h2.trans (le_trans (by norm_num) big_ge)
  have e := rnd32_err (a * a)
  rw [p24, abs_of_nonneg (mul_nonneg h0 h0)] at e
  exact ⟨_, ha.mul ha h3, rnd_nonneg (mul_nonneg h0 h0), by linarith, h2⟩

/-- `Rm0` and `Rm1` against the exact sums. -/
theorem rm01_near {L : Int} (hL : L ≤ 56) {Ml : Arr 57 (IEEE m)} {ct : Loc 57 (IEEE m)} {a r : Nat → ℚ}
    (ha : ∀ l : Fin 57, 1 ≤ l.val → (l.val : Int) ≤ L → Val (Ml l) (a l.val) ∧ 0 ≤ a l.val ∧ a l.val ≤ 2 ^ 40)
    (hc : ∀ l : Fin 57, 1 ≤ l.val → (l.val : Int) ≤ L → ∃ c : IEEE m, ct l = some c ∧ Val c (r l.val) ∧ |r l.val| ≤ 1) :
    Ok (rm01 L Ml ct) fun s => ∃ q0 q1 : ℚ, Val s.1 q0 ∧ Val s.2 q1 ∧
      |q0 - sumBelow (fun j => a j * a j) (L.toNat + 1)| ≤ 58 * (sumBelow (fun j => a j * a j) (L.toNat + 1) / 16000000) + 56 * (1 / 2 ^ 140) ∧
      |q1 - sumBelow (fun j => a j * a j * r j) (L.toNat + 1)| ≤ 58 * (sumBelow (fun j => a j * a j) (L.toNat + 1) / 16000000) + 56 * (1 / 2 ^ 140) := by
  have t : pow2 (-150) ≤ 1 / 2 ^ 100 := p150
  have t0 := pow2_pos (-150)
  have h0c : Val (lit 0 1 : IEEE m) 0 := ⟨false, rfl⟩
  have pos : ∀ k : Nat, k ≤ L.toNat + 1 → 0 ≤ sumBelow (fun j => a j * a j) k := fun k _ => sumBelow_nonneg fun j _ _ => mul_self_nonneg _
  unfold rm01 loopTo
  refine (loopFT_inv (lo := 1) (hi := L.toNat) (fun k (s : IEEE m × IEEE m) => ∃ q0 q1 : ℚ, Val s.1 q0 ∧ Val s.2 q1 ∧
      |q0 - sumBelow (fun j => a j * a j) k| ≤ ((k - 1 : Nat) + 2) * (sumBelow (fun j => a j * a j) k / 16000000) + (k - 1 : Nat) * (1 / 2 ^ 140) ∧
      |q1 - sumBelow (fun j => a j * a j * r j) k| ≤ ((k - 1 : Nat) + 2) * (sumBelow (fun j => a j * a j) k / 16000000) + (k - 1 : Nat) * (1 / 2 ^ 140))
      (by omega) ?_ ?_).mono ?_
  · refine ⟨0, 0, h0c, h0c, ?_, ?_⟩ <;> simp [sumBelow]
  · rintro i h1 h2 s ⟨q0, q1, v0, v1, e0, e1⟩
    obtain ⟨ha1, ha2, ha3⟩ := ha ⟨i, by omega⟩ h1 (by show (i : Int) ≤ L; omega)
    obtain ⟨c, hc1, hc2, hc3⟩ := hc ⟨i, by omega⟩ h1 (by show (i : Int) ≤ L; omega)
    dsimp only at ha1 ha2 ha3 hc2 hc3
    rw [Arr.rd_nat (show i < 57 by omega), ok_bind, Loc.rd_nat (show i < 57 by omega) hc1, ok_bind]
    obtain ⟨u, hu1, hu0, hu2, haa⟩ := sq_err ha1 ha2 ha3 le_rfl
    have haa0 : 0 ≤ a i * a i := mul_nonneg ha2 ha2
    have hu3 := abs_le.1 hu2
    have hur : |u * r i| ≤ u := by
      rw [abs_mul, abs_of_nonneg hu0]
      exact mul_le_of_le_one_right hu0 hc3
    have har : |a i * a i * r i| ≤ a i * a i := by
      rw [abs_mul, abs_of_nonneg haa0]
      exact mul_le_of_le_one_right haa0 hc3
    have t1 : (1 : ℚ) / 2 ^ 100 ≤ 1 := by norm_num
    obtain ⟨v, hv1, hv2⟩ := hu1.mulE hc2 (hur.trans (by
      have : (2 : ℚ) ^ 80 + 2 ^ 80 + 1 ≤ 2 ^ 127 := by norm_num
      have := big_ge
      linarith))
    rw [p24] at hv2
    have hv3 : |v - a i * a i * r i| ≤ a i * a i / 8000000 + 3 * pow2 (-150) := by
      have e : v - a i * a i * r i = (v - u * r i) + (u - a i * a i) * r i := by ring
      rw [e]
      refine (abs_add_le _ _).trans ?_
      have : |(u - a i * a i) * r i| ≤ |u - a i * a i| := by
        rw [abs_mul]
        exact mul_le_of_le_one_right (abs_nonneg _) hc3
      linarith
    have hPb : sumBelow (fun j => a j * a j) i ≤ 56 * 2 ^ 80 := sumBelow_const (by omega) (by norm_num) fun j j1 j2 => by
      obtain ⟨b1, b2, b3⟩ := ha ⟨j, by omega⟩ j1 (by show (j : Int) ≤ L; omega)
      exact (sq_err b1 b2 b3 le_rfl).choose_spec.2.2.2
    have hPu : sumBelow (fun j => a j * a j) i + a i * a i ≤ 2 ^ 100 := by
      have : (56 : ℚ) * 2 ^ 80 + 2 ^ 80 ≤ 2 ^ 100 := by norm_num
      linarith
    have hQ1 : |sumBelow (fun j => a j * a j * r j) i| ≤ sumBelow (fun j => a j * a j) i := sumBelow_abs fun j j1 j2 => by
      obtain ⟨c, _, _, g⟩ := hc ⟨j, by omega⟩ j1 (by show (j : Int) ≤ L; omega)
      rw [abs_mul, abs_of_nonneg (mul_self_nonneg _)]
      exact mul_le_of_le_one_right (mul_self_nonneg _) g
    obtain ⟨q0', w0, f0⟩ := sumAcc_step (show i - 1 ≤ 56 by omega) v0 e0 (pos i (by omega)) (by rw [abs_of_nonneg (pos i (by omega))]) hu1
      (w := a i * a i) (u := a i * a i) (by linarith) (by rw [abs_of_nonneg haa0]) hPu
    obtain ⟨q1', w1, f1⟩ := sumAcc_step (show i - 1 ≤ 56 by omega) v1 e1 (pos i (by omega)) hQ1 hv1 hv3 har hPu
    rw [show i - 1 + 1 = i + 1 - 1 by omega] at f0 f1
    refine Ok.ok ⟨q0', q1', w0, w1, ?_, ?_⟩
    · rw [sumBelow_succ _ h1]; exact f0
    · rw [sumBelow_succ _ h1, sumBelow_succ _ h1]; exact f1
  · rintro s ⟨q0, q1, v0, v1, e0, e1⟩
    have e : ((L.toNat + 1 - 1 : Nat) : ℚ) ≤ 56 := by
      have : L.toNat + 1 - 1 ≤ 56 := by omega
      exact_mod_cast this
    have hp := pos (L.toNat + 1) le_rfl
    have b : (((L.toNat + 1 - 1 : Nat) : ℚ) + 2) * (sumBelow (fun j => a j * a j) (L.toNat + 1) / 16000000) + ((L.toNat + 1 - 1 : Nat) : ℚ) * (1 / 2 ^ 140) ≤
        58 * (sumBelow (fun j => a j * a j) (L.toNat + 1) / 16000000) + 56 * (1 / 2 ^ 140) :=
      add_le_add (mul_le_mul_of_nonneg_right (by linarith) (by positivity)) (mul_le_mul_of_nonneg_right e (by positivity))
    exact ⟨q0, q1, v0, v1, e0.trans b, e1.trans b⟩

/-- The second sum of squares against the exact sum. -/
theorem enhSum_near {L : Int} (hL : L ≤ 56) {Ml : Arr 57 (IEEE m)} {b : Nat → ℚ}
    (hb : ∀ l : Fin 57, 1 ≤ l.val → (l.val : Int) ≤ L → Val (Ml l) (b l.val) ∧ 0 ≤ b l.val ∧ b l.val ≤ 2 ^ 40) :
    Ok (enhSum L Ml) fun s => ∃ q : ℚ, Val s q ∧
      |q - sumBelow (fun j => b j * b j) (L.toNat + 1)| ≤ 58 * (sumBelow (fun j => b j * b j) (L.toNat + 1) / 16000000) + 56 * (1 / 2 ^ 140) := by
  have t0 := pow2_pos (-150)
  have h0c : Val (lit 0 1 : IEEE m) 0 := ⟨false, rfl⟩
  have pos : ∀ k : Nat, k ≤ L.toNat + 1 → 0 ≤ sumBelow (fun j => b j * b j) k := fun k _ => sumBelow_nonneg fun j _ _ => mul_self_nonneg _
  unfold enhSum loopTo
  refine (loopFT_inv (lo := 1) (hi := L.toNat) (fun k (s : IEEE m) => ∃ q : ℚ, Val s q ∧
      |q - sumBelow (fun j => b j * b j) k| ≤ ((k - 1 : Nat) + 2) * (sumBelow (fun j => b j * b j) k / 16000000) + (k - 1 : Nat) * (1 / 2 ^ 140))
      (by omega) ?_ ?_).mono ?_
  · refine ⟨0, h0c, ?_⟩
    simp [sumBelow]
  · rintro i h1 h2 s ⟨q, v, e⟩
    obtain ⟨ha1, ha2, ha3⟩ := hb ⟨i, by omega⟩ h1 (by show (i : Int) ≤ L; omega)
    dsimp only at ha1 ha2 ha3
    rw [Arr.rd_nat (show i < 57 by omega), ok_bind]
    dsimp only
    rw [ha1.lt h0c, if_neg (by simpa using ha2)]
    obtain ⟨u, hu1, hu0, hu2, haa⟩ := sq_err ha1 ha2 ha3 le_rfl
    have haa0 : 0 ≤ b i * b i := mul_nonneg ha2 ha2
    have hPb : sumBelow (fun j => b j * b j) i ≤ 56 * 2 ^ 80 := sumBelow_const (by omega) (by norm_num) fun j j1 j2 => by
      obtain ⟨b1, b2, b3⟩ := hb ⟨j, by omega⟩ j1 (by show (j : Int) ≤ L; omega)
      exact (sq_err b1 b2 b3 le_rfl).choose_spec.2.2.2
    have hPu : sumBelow (fun j => b j * b j) i + b i * b i ≤ 2 ^ 100 := by
      have : (56 : ℚ) * 2 ^ 80 + 2 ^ 80 ≤ 2 ^ 100 := by norm_num
      linarith
    obtain ⟨q', w, f⟩ := sumAcc_step (show i - 1 ≤ 56 by omega) v e (pos i (by omega)) (by rw [abs_of_nonneg (pos i (by omega))]) hu1
      (w := b i * b i) (u := b i * b i) (by linarith) (by rw [abs_of_nonneg haa0]) hPu
    rw [show i - 1 + 1 = i + 1 - 1 by omega] at f
    refine Ok.ok ⟨q', w, ?_⟩
    rw [sumBelow_succ _ h1]; exact f
  · rintro s ⟨q, v, e⟩
    have e' : ((L.toNat + 1 - 1 : Nat) : ℚ) ≤ 56 := by
      have : L.toNat + 1 - 1 ≤ 56 := by omega
      exact_mod_cast this
    have hp := pos (L.toNat + 1) le_rfl
    exact ⟨q, v, e.trans (add_le_add (mul_le_mul_of_nonneg_right (by linarith) (by positivity)) (mul_le_mul_of_nonneg_right e' (by positivity)))⟩

/-- What the accuracy needs of the two sums. -/
structure SumsNear (rm : Int → Arr 57 (IEEE m) → Loc 57 (IEEE m) → Exec (IEEE m × IEEE m)) (es : Int → Arr 57 (IEEE m) → Exec (IEEE m)) : Prop
    extends SumsVal rm es where
  rmNear : ∀ {L : Int}, L ≤ 56 → ∀ {Ml : Arr 57 (IEEE m)} {ct : Loc 57 (IEEE m)} {a r : Nat → ℚ},
    (∀ l : Fin 57, 1 ≤ l.val → (l.val : Int) ≤ L → Val (Ml l) (a l.val) ∧ 0 ≤ a l.val ∧ a l.val ≤ 2 ^ 40) →
    (∀ l : Fin 57, 1 ≤ l.val → (l.val : Int) ≤ L → ∃ c : IEEE m, ct l = some c ∧ Val c (r l.val) ∧ |r l.val| ≤ 1) →
    Ok (rm L Ml ct) fun s => ∃ q0 q1 : ℚ, Val s.1 q0 ∧ Val s.2 q1 ∧
      |q0 - sumBelow (fun j => a j * a j) (L.toNat + 1)| ≤ 58 * (sumBelow (fun j => a j * a j) (L.toNat + 1) / 16000000) + 56 * (1 / 2 ^ 140) ∧
      |q1 - sumBelow (fun j => a j * a j * r j) (L.toNat + 1)| ≤ 58 * (sumBelow (fun j => a j * a j) (L.toNat + 1) / 16000000) + 56 * (1 / 2 ^ 140)
  sumNear : ∀ {L : Int}, L ≤ 56 → ∀ {Ml : Arr 57 (IEEE m)} {b : Nat → ℚ},
    (∀ l : Fin 57, 1 ≤ l.val → (l.val : Int) ≤ L → Val (Ml l) (b l.val) ∧ 0 ≤ b l.val ∧ b l.val ≤ 2 ^ 40) →
    Ok (es L Ml) fun s => ∃ q : ℚ, Val s q ∧
      |q - sumBelow (fun j => b j * b j) (L.toNat + 1)| ≤ 58 * (sumBelow (fun j => b j * b j) (L.toNat + 1) / 16000000) + 56 * (1 / 2 ^ 140)

theorem sumsNear_scalar : SumsNear (m := m) rm01 enhSum := ⟨sumsVal_scalar, rm01_near, enhSum_near⟩

end Verif.Model
