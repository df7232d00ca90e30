import Verif.Lemmas.FinUnvoiced
import Verif.Lemmas.FftEnv

/-!
# Finite samples: the transforms
-/

namespace Verif.Model
open Verif Verif.Gen Verif.Spec Verif.Num Arith
variable {m : Libm}

theorem abs_rnd_slack {q s c : ℚ} (h : |q| ≤ s) (h1 : 1 ≤ c) (hc : s * (1025 / 1024) ≤ c) : |rnd F32 q| ≤ c := by
  have e := rnd32_err q
  have t := abs_sub_abs_le_abs_sub (rnd F32 q) q
  have e1 : pow2 (-24) ≤ 1 / 4096 := by rw [pow2_eq]; norm_num
  have e2 : pow2 (-150) ≤ 1 / 4096 := by rw [pow2_eq]; norm_num
  have q0 := abs_nonneg q
  have e3 : pow2 (-24) * |q| ≤ 1 / 4096 * |q| := mul_le_mul_of_nonneg_right e1 q0
  by_cases k : s ≤ 1 / 2
  · linarith
  · linarith

theorem _root_.Verif.Num.Bnd.addR {x y : IEEE m} {a b c : ℚ} (hx : Bnd x a) (hy : Bnd y b) (h1 : 1 ≤ c) (h : (a + b) * (1025 / 1024) ≤ c) (hb : c ≤ Val.big) :
    Bnd (x +ᶠ y : IEEE m) c := by
  obtain ⟨p, hp, hp'⟩ := hx
  obtain ⟨q, hq, hq'⟩ := hy
  have k : |p + q| ≤ a + b := (abs_add_le p q).trans (by linarith)
  have k0 := (abs_nonneg _).trans k
  exact ⟨_, hp.add hq (k.trans (by linarith)), abs_rnd_slack k h1 h⟩

theorem _root_.Verif.Num.Bnd.subR {x y : IEEE m} {a b c : ℚ} (hx : Bnd x a) (hy : Bnd y b) (h1 : 1 ≤ c) (h : (a + b) * (1025 / 1024) ≤ c) (hb : c ≤ Val.big) :
    Bnd (x -ᶠ y : IEEE m) c := by
  obtain ⟨p, hp, hp'⟩ := hx
  obtain ⟨q, hq, hq'⟩ := hy
  have k : |p - q| ≤ a + b := (abs_sub p q).trans (by linarith)
  have k0 := (abs_nonneg _).trans k
  exact ⟨_, hp.sub hq (k.trans (by linarith)), abs_rnd_slack k h1 h⟩

theorem _root_.Verif.Num.Bnd.mulR {x y : IEEE m} {a b c : ℚ} (hx : Bnd x a) (hy : Bnd y b) (h1 : 1 ≤ c) (h : a * b * (1025 / 1024) ≤ c) (hb : c ≤ Val.big) :
    Bnd (x *ᶠ y : IEEE m) c := by
  obtain ⟨p, hp, hp'⟩ := hx
  obtain ⟨q, hq, hq'⟩ := hy
  have k : |p * q| ≤ a * b := by
    rw [abs_mul]
    exact mul_le_mul hp' hq' (abs_nonneg _) ((abs_nonneg _).trans hp')
  have k0 := (abs_nonneg _).trans k
  exact ⟨_, hp.mul hq (k.trans (by linarith)), abs_rnd_slack k h1 h⟩

theorem mulConj_bnd {ar ai br bi : IEEE m} {B : ℚ} (h1 : 1 ≤ B) (h2 : 10 * B ≤ Val.big) (har : Bnd ar B) (hai : Bnd ai B)
    (hbr : Bnd br (1001 / 1000)) (hbi : Bnd bi (1001 / 1000)) :
    Bnd (mulConj ar ai br bi).1 (201 / 100 * B) ∧ Bnd (mulConj ar ai br bi).2 (201 / 100 * B) := by
  have k : ∀ {x y : IEEE m}, Bnd x B → Bnd y (1001 / 1000) → Bnd (x *ᶠ y : IEEE m) (1003 / 1000 * B) := fun hx hy =>
    hx.mulR hy (by linarith) (by linarith) (by linarith)
  exact ⟨(k har hbr).addR (k hai hbi) (by linarith) (by linarith) (by linarith),
    (k hai hbr).subR (k har hbi) (by linarith) (by linarith) (by linarith)⟩

theorem mulCplx_bnd {ar ai br bi : IEEE m} {B : ℚ} (h1 : 1 ≤ B) (h2 : 10 * B ≤ Val.big) (har : Bnd ar B) (hai : Bnd ai B)
    (hbr : Bnd br (1001 / 1000)) (hbi : Bnd bi (1001 / 1000)) :
    Bnd (mulCplx ar ai br bi).1 (201 / 100 * B) ∧ Bnd (mulCplx ar ai br bi).2 (201 / 100 * B) := by
  have k : ∀ {x y : IEEE m}, Bnd x B → Bnd y (1001 / 1000) → Bnd (x *ᶠ y : IEEE m) (1003 / 1000 * B) := fun hx hy =>
    hx.mulR hy (by linarith) (by linarith) (by linarith)
  exact ⟨(k har hbr).subR (k hai hbi) (by linarith) (by linarith) (by linarith),
    (k hai hbr).addR (k har hbi) (by linarith) (by linarith) (by linarith)⟩

theorem hsqt2_bnd : Bnd (minusHsqt2 : IEEE m) (3 / 4) := Bnd.of (x := (minusHsqt2 : IEEE m))
  (show bndB (minusHsqt2 : IEEE libm0) (3 / 4) = true by decide +kernel)
theorem sqrt2_bnd : Bnd (minusSqrt2 : IEEE m) (3 / 2) := Bnd.of (x := (minusSqrt2 : IEEE m))
  (show bndB (minusSqrt2 : IEEE libm0) (3 / 2) = true by decide +kernel)
theorem fi2_bnd : Bnd (fi 2 : IEEE m) 2 := Bnd.of (x := (fi 2 : IEEE m)) (show bndB (fi 2 : IEEE libm0) 2 = true by decide +kernel)

theorem valAt_cases {α : Type} (d : α) (W : List (Int × α)) (a : Int) : valAt d W a = d ∨ ∃ p ∈ W, valAt d W a = p.2 := by
  unfold valAt
  cases e : W.find? (fun p => p.1 == a) with
  | some p => exact .inr ⟨p, List.mem_of_find?_eq_some e, rfl⟩
  | none => exact .inl rfl

theorem valAt_bnd {W : List (Int × IEEE m)} {b : ℚ} (h0 : 0 ≤ b) (h : ∀ p ∈ W, Bnd p.2 b) (a : Int) : Bnd (valAt (α := IEEE m) (fi 0) W a) b := by
  rcases valAt_cases (α := IEEE m) (fi 0) W a with e | ⟨p, hp, e⟩
  · rw [e]
    exact ⟨0, ⟨false, rfl⟩, by rwa [abs_zero]⟩
  · rw [e]
    exact h p hp

section
variable {B : ℚ} (h1 : 1 ≤ B) (h2 : 10 * B ≤ Val.big) {c w : Int → IEEE m} (hc : ∀ i, Bnd (c i) B) (hw : ∀ i, Bnd (w i) (1001 / 1000))
include h1 h2 hc

theorem endsF_bnd {ido q c0 h0 : Int} : ∀ p ∈ endsF ido q c c0 h0, Bnd p.2 (5 * B) := by
  have s : ∀ i j, Bnd (c i +ᶠ c j : IEEE m) (201 / 100 * B) := fun i j => (hc i).addR (hc j) (by linarith) (by linarith) (by linarith)
  have d : ∀ i j, Bnd (c i -ᶠ c j : IEEE m) (201 / 100 * B) := fun i j => (hc i).subR (hc j) (by linarith) (by linarith) (by linarith)
  intro p hp
  simp only [endsF, List.mem_cons, List.not_mem_nil, or_false] at hp
  rcases hp with rfl | rfl | rfl | rfl
  · exact (d _ _).mono (by linarith)
  · exact (d _ _).mono (by linarith)
  · exact (s _ _).addR (s _ _) (by linarith) (by linarith) (by linarith)
  · exact (s _ _).subR (s _ _) (by linarith) (by linarith) (by linarith)

theorem endsB_bnd {ido q c0 h0 : Int} : ∀ p ∈ endsB ido q c c0 h0, Bnd p.2 (5 * B) := by
  have s : ∀ i j, Bnd (c i +ᶠ c j : IEEE m) (201 / 100 * B) := fun i j => (hc i).addR (hc j) (by linarith) (by linarith) (by linarith)
  have d : ∀ i j, Bnd (c i -ᶠ c j : IEEE m) (201 / 100 * B) := fun i j => (hc i).subR (hc j) (by linarith) (by linarith) (by linarith)
  have t : ∀ i, Bnd (fi 2 *ᶠ c i : IEEE m) (201 / 100 * B) := fun i => fi2_bnd.mulR (hc i) (by linarith) (by linarith) (by linarith)
  intro p hp
  simp only [endsB, List.mem_cons, List.not_mem_nil, or_false] at hp
  rcases hp with rfl | rfl | rfl | rfl
  · exact (s _ _).addR (t _) (by linarith) (by linarith) (by linarith)
  · exact (s _ _).subR (t _) (by linarith) (by linarith) (by linarith)
  · exact (d _ _).subR (t _) (by linarith) (by linarith) (by linarith)
  · exact (d _ _).addR (t _) (by linarith) (by linarith) (by linarith)

theorem halfF_bnd {ido q k : Int} : ∀ p ∈ halfF ido q c k, Bnd p.2 (81 / 10 * B) := by
  have s : ∀ i j, Bnd (c i +ᶠ c j : IEEE m) (201 / 100 * B) := fun i j => (hc i).addR (hc j) (by linarith) (by linarith) (by linarith)
  have d : ∀ i j, Bnd (c i -ᶠ c j : IEEE m) (201 / 100 * B) := fun i j => (hc i).subR (hc j) (by linarith) (by linarith) (by linarith)
  have t : ∀ {x : IEEE m}, Bnd x (201 / 100 * B) → Bnd (minusHsqt2 *ᶠ x : IEEE m) (2 * B) := fun h =>
    hsqt2_bnd.mulR h (by linarith) (by linarith) (by linarith)
  intro p hp
  simp only [halfF, List.mem_cons, List.not_mem_nil, or_false] at hp
  rcases hp with rfl | rfl | rfl | rfl
  · exact (t (d _ _)).addR (hc _) (by linarith) (by linarith) (by linarith)
  · exact (hc _).subR (t (d _ _)) (by linarith) (by linarith) (by linarith)
  · exact (t (s _ _)).subR (hc _) (by linarith) (by linarith) (by linarith)
  · exact (t (s _ _)).addR (hc _) (by linarith) (by linarith) (by linarith)

theorem halfB_bnd {ido q k : Int} : ∀ p ∈ halfB ido q c k, Bnd p.2 (81 / 10 * B) := by
  have s : ∀ i j, Bnd (c i +ᶠ c j : IEEE m) (201 / 100 * B) := fun i j => (hc i).addR (hc j) (by linarith) (by linarith) (by linarith)
  have d : ∀ i j, Bnd (c i -ᶠ c j : IEEE m) (201 / 100 * B) := fun i j => (hc i).subR (hc j) (by linarith) (by linarith) (by linarith)
  have ss : ∀ {x y : IEEE m}, Bnd x (201 / 100 * B) → Bnd y (201 / 100 * B) → Bnd (x +ᶠ y : IEEE m) (405 / 100 * B) := fun hx hy =>
    hx.addR hy (by linarith) (by linarith) (by linarith)
  have dd : ∀ {x y : IEEE m}, Bnd x (201 / 100 * B) → Bnd y (201 / 100 * B) → Bnd (x -ᶠ y : IEEE m) (405 / 100 * B) := fun hx hy =>
    hx.subR hy (by linarith) (by linarith) (by linarith)
  have t : ∀ {x : IEEE m}, Bnd x (405 / 100 * B) → Bnd (minusSqrt2 *ᶠ x : IEEE m) (81 / 10 * B) := fun h =>
    sqrt2_bnd.mulR h (by linarith) (by linarith) (by linarith)
  intro p hp
  simp only [halfB, List.mem_cons, List.not_mem_nil, or_false] at hp
  rcases hp with rfl | rfl | rfl | rfl
  · exact (ss (s _ _) (s _ _)).mono (by linarith)
  · exact t (dd (s _ _) (d _ _))
  · exact (ss (d _ _) (d _ _)).mono (by linarith)
  · exact t (ss (s _ _) (d _ _))

include hw

theorem midF_bnd {ido q w1 w2 w3 k i p0 : Int} : ∀ p ∈ midF ido q c w w1 w2 w3 k i p0, Bnd p.2 (81 / 10 * B) := by
  have t : ∀ v j, Bnd (twF q c w v i p0 j).1 (201 / 100 * B) ∧ Bnd (twF q c w v i p0 j).2 (201 / 100 * B) := fun v j =>
    mulConj_bnd h1 h2 (hc _) (hc _) (hw _) (hw _)
  have ss : ∀ {x y : IEEE m}, Bnd x (201 / 100 * B) → Bnd y (201 / 100 * B) → Bnd (x +ᶠ y : IEEE m) (405 / 100 * B) := fun hx hy =>
    hx.addR hy (by linarith) (by linarith) (by linarith)
  have dd : ∀ {x y : IEEE m}, Bnd x (201 / 100 * B) → Bnd y (201 / 100 * B) → Bnd (x -ᶠ y : IEEE m) (405 / 100 * B) := fun hx hy =>
    hx.subR hy (by linarith) (by linarith) (by linarith)
  have cs : ∀ {y : IEEE m} (j : Int), Bnd y (201 / 100 * B) → Bnd (c j +ᶠ y : IEEE m) (305 / 100 * B) := fun j hy =>
    (hc j).addR hy (by linarith) (by linarith) (by linarith)
  have cd : ∀ {y : IEEE m} (j : Int), Bnd y (201 / 100 * B) → Bnd (c j -ᶠ y : IEEE m) (305 / 100 * B) := fun j hy =>
    (hc j).subR hy (by linarith) (by linarith) (by linarith)
  have fa : ∀ {x y : IEEE m}, Bnd x (405 / 100 * B) → Bnd y (305 / 100 * B) → Bnd (x +ᶠ y : IEEE m) (81 / 10 * B) := fun hx hy =>
    hx.addR hy (by linarith) (by linarith) (by linarith)
  have fs : ∀ {x y : IEEE m}, Bnd x (405 / 100 * B) → Bnd y (305 / 100 * B) → Bnd (x -ᶠ y : IEEE m) (81 / 10 * B) := fun hx hy =>
    hx.subR hy (by linarith) (by linarith) (by linarith)
  have fr : ∀ {x y : IEEE m}, Bnd x (305 / 100 * B) → Bnd y (405 / 100 * B) → Bnd (x -ᶠ y : IEEE m) (81 / 10 * B) := fun hx hy =>
    hx.subR hy (by linarith) (by linarith) (by linarith)
  intro p hp
  simp only [midF, List.mem_cons, List.not_mem_nil, or_false] at hp
  rcases hp with rfl | rfl | rfl | rfl | rfl | rfl | rfl | rfl
  · exact fa (ss (t _ _).1 (t _ _).1) (cs _ (t _ _).1)
  · exact fr (cs _ (t _ _).1) (ss (t _ _).1 (t _ _).1)
  · exact fa (dd (t _ _).2 (t _ _).2) (cd _ (t _ _).1)
  · exact fr (cd _ (t _ _).1) (dd (t _ _).2 (t _ _).2)
  · exact fa (ss (t _ _).2 (t _ _).2) (cs _ (t _ _).2)
  · exact fs (ss (t _ _).2 (t _ _).2) (cs _ (t _ _).2)
  · exact fa (dd (t _ _).1 (t _ _).1) (cd _ (t _ _).2)
  · exact fs (dd (t _ _).1 (t _ _).1) (cd _ (t _ _).2)

omit h2 in
theorem midB_bnd (h3 : 100 * B ≤ Val.big) {ido q w1 w2 w3 i p0 h : Int} : ∀ p ∈ midB ido q c w w1 w2 w3 i p0 h, Bnd p.2 (81 / 10 * B) := by
  have s : ∀ i j, Bnd (c i +ᶠ c j : IEEE m) (201 / 100 * B) := fun i j => (hc i).addR (hc j) (by linarith) (by linarith) (by linarith)
  have d : ∀ i j, Bnd (c i -ᶠ c j : IEEE m) (201 / 100 * B) := fun i j => (hc i).subR (hc j) (by linarith) (by linarith) (by linarith)
  have ss : ∀ {x y : IEEE m}, Bnd x (201 / 100 * B) → Bnd y (201 / 100 * B) → Bnd (x +ᶠ y : IEEE m) (4025 / 1000 * B) := fun hx hy =>
    hx.addR hy (by linarith) (by linarith) (by linarith)
  have dd : ∀ {x y : IEEE m}, Bnd x (201 / 100 * B) → Bnd y (201 / 100 * B) → Bnd (x -ᶠ y : IEEE m) (4025 / 1000 * B) := fun hx hy =>
    hx.subR hy (by linarith) (by linarith) (by linarith)
  have k : ∀ {x y : IEEE m} (v : Int), Bnd x (4025 / 1000 * B) → Bnd y (4025 / 1000 * B) →
      Bnd (mulCplx x y (w (v + (i - 2))) (w (v + (i - 1)))).1 (81 / 10 * B) ∧ Bnd (mulCplx x y (w (v + (i - 2))) (w (v + (i - 1)))).2 (81 / 10 * B) :=
    fun v hx hy => by
      have := mulCplx_bnd (B := 4025 / 1000 * B) (by linarith) (by linarith) hx hy (hw (v + (i - 2))) (hw (v + (i - 1)))
      exact ⟨this.1.mono (by linarith), this.2.mono (by linarith)⟩
  intro p hp
  simp only [midB, List.mem_cons, List.not_mem_nil, or_false] at hp
  rcases hp with rfl | rfl | rfl | rfl | rfl | rfl | rfl | rfl
  · exact (ss (s _ _) (s _ _)).mono (by linarith)
  · exact (ss (d _ _) (d _ _)).mono (by linarith)
  · exact (k _ (dd (d _ _) (s _ _)) (ss (s _ _) (d _ _))).1
  · exact (k _ (dd (d _ _) (s _ _)) (ss (s _ _) (d _ _))).2
  · exact (k _ (dd (s _ _) (s _ _)) (dd (d _ _) (d _ _))).1
  · exact (k _ (dd (s _ _) (s _ _)) (dd (d _ _) (d _ _))).2
  · exact (k _ (ss (d _ _) (s _ _)) (dd (s _ _) (d _ _))).1
  · exact (k _ (ss (d _ _) (s _ _)) (dd (s _ _) (d _ _))).2

theorem stepF_bnd (ido l1 : Nat) (w1 w2 w3 : Int) : ∀ i, Bnd (stepF ido l1 w w1 w2 w3 c i : IEEE m) ((if ido = 1 then 5 else 81 / 10) * B) := by
  have hk : 5 * B ≤ (if ido = 1 then 5 else 81 / 10) * B := by split <;> linarith
  refine valAt_bnd (b := (if ido = 1 then 5 else 81 / 10) * B) (by linarith) fun p hp => ?_
  unfold passF at hp
  rcases List.mem_append.1 hp with hp | hp
  · obtain ⟨t, _, hp⟩ := List.mem_flatMap.1 hp
    exact (endsF_bnd h1 h2 hc p hp).mono hk
  · by_cases e : ido = 1
    · rw [if_pos e] at hp; cases hp
    · rw [if_neg e] at hp ⊢
      rcases List.mem_append.1 hp with hp | hp
      · obtain ⟨t, _, hp⟩ := List.mem_flatMap.1 hp
        obtain ⟨u, _, hp⟩ := List.mem_flatMap.1 hp
        exact midF_bnd h1 h2 hc hw p hp
      · obtain ⟨t, _, hp⟩ := List.mem_flatMap.1 hp
        exact halfF_bnd h1 h2 hc p hp

theorem stepB_bnd (h3 : 100 * B ≤ Val.big) (ido l1 : Nat) (w1 w2 w3 : Int) :
    ∀ i, Bnd (stepB ido l1 w w1 w2 w3 c i : IEEE m) ((if ido = 1 then 5 else 81 / 10) * B) := by
  have hk : 5 * B ≤ (if ido = 1 then 5 else 81 / 10) * B := by split <;> linarith
  refine valAt_bnd (b := (if ido = 1 then 5 else 81 / 10) * B) (by linarith) fun p hp => ?_
  unfold passB at hp
  rcases List.mem_append.1 hp with hp | hp
  · obtain ⟨t, _, hp⟩ := List.mem_flatMap.1 hp
    exact (endsB_bnd h1 h2 hc p hp).mono hk
  · by_cases e : ido = 1
    · rw [if_pos e] at hp; cases hp
    · rw [if_neg e] at hp ⊢
      rcases List.mem_append.1 hp with hp | hp
      · obtain ⟨t, _, hp⟩ := List.mem_flatMap.1 hp
        obtain ⟨u, _, hp⟩ := List.mem_flatMap.1 hp
        exact midB_bnd h1 hc hw h3 p hp
      · obtain ⟨t, _, hp⟩ := List.mem_flatMap.1 hp
        exact halfB_bnd h1 h2 hc p hp
end

theorem argh_mag : Mag 0 (argh256 : IEEE m) := Bnd.of (x := (argh256 : IEEE m))
  (show bndB (argh256 : IEEE libm0) (pow2 0) = true by decide +kernel)

theorem toF_slack {x : IEEE m} {b c : ℚ} (h : Bnd x b) (h1 : 1 ≤ c) (hc : b * (1025 / 1024) ≤ c) (hb : c ≤ Val.big) : Bnd (toF x : IEEE m) c := by
  obtain ⟨q, v, k⟩ := h
  have k0 := (abs_nonneg _).trans k
  exact ⟨_, v.toF (k.trans (by linarith)), abs_rnd_slack k h1 hc⟩

theorem rowW_bnd (hm : TrigAcc m) {ido : Nat} (hi : ido ≤ 64) {is : Int} {a : IEEE m} (ha : Mag 6 a) :
    ∀ p ∈ rowW ido is a, Bnd p.2 (1001 / 1000) := by
  have big : (2 : ℚ) ≤ Val.big := by rw [Val.big_eq]; norm_num
  intro p hp
  unfold rowW at hp
  obtain ⟨u, hu, hp⟩ := List.mem_flatMap.1 hp
  rw [List.mem_range] at hu
  have hx : Mag 12 (ofInt ((u : Int) + 1) *ᶠ a : IEEE m) :=
    (Mag.ofInt (k := 6) (by norm_num) (by rw [abs_of_nonneg (by omega)]; omega)).mul ha (by norm_num) (by norm_num) (by norm_num)
  obtain ⟨q, v, hq⟩ := hx.up (show (12 : Int) ≤ 26 by decide)
  obtain ⟨r1, v1, e1⟩ := hm.cos _ q v hq
  obtain ⟨r2, v2, e2⟩ := hm.sin _ q v hq
  have one : ∀ {y z : ℝ}, |z| ≤ 1 → |y - z| ≤ 1 / 1048576 → |y| ≤ 1 + 1 / 1048576 := fun {y z} hz h => by
    have := abs_sub_abs_le_abs_sub y z
    linarith
  have k1 : |r1| ≤ 1 + 1 / 1048576 := by
    have := one (Real.abs_cos_le_one _) e1
    rw [← Rat.cast_abs] at this
    have : ((|r1| : ℚ) : ℝ) ≤ ((1 + 1 / 1048576 : ℚ) : ℝ) := by push_cast; push_cast at this; exact this
    exact_mod_cast this
  have k2 : |r2| ≤ 1 + 1 / 1048576 := by
    have := one (Real.abs_sin_le_one _) e2
    rw [← Rat.cast_abs] at this
    have : ((|r2| : ℚ) : ℝ) ≤ ((1 + 1 / 1048576 : ℚ) : ℝ) := by push_cast; push_cast at this; exact this
    exact_mod_cast this
  simp only [List.mem_cons, List.not_mem_nil, or_false] at hp
  rcases hp with rfl | rfl
  · exact toF_slack ⟨r1, v1, k1⟩ (by norm_num) (by norm_num) (by linarith)
  · exact toF_slack ⟨r2, v2, k2⟩ (by norm_num) (by norm_num) (by linarith)

theorem groupW_bnd (hm : TrigAcc m) {l1 : Int} {ido : Nat} (h0 : 0 ≤ l1) (h1 : l1 ≤ 16) (hi : ido ≤ 64) {base : Int} :
    ∀ p ∈ (groupW l1 ido base : List (Int × IEEE m)), Bnd p.2 (1001 / 1000) := by
  have k : ∀ j : Int, 0 ≤ j → j ≤ 48 → Mag 6 (ofInt j *ᶠ argh256 : IEEE m) := fun j h h' =>
    (Mag.ofInt (k := 6) (by norm_num) (by rw [abs_of_nonneg h]; omega)).mul argh_mag (by norm_num) (by norm_num) (by norm_num)
  intro p hp
  unfold groupW at hp
  rcases List.mem_append.1 hp with hp | hp
  · rcases List.mem_append.1 hp with hp | hp
    · exact rowW_bnd hm hi (k _ (by omega) (by omega)) p hp
    · exact rowW_bnd hm hi (k _ (by omega) (by omega)) p hp
  · exact rowW_bnd hm hi (k _ (by omega) (by omega)) p hp

theorem tw256_bnd (hm : TrigAcc m) (i : Int) : Bnd (tw256 i : IEEE m) (1001 / 1000) := by
  refine valAt_bnd (b := 1001 / 1000) (by norm_num) (fun p hp => ?_) i
  unfold twW at hp
  rcases List.mem_append.1 hp with hp | hp
  · rcases List.mem_append.1 hp with hp | hp
    · exact groupW_bnd hm (by decide) (by decide) (by decide) p hp
    · exact groupW_bnd hm (by decide) (by decide) (by decide) p hp
  · exact groupW_bnd hm (by decide) (by decide) (by decide) p hp

theorem ext_bnd {b : ℚ} (h0 : 0 ≤ b) {a : Arr 256 (IEEE m)} (h : ∀ j, Bnd (a j) b) (i : Int) : Bnd (ext a i : IEEE m) b := by
  unfold ext
  split
  · exact h _
  · exact ⟨0, ⟨false, rfl⟩, by rwa [abs_zero]⟩

theorem passesF_bnd (hm : TrigAcc m) {B : ℚ} (h1 : 1 ≤ B) (h2 : 100000 * B ≤ Val.big) {c : Int → IEEE m} (hc : ∀ i, Bnd (c i) B) (i : Int) :
    Bnd (passesF c i : IEEE m) (4096 * B) := by
  have w := tw256_bnd hm
  have s1 := stepF_bnd h1 (by linarith) hc w 1 64 252 253 254
  rw [if_pos rfl] at s1
  have s2 := stepF_bnd (B := 5 * B) (by linarith) (by linarith) s1 w 4 16 240 244 248
  rw [if_neg (by decide)] at s2
  have s3 := stepF_bnd (B := 81 / 10 * (5 * B)) (by linarith) (by linarith) s2 w 16 4 192 208 224
  rw [if_neg (by decide)] at s3
  have s4 := stepF_bnd (B := 81 / 10 * (81 / 10 * (5 * B))) (by linarith) (by linarith) s3 w 64 1 0 64 128
  rw [if_neg (by decide)] at s4
  exact (s4 i).mono (by linarith)

theorem passesB_bnd (hm : TrigAcc m) {B : ℚ} (h1 : 1 ≤ B) (h2 : 100000 * B ≤ Val.big) {c : Int → IEEE m} (hc : ∀ i, Bnd (c i) B) (i : Int) :
    Bnd (passesB c i : IEEE m) (4096 * B) := by
  have w := tw256_bnd hm
  have s1 := stepB_bnd h1 (by linarith) hc w (by linarith) 64 1 0 64 128
  rw [if_neg (by decide)] at s1
  have s2 := stepB_bnd (B := 81 / 10 * B) (by linarith) (by linarith) s1 w (by linarith) 16 4 192 208 224
  rw [if_neg (by decide)] at s2
  have s3 := stepB_bnd (B := 81 / 10 * (81 / 10 * B)) (by linarith) (by linarith) s2 w (by linarith) 4 16 240 244 248
  rw [if_neg (by decide)] at s3
  have s4 := stepB_bnd (B := 81 / 10 * (81 / 10 * (81 / 10 * B))) (by linarith) (by linarith) s3 w (by linarith) 1 64 252 253 254
  rw [if_pos rfl] at s4
  exact (s4 i).mono (by linarith)

/-- The transforms the code runs multiply a bound on their input by at most 4096. -/
theorem runs_fftBnd (hm : TrigAcc m) {E : Env (IEEE m)} (h : Runs E) : FftBnd E := by
  obtain ⟨ef, eb⟩ := runs_eq h
  intro k U h0 hk hU
  rw [ef, eb]
  have p12 : pow2 (k + 12) = 4096 * pow2 k := by rw [pow2_add, mul_comm]; congr 1
  have p1 : 1 ≤ pow2 k := by rw [← pow2_zero']; exact pow2_le h0
  have p2 : 100000 * pow2 k ≤ Val.big := by
    have a := pow2_le hk
    have b : 100000 * pow2 100 ≤ Val.big := by rw [Val.big_eq, pow2_eq]; norm_num
    linarith
  refine ⟨fun j => ?_, fun j => ?_⟩
  · show Bnd (reoF (passesF (ext (F := IEEE m) U)) (j.val : Int) : IEEE m) _
    rw [p12]
    have := passesF_bnd hm p1 p2 (ext_bnd (by linarith) hU)
    unfold reoF
    split
    · exact this _
    · split
      · exact this _
      · exact this _
  · show Bnd (passesB (reoB (ext (F := IEEE m) U)) (j.val : Int) : IEEE m) _
    rw [p12]
    have := ext_bnd (by linarith) hU
    refine passesB_bnd hm p1 p2 (fun i => ?_) _
    unfold reoB
    split
    · exact this _
    · split
      · exact this _
      · exact this _

end Verif.Model
