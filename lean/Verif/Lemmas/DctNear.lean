import Verif.Lemmas.FftNear
import Verif.Lemmas.PredictImbe
import Verif.Lemmas.ImbeSafe
import Verif.Lemmas.IvlRun
import Verif.Lemmas.Dct

/-!
# Table entries and table cosines in binary32 against exact arithmetic
-/

set_option linter.unusedSectionVars false

namespace Verif.Model
open Verif Verif.Gen Verif.Spec Verif.Num Arith
variable {m : Libm}

/-! ## Two runs that both end -/

/-- If both end, their results are related. -/
def Rel2 {α β : Type} (R : α → β → Prop) (x : Exec α) (y : Exec β) : Prop := ∀ a b, x = .ok a → y = .ok b → R a b

namespace Rel2
variable {α β γ δ : Type} {R : α → β → Prop} {S : γ → δ → Prop}

theorem ok {a : α} {b : β} (h : R a b) : Rel2 R (.ok a) (.ok b) := by
  intro a' b' e e'
  rw [← ok_inj e, ← ok_inj e']
  exact h

theorem bind {x : Exec α} {y : Exec β} {f : α → Exec γ} {g : β → Exec δ} (h : Rel2 R x y)
    (hf : ∀ a b, R a b → Rel2 S (f a) (g b)) : Rel2 S (x >>= f) (y >>= g) := by
  intro c d e e'
  obtain ⟨a, ha, e⟩ := bind_ok e
  obtain ⟨b, hb, e'⟩ := bind_ok e'
  exact hf a b (h a b ha hb) c d e e'

theorem bindSame {P : α → Prop} {x : Exec α} {f : α → Exec γ} {g : α → Exec δ} (hx : Post x P) (hf : ∀ a, P a → Rel2 S (f a) (g a)) :
    Rel2 S (x >>= f) (x >>= g) := by
  intro c d e e'
  obtain ⟨a, ha, e⟩ := bind_ok e
  obtain ⟨b, hb, e'⟩ := bind_ok e'
  have : a = b := ok_inj (ha.symm.trans hb)
  subst this
  exact hf a (hx a ha) c d e e'

theorem mono {R' : α → β → Prop} {x : Exec α} {y : Exec β} (h : Rel2 R x y) (hr : ∀ a b, R a b → R' a b) : Rel2 R' x y :=
  fun a b e e' => hr a b (h a b e e')

theorem posts {P : α → Prop} {Q : β → Prop} {x : Exec α} {y : Exec β} (hx : Post x P) (hy : Post y Q) (h : ∀ a b, P a → Q b → R a b) :
    Rel2 R x y := fun a b e e' => h a b (hx a e) (hy b e')

theorem loop {n : Nat} {f : Nat → α → Exec α} {g : Nat → β → Exec β} {s : α} {t : β} (I : Nat → α → β → Prop) (h : I 0 s t)
    (hs : ∀ i, i < n → ∀ a b, I i a b → Rel2 (I (i + 1)) (f i a) (g i b)) : Rel2 (I n) (Verif.loop n f s) (Verif.loop n g t) := by
  induction n with
  | zero => exact ok h
  | succ n ih =>
    rw [loop_succ, loop_succ]
    exact bind (ih fun i hi => hs i (Nat.lt_succ_of_lt hi)) fun a b r => hs n (Nat.lt_succ_self n) a b r

theorem loopFT {lo hi : Nat} {f : Nat → α → Exec α} {g : Nat → β → Exec β} {s : α} {t : β} (I : Nat → α → β → Prop) (hle : lo ≤ hi + 1)
    (h : I lo s t) (hs : ∀ i, lo ≤ i → i ≤ hi → ∀ a b, I i a b → Rel2 (I (i + 1)) (f i a) (g i b)) :
    Rel2 (I (hi + 1)) (Verif.loopFT lo hi f s) (Verif.loopFT lo hi g t) := by
  have := loop (n := hi + 1 - lo) (f := fun k => f (lo + k)) (g := fun k => g (lo + k)) (s := s) (t := t) (fun k => I (lo + k))
    (by simpa using h) (fun i hi' a b r => hs (lo + i) (by omega) (by omega) a b r)
  have e : lo + (hi + 1 - lo) = hi + 1 := by omega
  rw [e] at this
  exact this

theorem loopFT' {lo hi : Nat} {f : Nat → α → Exec α} {g : Nat → β → Exec β} {s : α} {t : β} (h : R s t)
    (hs : ∀ i, lo ≤ i → i ≤ hi → ∀ a b, R a b → Rel2 R (f i a) (g i b)) :
    Rel2 R (Verif.loopFT lo hi f s) (Verif.loopFT lo hi g t) := by
  by_cases hle : lo ≤ hi + 1
  · exact loopFT (fun _ => R) hle h hs
  · have e : ∀ {τ : Type} (f : Nat → τ → Exec τ) (s : τ), Verif.loopFT lo hi f s = .ok s := by
      intro τ f s
      unfold Verif.loopFT
      rw [show hi + 1 - lo = 0 by omega]
      rfl
    rw [e, e]
    exact ok h

end Rel2

theorem rd_rel2 {n : Nat} {α β : Type} {R : Nat → α → β → Prop} {a : Loc n α} {b : Loc n β}
    (h : ∀ i x y, a i = some x → b i = some y → R i x y) (i : Int) : Rel2 (R i.toNat) (Loc.rd a i) (Loc.rd b i) :=
  .posts Loc.rd_post Loc.rd_post fun x y hx hy => by
    obtain ⟨h1, hx⟩ := hx
    obtain ⟨_, hy⟩ := hy
    exact h ⟨i.toNat, h1⟩ x y hx hy

theorem wr_rel2 {n : Nat} {α β : Type} {R : Nat → α → β → Prop} {a : Loc n α} {b : Loc n β}
    (h : ∀ i x y, a i = some x → b i = some y → R i x y) (i : Int) {u : α} {v : β} (huv : R i.toNat u v) :
    Rel2 (fun a b => ∀ i x y, a i = some x → b i = some y → R i.val x y) (Loc.wr a i u) (Loc.wr b i v) :=
  .posts Loc.wr_post Loc.wr_post fun a' b' ha hb => by
    obtain ⟨_, _, rfl⟩ := ha
    obtain ⟨_, _, rfl⟩ := hb
    intro j x y hx hy
    by_cases e : j.val = i.toNat
    · rw [Arr.set_same e] at hx hy
      cases hx
      cases hy
      rw [e]; exact huv
    · rw [Arr.set_ne e] at hx hy
      exact h j x y hx hy

theorem rd2_rel2 {n k : Nat} {α β : Type} {R : Nat → Nat → α → β → Prop} {a : Arr n (Loc k α)} {b : Arr n (Loc k β)}
    (h : ∀ i j x y, a i j = some x → b i j = some y → R i j x y) (i j : Int) : Rel2 (R i.toNat j.toNat) (Loc.rd2 a i j) (Loc.rd2 b i j) :=
  .posts Loc.rd2_post Loc.rd2_post fun x y hx hy => by
    obtain ⟨h1, h2, hx⟩ := hx
    obtain ⟨_, _, hy⟩ := hy
    exact h ⟨i.toNat, h1⟩ ⟨j.toNat, h2⟩ x y hx hy

theorem wr2_rel2 {n k : Nat} {α β : Type} {R : Nat → Nat → α → β → Prop} {a : Arr n (Loc k α)} {b : Arr n (Loc k β)}
    (h : ∀ i j x y, a i j = some x → b i j = some y → R i j x y) (i j : Int) {u : α} {v : β} (huv : R i.toNat j.toNat u v) :
    Rel2 (fun a b => ∀ (i : Fin n) (j : Fin k) x y, a i j = some x → b i j = some y → R i.val j.val x y) (Loc.wr2 a i j u) (Loc.wr2 b i j v) :=
  .posts Loc.wr2_post Loc.wr2_post fun a' b' ha hb => by
    subst ha hb
    intro p q x y hx hy
    unfold Loc.set2 at hx hy
    split at hx
    · rename_i c
      rw [if_pos c] at hy
      cases hx
      cases hy
      rw [c.1, c.2]; exact huv
    · rename_i c
      rw [if_neg c] at hy
      exact h p q x y hx hy

/-! ## Table entries -/

theorem rnd64_near (q : ℚ) (h : 1 / 2 ^ 100 ≤ |q|) : |((rnd F64 q : ℚ) : ℝ) - q| ≤ |(q : ℝ)| / 2 ^ 53 := by
  have hh : pow2 (F64.emin + F64.p - 1) ≤ |q| := by
    refine le_trans ?_ h
    have e : F64.emin + F64.p - 1 = -1022 := rfl
    rw [e, pow2_eq]
    have : (2 : ℚ) ^ (-1022 : ℤ) ≤ 2 ^ (-100 : ℤ) := zpow_le_zpow_right₀ (by norm_num) (by norm_num)
    refine this.trans (le_of_eq ?_)
    norm_num
  have := rnd_rel hh
  have e : pow2 (-(F64.p : Int)) = 1 / 2 ^ 53 := by
    rw [show (-(F64.p : Int)) = -53 from rfl, pow2_eq]; norm_num
  rw [e] at this
  have : ((|rnd F64 q - q| : ℚ) : ℝ) ≤ ((1 / 2 ^ 53 * |q| : ℚ) : ℝ) := by exact_mod_cast this
  push_cast at this
  linarith

/-- A table entry, rounded twice. -/
theorem ftab_near {n : Int} {d : Nat} {b : ℤ} (h : |n| ≤ b) (hb : b < 1414213562373095) (hd : 0 < d) (hd' : d ≤ 1000000) :
    (ftab n d : ℝ) = (n : ℝ) / d ∧ ∃ q : ℚ, Val (ftab n d : IEEE m) q ∧ |(q : ℝ) - (n : ℝ) / d| ≤ |(n : ℝ) / d| / 2 ^ 23 := by
  refine ⟨ftab_r h hb, ?_⟩
  have hdq : (0 : ℚ) < d := by exact_mod_cast hd
  have hdq' : (d : ℚ) ≤ 1000000 := by exact_mod_cast hd'
  have hdq1 : (1 : ℚ) ≤ d := by exact_mod_cast hd
  set v : ℚ := mkRat n d with hv
  have ev : v = (n : ℚ) / d := by rw [hv, Rat.mkRat_eq_div]
  have evr : (v : ℝ) = (n : ℝ) / d := by rw [ev]; push_cast; rfl
  have hvb : |v| ≤ 2 ^ 51 := by
    rw [ev, abs_div, abs_of_pos hdq, div_le_iff₀ hdq]
    have : |(n : ℚ)| ≤ b := by exact_mod_cast h
    have hb' : (b : ℚ) ≤ 2 ^ 51 := by
      have : b ≤ 2 ^ 51 := by omega
      exact_mod_cast this
    nlinarith
  have big : (2 : ℚ) ^ 60 ≤ Val.big := by rw [Val.big_eq]; norm_num
  have h1 : Val (dlit n d : IEEE m) (rnd F64 v) := Val.dlit (hvb.trans (le_trans (by norm_num) big))
  rw [← evr]
  by_cases n0 : n = 0
  · have v0 : v = 0 := by rw [ev, n0]; simp
    rw [v0, rnd_zero] at h1
    refine ⟨_, h1.toF (by rw [abs_zero]; exact le_trans (by norm_num) big), ?_⟩
    rw [rnd_zero, v0]; simp
  · have hvl : 1 / 1000000 ≤ |v| := by
      rw [ev, abs_div, abs_of_pos hdq, div_le_div_iff₀ (by norm_num) hdq]
      have : (1 : ℚ) ≤ |(n : ℚ)| := by
        have : 1 ≤ |n| := Int.one_le_abs n0
        exact_mod_cast this
      nlinarith
    have r1 := rnd64_near v (le_trans (by norm_num) hvl)
    have hvb' : |(v : ℝ)| ≤ 2 ^ 51 := by exact_mod_cast hvb
    have hvl' : 1 / 1000000 ≤ |(v : ℝ)| := by
      have : ((1 / 1000000 : ℚ) : ℝ) ≤ ((|v| : ℚ) : ℝ) := by exact_mod_cast hvl
      push_cast at this
      exact this
    have r2 : |((rnd F64 v : ℚ) : ℝ)| ≤ |(v : ℝ)| + |(v : ℝ)| / 2 ^ 53 := by
      have := abs_sub_abs_le_abs_sub ((rnd F64 v : ℚ) : ℝ) v
      linarith
    have r3 := rnd32_near (rnd F64 v)
    refine ⟨_, h1.toF (big_real (b := 2 ^ 60) (r2.trans (by linarith)) (by norm_num)), ?_⟩
    have r4 := abs_sub_le ((rnd F32 (rnd F64 v) : ℚ) : ℝ) ((rnd F64 v : ℚ) : ℝ) v
    have t : (1 : ℝ) / 2 ^ 150 ≤ |(v : ℝ)| / 2 ^ 53 := by
      refine le_trans ?_ (div_le_div_of_nonneg_right hvl' (by norm_num))
      norm_num
    refine r4.trans ?_
    refine (add_le_add r3 r1).trans ?_
    linarith

/-! ## The cosine tables -/

/-- The argument of a table cosine. -/
def dctArg {F : Type} [Arith F] (k i : Nat) (den : F) : F :=
  toF (((mpi *ᵈ ofInt ((k : Int) - 1)) *ᵈ (ofInt (i : Int) -ᶠ lit 5 10)) /ᵈ den)

/-- Twenty digits of `π`. -/
def piQ : ℚ := 314159265358979323846 / 100000000000000000000

def dctChk (k i n : Nat) : Bool :=
  match (dctArg k i (fi (n : Int)) : IEEE libm0) with
  | .fin _ q => decide (|q - piQ * ((k : ℚ) - 1) * ((i : ℚ) - 1 / 2) / n| ≤ 4 / 1000000)
  | _ => false

theorem dct_chk : ∀ n < 17, ∀ k < n + 1, ∀ i < n + 1, dctChk (k + 1) (i + 1) (n + 1) = true := by decide +kernel

theorem piQ_near : |(piQ : ℝ) - Real.pi| ≤ 1 / 10 ^ 18 := by
  have h1 := Real.pi_gt_d20
  have h2 := Real.pi_lt_d20
  unfold piQ
  push_cast
  rw [abs_le]
  constructor <;> norm_num at h1 h2 ⊢ <;> linarith

theorem dctArg_near {k i n : Nat} (hk : 1 ≤ k) (hk' : k ≤ n) (hi : 1 ≤ i) (hi' : i ≤ n) (hn : n ≤ 17) :
    ∃ q : ℚ, Val (dctArg k i (fi (n : Int)) : IEEE m) q ∧
      |(q : ℝ) - Real.pi * ((k : ℝ) - 1) * ((i : ℝ) - 1 / 2) / n| ≤ 41 / 10000000 ∧ |q| ≤ 64 := by
  have h := dct_chk (n - 1) (by omega) (k - 1) (by omega) (i - 1) (by omega)
  rw [show k - 1 + 1 = k by omega, show i - 1 + 1 = i by omega, show n - 1 + 1 = n by omega] at h
  unfold dctChk at h
  have e : (dctArg k i (fi (n : Int)) : IEEE m) = (dctArg k i (fi (n : Int)) : IEEE libm0) := rfl
  rw [e]
  generalize (dctArg k i (fi (n : Int)) : IEEE libm0) = x at h
  match x, h with
  | .fin s q, h =>
    refine ⟨q, ⟨s, rfl⟩, ?_⟩
    have h := of_decide_eq_true h
    have hnr : (1 : ℝ) ≤ n := by exact_mod_cast (show 1 ≤ n by omega)
    have hn17 : (n : ℝ) ≤ 17 := by exact_mod_cast hn
    have hkr : (1 : ℝ) ≤ k := by exact_mod_cast hk
    have hkn : (k : ℝ) ≤ n := by exact_mod_cast hk'
    have hir : (1 : ℝ) ≤ i := by exact_mod_cast hi
    have hin : (i : ℝ) ≤ n := by exact_mod_cast hi'
    have hr : |(q : ℝ) - (piQ : ℝ) * ((k : ℝ) - 1) * ((i : ℝ) - 1 / 2) / n| ≤ 4 / 1000000 := by
      have := (Rat.cast_le (K := ℝ)).2 h
      push_cast at this
      exact this
    have hf : 0 ≤ ((k : ℝ) - 1) * ((i : ℝ) - 1 / 2) / n ∧ ((k : ℝ) - 1) * ((i : ℝ) - 1 / 2) / n ≤ 17 := by
      constructor
      · have := mul_nonneg (show 0 ≤ (k : ℝ) - 1 by linarith) (show 0 ≤ (i : ℝ) - 1 / 2 by linarith)
        positivity
      · rw [div_le_iff₀ (by linarith)]
        nlinarith
    set f := ((k : ℝ) - 1) * ((i : ℝ) - 1 / 2) / n with hfd
    have e1 : (piQ : ℝ) * ((k : ℝ) - 1) * ((i : ℝ) - 1 / 2) / n = piQ * f := by rw [hfd]; ring
    have e2 : Real.pi * ((k : ℝ) - 1) * ((i : ℝ) - 1 / 2) / n = Real.pi * f := by rw [hfd]; ring
    rw [e1] at hr
    rw [e2]
    have hp := piQ_near
    have hd : |(piQ : ℝ) * f - Real.pi * f| ≤ 1 / 10 ^ 16 := by
      rw [← sub_mul, abs_mul, abs_of_nonneg hf.1]
      calc |(piQ : ℝ) - Real.pi| * f ≤ 1 / 10 ^ 18 * 17 := mul_le_mul hp hf.2 hf.1 (by norm_num)
        _ ≤ _ := by norm_num
    have hq := abs_sub_le (q : ℝ) (piQ * f) (Real.pi * f)
    refine ⟨hq.trans ((add_le_add hr hd).trans (by norm_num)), ?_⟩
    have hb : |(q : ℝ)| ≤ 64 := by
      have hpf : |(piQ : ℝ) * f| ≤ 54 := by
        have e3 : (piQ : ℝ) = 314159265358979323846 / 100000000000000000000 := by unfold piQ; push_cast; rfl
        rw [e3, abs_of_nonneg (mul_nonneg (by norm_num) hf.1)]
        linarith [hf.2]
      have := abs_sub_abs_le_abs_sub (q : ℝ) (piQ * f)
      linarith
    exact_mod_cast hb

/-- A table cosine. -/
theorem dctCos_near (hm : LibmAcc m) {k i n : Nat} (hk : 1 ≤ k) (hk' : k ≤ n) (hi : 1 ≤ i) (hi' : i ≤ n) (hn : n ≤ 17) :
    Near (1 / 50000) 1 (dctCos k i (fi (n : Int)) : IEEE m) (dctCos k i (fi (n : Int)) : ℝ) := by
  obtain ⟨q, hv, h1, h2⟩ := dctArg_near (m := m) hk hk' hi hi' hn
  obtain ⟨r, hr, h3⟩ := hm.cos _ q hv h2
  refine ⟨r, hr, ?_, dctCos_abs _ _ _⟩
  rw [show (dctCos k i (fi (n : Int)) : ℝ) = Real.cos (Real.pi * ((k : ℝ) - 1) * ((i : ℝ) - 1 / 2) / n) by
    rw [dctCos_r, RealArith.fi_r, Int.cast_natCast]]
  have hl : |Real.cos q - Real.cos (Real.pi * ((k : ℝ) - 1) * ((i : ℝ) - 1 / 2) / n)| ≤ 41 / 10000000 :=
    (Real.abs_cos_sub_cos_le _ _).trans h1
  have := abs_sub_le (r : ℝ) (Real.cos q) (Real.cos (Real.pi * ((k : ℝ) - 1) * ((i : ℝ) - 1 / 2) / n))
  refine this.trans ((add_le_add h3 hl).trans (by norm_num))

/-- Cosine tables of the two arithmetics. -/
def CacheNear {r n : Nat} (c : DctCache (IEEE m) r n) (c' : DctCache ℝ r n) : Prop :=
  (∀ i j, Near (1 / 50000) 1 (c.ri i j) (c'.ri i j)) ∧ ∀ i j k, Near (1 / 50000) 1 (c.idct i j k) (c'.idct i j k)

theorem fi0_near {e B : ℝ} (he : 0 ≤ e) (hB : 0 ≤ B) : Near e B (fi 0 : IEEE m) (fi 0 : ℝ) :=
  ⟨0, ⟨false, rfl⟩, by rw [RealArith.fi_r]; simpa using he, by
    rw [RealArith.fi_r]; simpa using hB⟩

theorem fillCache_near (hm : LibmAcc m) {r n : Nat} (hr : 2 ≤ r) (hr' : r ≤ 18) (hn : n ≤ 18) :
    CacheNear (m := m) (fillCache r n) (fillCache r n) := by
  constructor
  · intro i j
    simp only [fillCache]
    split
    · rename_i c
      rw [show (r : Int) - 1 = ((r - 1 : Nat) : Int) by omega]
      exact dctCos_near hm c.1 (by omega) c.2 (by omega) (by omega)
    · exact fi0_near (by norm_num) (by norm_num)
  · intro i j k
    simp only [fillCache]
    split
    · rename_i c
      exact dctCos_near hm c.2.2.1 c.2.2.2 c.1 c.2.1 (by omega)
    · exact fi0_near (by norm_num) (by norm_num)

theorem CacheNear.rdRi {r n : Nat} {c : DctCache (IEEE m) r n} {c' : DctCache ℝ r n} (h : CacheNear c c') (i j : Int) :
    Rel2 (Near (1 / 50000) 1) (c.rdRi i j) (c'.rdRi i j) := by
  unfold DctCache.rdRi
  refine .bind (R := fun a b => ∀ j, Near (1 / 50000) 1 (a j) (b j)) (.posts Arr.rd_post Arr.rd_post ?_) fun a b hab =>
    .posts Arr.rd_post Arr.rd_post ?_
  · rintro a b ⟨_, rfl⟩ ⟨_, rfl⟩
    exact h.1 _
  · rintro x y ⟨_, rfl⟩ ⟨_, rfl⟩
    exact hab _

theorem CacheNear.rdIdct {r n : Nat} {c : DctCache (IEEE m) r n} {c' : DctCache ℝ r n} (h : CacheNear c c') (i j k : Int) :
    Rel2 (Near (1 / 50000) 1) (c.rdIdct i j k) (c'.rdIdct i j k) := by
  unfold DctCache.rdIdct
  refine .bind (R := fun a b => ∀ j k, Near (1 / 50000) 1 (a j k) (b j k)) (.posts Arr.rd_post Arr.rd_post ?_) fun a b hab =>
    .bind (R := fun a b => ∀ j, Near (1 / 50000) 1 (a j) (b j)) (.posts Arr.rd_post Arr.rd_post ?_) fun a b hab =>
    .posts Arr.rd_post Arr.rd_post ?_
  · rintro a b ⟨_, rfl⟩ ⟨_, rfl⟩
    exact h.2 _
  · rintro x y ⟨_, rfl⟩ ⟨_, rfl⟩
    exact hab _
  · rintro x y ⟨_, rfl⟩ ⟨_, rfl⟩
    exact hab _

end Verif.Model
