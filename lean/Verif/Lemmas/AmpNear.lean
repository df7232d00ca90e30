import Verif.Lemmas.DctNear

/-!
# The residual amplitudes in binary32 against exact arithmetic
-/

set_option linter.unusedSectionVars false

namespace Verif.Model
open Verif Verif.Gen Verif.Spec Verif.Num Arith
variable {m : Libm}

/-! ## Inverse cosine transforms -/

theorem dctWeight_near (k : Nat) : Near 0 (wgt k) (dctWeight k : IEEE m) (dctWeight k : ℝ) := by
  refine ⟨if k = 1 then 1 else 2, ?_, ?_, ?_⟩
  · unfold dctWeight
    split
    · have := Val.ofInt (m := m) (n := 1) (by norm_num); exact_mod_cast this
    · have := Val.ofInt (m := m) (n := 2) (by norm_num); exact_mod_cast this
  · rw [dctWeight_r]
    unfold wgt
    split <;> simp
  · rw [dctWeight_r, abs_of_nonneg (wgt_nonneg k)]

theorem wgt_le (k : Nat) : wgt k ≤ 2 := by unfold wgt; split <;> norm_num

theorem idctTerm_near {x w : IEEE m} {y v : ℝ} {k : Nat} {ε b : ℝ} (hε : 0 ≤ ε) (hε' : ε ≤ 1 / 1000) (hb : 0 ≤ b) (hb' : b ≤ 10000)
    (hx : Near (ε * b) b x y) (hw : Near (1 / 50000) 1 w v) :
    Near (wgt k * b * (ε + 21 / 1000000) + 3 / 2 ^ 150) (wgt k * b) ((dctWeight k *ᶠ x) *ᶠ w : IEEE m) ((dctWeight k *ᶠ y) *ᶠ v : ℝ) := by
  have h0 := wgt_nonneg k
  have h2 := wgt_le k
  have hW : 0 ≤ wgt k * b := mul_nonneg h0 hb
  have hW' : wgt k * b ≤ 20000 := by nlinarith
  set W := wgt k * b with hWd
  have hWε : W * ε ≤ W * (1 / 1000) := mul_le_mul_of_nonneg_left hε' hW
  have hWε0 : 0 ≤ W * ε := mul_nonneg hW hε
  have ew : wgt k * (ε * b) = W * ε := by rw [hWd]; ring
  have t : (1 : ℝ) / 2 ^ 150 ≤ 1 / 2 ^ 100 := by norm_num
  have h1 : Near (W * ε + (W + W * ε) / 16777216 + 1 / 2 ^ 150) W (dctWeight k *ᶠ x : IEEE m) (dctWeight k *ᶠ y : ℝ) := by
    refine Near.mul (dctWeight_near k) hx le_rfl ?_ ?_
    · rw [zero_mul, zero_add, ew]
    · rw [zero_mul, zero_add, ew]; norm_num; linarith
  refine Near.mul h1 hw (by rw [mul_one]) ?_ ?_
  · linarith
  · norm_num at t ⊢; linarith

/-- An inner loop of an inverse cosine transform. -/
theorem idctSum_near {N : Nat} (hN : N ≤ 17) {f : Nat → Exec (IEEE m)} {f' : Nat → Exec ℝ} {h : Nat → Exec (IEEE m)} {h' : Nat → Exec ℝ}
    {ε B : ℝ} {g : Nat → ℝ} (hε : 0 ≤ ε) (hε' : ε ≤ 1 / 1000) (hg : ∀ k, 0 ≤ g k) (hB : ∑ k ∈ Finset.Icc 1 N, wgt k * g k ≤ B)
    (hB' : B ≤ 1000) (hB0 : 1 / 1000 ≤ B)
    (hf : ∀ k, 1 ≤ k → k ≤ N → Rel2 (Near (ε * g k) (g k)) (f k) (f' k)) (hh : ∀ k, Rel2 (Near (1 / 50000) 1) (h k) (h' k)) :
    Rel2 (Near (B * (ε + 1 / 40000)) B)
      (loopFT 1 N (fun k (s : IEEE m) => do let g ← f k; let c ← h k; .ok (s +ᶠ ((dctWeight k *ᶠ g) *ᶠ c))) (fi 0))
      (loopFT 1 N (fun k (s : ℝ) => do let g ← f' k; let c ← h' k; .ok (s +ᶠ ((dctWeight k *ᶠ g) *ᶠ c))) (fi 0)) := by
  set S : Nat → ℝ := fun j => ∑ k ∈ Finset.Icc 1 j, wgt k * g k with hS
  have S0 : ∀ j, 0 ≤ S j := fun j => Finset.sum_nonneg fun k _ => mul_nonneg (wgt_nonneg k) (hg k)
  have SB : ∀ j, j ≤ N → S j ≤ B := fun j hj => (Finset.sum_le_sum_of_subset_of_nonneg (Finset.Icc_subset_Icc_right hj)
    fun k _ _ => mul_nonneg (wgt_nonneg k) (hg k)).trans hB
  refine (Rel2.loopFT (fun k => Near (S (k - 1) * (ε + 21 / 1000000) + ((k : ℝ) - 1) * (B / 2 ^ 23)) (S (k - 1))) (by omega) ?_ ?_).mono ?_
  · exact fi0_near (by rw [show S (1 - 1) = 0 by simp [hS]]; norm_num) (S0 _)
  · intro k k1 k2 s s' hs
    refine .bind (hf k k1 k2) fun x y hx => .bind (hh k) fun w v hw => .ok ?_
    have hSk : S (k + 1 - 1) = S (k - 1) + wgt k * g k := by
      simp only [hS]
      rw [show k + 1 - 1 = (k - 1) + 1 by omega, Finset.sum_Icc_succ_top (by omega), show k - 1 + 1 = k by omega]
    have hle := SB k k2
    rw [show k + 1 - 1 = k by omega] at hSk ⊢
    have s0 := S0 (k - 1)
    have w0 := mul_nonneg (wgt_nonneg k) (hg k)
    have hgB : g k ≤ 10000 := by
      by_cases c : k = 1
      · have : wgt k = 1 := by unfold wgt; rw [if_pos c]
        rw [this] at hSk; linarith
      · have : wgt k = 2 := by unfold wgt; rw [if_neg c]
        rw [this] at hSk; have := hg k; linarith
    have ht := idctTerm_near (k := k) hε hε' (hg k) hgB hx hw
    rw [hSk]
    set W := wgt k * g k
    set T := S (k - 1)
    rw [hSk] at hle
    have hk : (1 : ℝ) ≤ k := by exact_mod_cast k1
    have hk' : (k : ℝ) ≤ 17 := by exact_mod_cast k2.trans hN
    have hkB : ((k : ℝ) - 1) * (B / 2 ^ 23) ≤ 16 * (B / 2 ^ 23) := mul_le_mul_of_nonneg_right (by linarith) (by positivity)
    have hkB0 : 0 ≤ ((k : ℝ) - 1) * (B / 2 ^ 23) := mul_nonneg (by linarith) (by positivity)
    have hTε : (T + W) * ε ≤ B * (1 / 1000) := mul_le_mul hle hε' hε (by linarith)
    have hTε0 : 0 ≤ (T + W) * ε := mul_nonneg (by linarith) hε
    have t : (1 : ℝ) / 2 ^ 150 ≤ 1 / 2 ^ 100 := by norm_num
    have t0 : (0 : ℝ) ≤ 1 / 2 ^ 150 := by norm_num
    have e3 : (3 : ℝ) / 2 ^ 150 = 3 * (1 / 2 ^ 150) := by ring
    rw [e3] at ht
    obtain ⟨τ, hτ⟩ : ∃ τ : ℝ, τ = 1 / 2 ^ 150 := ⟨_, rfl⟩
    rw [← hτ] at t t0 ht
    have tB : τ ≤ B / 2 ^ 60 := t.trans (by norm_num; linarith)
    refine Near.add hs ht le_rfl ?_ ?_
    · rw [← hτ]
      push_cast
      linarith
    · have : τ ≤ 1 := t.trans (by norm_num)
      norm_num
      linarith
  · intro a b hab
    have h1 := SB N le_rfl
    have h0 := S0 N
    rw [show N + 1 - 1 = N by omega] at hab
    refine hab.mono ?_ h1
    have hN' : (N : ℝ) ≤ 17 := by exact_mod_cast hN
    push_cast
    have a1 : S N * (ε + 21 / 1000000) ≤ B * (ε + 21 / 1000000) := mul_le_mul_of_nonneg_right h1 (by linarith)
    have a2 : ((N : ℝ) + 1 - 1) * (B / 2 ^ 23) ≤ 17 * (B / 2 ^ 23) := mul_le_mul_of_nonneg_right (by linarith) (by positivity)
    linarith

/-! ## Quantised coefficients -/

theorem val_of_rng {x : FP} {a : ℚ} (h : rngB x a a = true) : Val x a := by
  obtain ⟨q, hv, h1, h2⟩ := rng_of h
  rwa [le_antisymm h2 h1] at hv

theorem half0 : rngB (lit 5 10 : IEEE libm0) (1 / 2) (1 / 2) = true := by decide +kernel
theorem half_val : Val (lit 5 10 : IEEE m) (1 / 2) := val_of_rng half0
theorem baInt0 : ∀ n : Nat, n < 12 → rngB (ftab ((n : Int) * 1000000) ba_den : IEEE libm0) n n = true := by decide +kernel
theorem baInt_val {n : Nat} (h : n < 12) : Val (ftab ((n : Int) * 1000000) ba_den : IEEE m) n := val_of_rng (baInt0 n h)

theorem half_near : Near 0 (1 / 2) (lit 5 10 : IEEE m) (lit 5 10 : ℝ) :=
  ⟨1 / 2, half_val, by rw [lit5_r]; norm_num, by rw [lit5_r]; norm_num⟩

theorem nat_near {n : Nat} {b : ℝ} (h : n ≤ 2 ^ 24) (hb : (n : ℝ) ≤ b) : Near 0 b (ofInt (n : Int) : IEEE m) (ofInt (n : Int) : ℝ) := by
  refine ⟨(n : ℚ), ?_, ?_, ?_⟩
  · have := Val.ofInt (m := m) (n := (n : Int)) (by rw [abs_of_nonneg (by omega)]; exact_mod_cast h)
    exact_mod_cast this
  · rw [RealArith.ofInt_r]; push_cast; simp
  · rw [RealArith.ofInt_r]; push_cast; simpa using hb

/-- A dequantised coefficient. -/
theorem quant_near (hm : LibmAcc m) {n b : Nat} (hn : n ≤ 11) (hb : b < 2 ^ n) {s x : IEEE m} {sR xR g : ℝ} (hs0 : 0 ≤ sR)
    (hs : Near (sR / 2 ^ 20 + 1 / 2 ^ 100) sR s sR) (hx : Val x ((n : ℚ) - 1)) (hxR : xR = (n : ℝ) - 1) (hg : sR * (2 ^ n / 2) ≤ g)
    (hg0 : 1 / 10 ≤ g) (hg1 : g ≤ 1000) :
    Near (1 / 2 ^ 15 * g) g (s *ᶠ ((ofInt (b : Int) -ᶠ exp2 x) +ᶠ lit 5 10) : IEEE m)
      (sR *ᶠ ((ofInt (b : Int) -ᶠ exp2 xR) +ᶠ lit 5 10) : ℝ) := by
  have hn' : (n : ℚ) ≤ 11 := by exact_mod_cast hn
  have hn0 : (0 : ℚ) ≤ n := by positivity
  obtain ⟨r, hr, her⟩ := hm.exp2 x _ hx (by linarith) (by linarith)
  have ee : (2 : ℝ) ^ (((n : ℚ) - 1 : ℚ) : ℝ) = 2 ^ n / 2 := by
    push_cast
    rw [Real.rpow_sub (by norm_num), Real.rpow_one, Real.rpow_natCast]
  rw [ee] at her
  have exr : (exp2 xR : ℝ) = 2 ^ n / 2 := by
    rw [hxR]
    show (2 : ℝ) ^ ((n : ℝ) - 1) = _
    rw [Real.rpow_sub (by norm_num), Real.rpow_one, Real.rpow_natCast]
  have hpl : (1 : ℝ) ≤ 2 ^ n := one_le_pow₀ (by norm_num)
  have hpu : (2 : ℝ) ^ n ≤ 2048 := by
    calc (2 : ℝ) ^ n ≤ 2 ^ 11 := pow_le_pow_right₀ (by norm_num) hn
      _ = 2048 := by norm_num
  have hbr : (b : ℝ) + 1 ≤ 2 ^ n := by exact_mod_cast hb
  obtain ⟨h, hh⟩ : ∃ h : ℝ, h = 2 ^ n / 2 := ⟨_, rfl⟩
  rw [← hh] at her hg
  have h2 : (2 : ℝ) ^ n = 2 * h := by rw [hh]; ring
  rw [h2] at hpl hpu hbr
  have hbn : b ≤ 2 ^ 24 := by
    have : b < 2 ^ 11 := hb.trans_le (Nat.pow_le_pow_right (by norm_num) hn)
    omega
  have k0 : Near (h / 65536) h (exp2 x : IEEE m) (exp2 xR : ℝ) := ⟨r, hr, by rw [exr, ← hh]; exact her, by
    rw [exr, ← hh, abs_of_nonneg (by linarith)]⟩
  obtain ⟨τ, hτ⟩ : ∃ τ : ℝ, τ = 1 / 2 ^ 150 := ⟨_, rfl⟩
  have t0 : 0 ≤ τ := by rw [hτ]; norm_num
  have t1 : τ ≤ 1 / 2 ^ 120 := by rw [hτ]; norm_num
  have k1 : Near (h / 65536 + (3 * h + h / 65536) / 16777216 + τ) (3 * h) (ofInt (b : Int) -ᶠ exp2 x : IEEE m) (ofInt (b : Int) -ᶠ exp2 xR : ℝ) := by
    refine Near.sub (nat_near hbn (b := 2 * h) (by linarith)) k0 (by linarith) ?_ ?_
    · rw [← hτ]; linarith
    · norm_num; linarith
  have k2 : Near (h * (1 / 65536 + 8 / 16777216)) (4 * h) ((ofInt (b : Int) -ᶠ exp2 x) +ᶠ lit 5 10 : IEEE m)
      ((ofInt (b : Int) -ᶠ exp2 xR) +ᶠ lit 5 10 : ℝ) := by
    refine Near.add k1 half_near (by linarith) ?_ ?_
    · rw [← hτ]
      have : τ ≤ h / 2 ^ 100 := t1.trans (by norm_num; linarith)
      linarith
    · have : τ ≤ 1 := t1.trans (by norm_num)
      norm_num; linarith
  have k3 : Near (h * (1 / 65536 + 8 / 16777216)) h ((ofInt (b : Int) -ᶠ exp2 x) +ᶠ lit 5 10 : IEEE m)
      ((ofInt (b : Int) -ᶠ exp2 xR) +ᶠ lit 5 10 : ℝ) := by
    obtain ⟨q, hv, hq, _⟩ := k2
    refine ⟨q, hv, hq, ?_⟩
    have := centred_abs hb
    rw [RealArith.add_r, RealArith.sub_r, lit5_r, RealArith.ofInt_r, exr, ← hh, Int.cast_natCast]
    have e2 : (2 : ℝ) ^ ((n : ℝ) - 1) = h := by rw [hh, Real.rpow_sub (by norm_num), Real.rpow_one, Real.rpow_natCast]
    rw [e2, ← hh] at this
    exact this
  have sh0 : 0 ≤ sR * h := mul_nonneg hs0 (by linarith)
  obtain ⟨σ, hσ⟩ : ∃ σ : ℝ, σ = 1 / 2 ^ 100 := ⟨_, rfl⟩
  have s0 : 0 ≤ σ := by rw [hσ]; norm_num
  have s1 : σ * h ≤ 1 / 2 ^ 80 := by
    calc σ * h ≤ 1 / 2 ^ 100 * 1024 := mul_le_mul (by rw [hσ]) (by linarith) (by linarith) (by norm_num)
      _ ≤ _ := by norm_num
  have s2 : 0 ≤ σ * h := mul_nonneg s0 (by linarith)
  rw [← hσ] at hs
  refine Near.mul hs k3 hg ?_ ?_
  · rw [← hτ]
    norm_num at s1 t1 ⊢
    linarith
  · norm_num at s1 ⊢
    linarith

/-! ## The decoder up to the residuals -/

/-- Assigned elements are close, relative to the bounds `g`. -/
def LocNear {n : Nat} (ε : ℝ) (g : Nat → ℝ) (G : Loc n (IEEE m)) (G' : Loc n ℝ) : Prop :=
  ∀ i x y, G i = some x → G' i = some y → Near (ε * g i.val) (g i.val) x y

/-- The same for two subscripts; the bound depends on the second. -/
def Loc2Near {n k : Nat} (ε : ℝ) (g : Nat → ℝ) (G : Arr n (Loc k (IEEE m))) (G' : Arr n (Loc k ℝ)) : Prop :=
  ∀ i j x y, G i j = some x → G' i j = some y → Near (ε * g j.val) (g j.val) x y

theorem imbeG_nonneg (k : Nat) : 0 ≤ imbeG k := by unfold imbeG; positivity

theorem imbeG_range {k : Nat} (h1 : 1 ≤ k) (h2 : k ≤ 6) : 1 / 10 ≤ imbeG k ∧ imbeG k ≤ 1000 := by
  have : ∀ k < 7, 1 ≤ k → 100 ≤ imbeGI.getD k 0 ∧ imbeGI.getD k 0 ≤ 1000000 := by decide
  obtain ⟨a, b⟩ := this k (by omega) h1
  have a' : (100 : ℝ) ≤ imbeGI.getD k 0 := by exact_mod_cast a
  have b' : (imbeGI.getD k 0 : ℝ) ≤ 1000000 := by exact_mod_cast b
  unfold imbeG
  constructor <;> linarith

theorem imbeC_range {k : Nat} (h1 : 1 ≤ k) (h2 : k ≤ 10) : 1 / 10 ≤ imbeC k ∧ imbeC k ≤ 1000 := by
  have : ∀ k < 11, 1 ≤ k → 100 ≤ imbeCI.getD k 0 ∧ imbeCI.getD k 0 ≤ 1000000 := by decide
  obtain ⟨a, b⟩ := this k (by omega) h1
  have a' : (100 : ℝ) ≤ imbeCI.getD k 0 := by exact_mod_cast a
  have b' : (imbeCI.getD k 0 : ℝ) ≤ 1000000 := by exact_mod_cast b
  unfold imbeC
  constructor <;> linarith

/-- `n - 1` for a small number of bits is exact. -/
theorem bits_val {n : Nat} (h : n ≤ 12) {x : IEEE m} (hx : Val x (n : ℚ)) : Val (x -ᶠ lit 1 1 : IEEE m) ((n : ℚ) - 1) := by
  have hn : (n : ℚ) ≤ 12 := by exact_mod_cast h
  have hn0 : (0 : ℚ) ≤ n := by positivity
  have := hx.sub one_val (by rw [abs_le, Val.big_eq]; constructor <;> norm_num <;> linarith)
  rw [show ((n : ℚ) - 1) = (((n : Int) - 1 : Int) : ℚ) by push_cast; rfl] at this ⊢
  rwa [rnd_int F32_p (by decide) (by rw [abs_le]; have : (2 : Int) ^ F32.p = 16777216 := rfl; constructor <;> omega)] at this

theorem imbeGm_near (hm : LibmAcc m) (bb : Arr 58 (Loc 12 Int)) (L9 : Int) :
    Rel2 (LocNear (1 / 2 ^ 15) imbeG) (imbeGm bb L9 : Exec (Loc 7 (IEEE m))) (imbeGm bb L9 : Exec (Loc 7 ℝ)) := by
  unfold imbeGm
  refine .bindSame Post.true fun b2 _ => .bindSame tabI_post fun x hx => ?_
  refine .bind (R := LocNear (1 / 2 ^ 15) imbeG) (wr_rel2 (R := fun k => Near (1 / 2 ^ 15 * imbeG k) (imbeG k)) (fun i x y h => by cases h) _ ?_) fun G G' hG => ?_
  · have h := B2_bnd
    rw [List.all_eq_true] at h
    have h := h x (List.mem_of_getElem? hx.2)
    have h : |x| ≤ 8700000 := by simpa using h
    obtain ⟨e, q, hv, hq⟩ := ftab_near (m := m) (d := B2_den) h (by decide) (by decide) (by decide)
    have hb : |(x : ℝ) / (B2_den : ℝ)| ≤ 8.7 := by
      have : |(x : ℝ)| ≤ 8700000 := by exact_mod_cast h
      rw [abs_div, show |(B2_den : ℝ)| = 1000000 by norm_num [B2_den]]
      linarith
    have e1 : imbeG (1 : Int).toNat = 8.7 := by norm_num [imbeG, imbeGI]
    rw [e1]
    refine ⟨q, hv, ?_, by rw [e]; exact hb⟩
    rw [e]
    linarith
  refine .bindSame tabI_post fun row hrow => ?_
  refine .loopFT' hG fun i h1 h2 G G' hG => ?_
  refine .bindSame tab_post fun e he => .bindSame tab_post fun e0 he0 => .bindSame tab_post fun e1 he1 => ?_
  have hck := ba_bnd
  rw [List.all_eq_true] at hck
  have hck := hck row (List.mem_of_getElem? hrow.2)
  rw [List.all_eq_true] at hck
  have hck := hck (i - 2) (by rw [List.mem_range]; omega)
  rw [getD_of_some he, show i - 2 + 2 = i by omega] at hck
  unfold baChk at hck
  rw [List.any_eq_true] at hck
  obtain ⟨n, hn, hck⟩ := hck
  rw [getD_of_some he0, getD_of_some he1] at hck
  simp only [Bool.and_eq_true, beq_iff_eq, decide_eq_true_eq] at hck
  obtain ⟨⟨c0, c1⟩, c2⟩ := hck
  rw [List.mem_range] at hn
  have v0 : Val (ftab e0 ba_den : IEEE m) n := by rw [c0]; exact baInt_val hn
  have f0 : (ftab e0 ba_den : ℝ) = n := by
    rw [ftab_r (b := 12000000) (by rw [c0, abs_of_nonneg (by positivity)]; omega) (by decide), c0]
    have : (ba_den : ℝ) = 1000000 := by norm_num [ba_den]
    rw [this]
    push_cast
    field_simp
  have hp : (1 : Int) ≤ 2 ^ n := by exact_mod_cast (Nat.one_le_two_pow (n := n))
  have hg : imbeGI.getD i 0 ≤ 100000 := by
    have : ∀ i < 7, imbeGI.getD i 0 ≤ 100000 := by decide
    exact this i (by omega)
  obtain ⟨f1, q1, v1, hq1⟩ := ftab_near (m := m) (n := e1) (d := ba_den) (b := 200000000) (by rw [abs_of_nonneg c1]; nlinarith) (by decide)
    (by decide) (by decide)
  have d6 : (ba_den : ℝ) = 1000000 := by norm_num [ba_den]
  rw [d6] at hq1 f1
  have e1' : (0 : ℝ) ≤ e1 := by exact_mod_cast c1
  have s0 : (0 : ℝ) ≤ (e1 : ℝ) / 1000000 := by positivity
  have c2' : (e1 : ℝ) * 2 ^ n ≤ 2000 * (imbeGI.getD i 0 : ℝ) := by exact_mod_cast c2
  rw [f0, f1]
  refine .bind (R := fun a b => a = (n : Int) ∧ b = (n : Int)) (.posts (P := fun a => a = (n : Int)) ?_ (toI32_r_post _) fun a b ha hb => ⟨ha, ?_⟩) fun a b hab => ?_
  · have : toI32 (ftab e0 ba_den : IEEE m) = .ok ⌊(n : ℚ)⌋ := v0.toI32 (by positivity) (by
      have : (n : ℚ) ≤ 12 := by exact_mod_cast hn.le
      linarith)
    rw [this, Int.floor_natCast]
    exact Post.pure rfl
  · rw [if_pos (by positivity), Int.floor_natCast] at hb
    exact hb
  obtain ⟨rfl, rfl⟩ := hab
  refine .bindSame bbField_post fun bm hbm => ?_
  refine wr_rel2 (R := fun k => Near (1 / 2 ^ 15 * imbeG k) (imbeG k)) hG _ ?_
  rw [Int.toNat_natCast] at hbm ⊢
  obtain ⟨g1, g2⟩ := imbeG_range (k := i) (by omega) h2
  refine quant_near hm (by omega) hbm.2 s0 ?_ (bits_val (by omega) v0) ?_ ?_ g1 g2
  · refine ⟨q1, v1, ?_, by rw [abs_of_nonneg s0]⟩
    rw [abs_of_nonneg s0] at hq1
    have : (0 : ℝ) ≤ 1 / 2 ^ 100 := by norm_num
    linarith
  · rw [RealArith.sub_r, lit1_r]
  · unfold imbeG
    rw [div_mul_div_comm, div_le_div_iff₀ (by norm_num) (by norm_num)]; linarith

theorem idctRi_near {r n : Nat} {c : DctCache (IEEE m) r n} {c' : DctCache ℝ r n} (hc : CacheNear c c') {N : Nat} (hN : N ≤ 17)
    {G : Loc r (IEEE m)} {G' : Loc r ℝ} {g : Nat → ℝ} {ε B : ℝ} (hε : 0 ≤ ε) (hε' : ε ≤ 1 / 1000) (hg : ∀ k, 0 ≤ g k)
    (hB : ∑ k ∈ Finset.Icc 1 N, wgt k * g k ≤ B) (hB' : B ≤ 1000) (hB0 : 1 / 1000 ≤ B) (hG : LocNear ε g G G') :
    Rel2 (LocNear (ε + 1 / 40000) fun _ => B) (idctRi c N G) (idctRi c' N G') := by
  unfold idctRi
  refine .loopFT' (fun i x y h => by cases h) fun i h1 h2 R R' hR => ?_
  refine .bind (idctSum_near hN hε hε' hg hB hB' hB0 (fun k k1 k2 => ?_) fun k => hc.rdRi _ _) fun s s' hs =>
    wr_rel2 (R := fun k => Near ((ε + 1 / 40000) * B) B) hR _ (hs.mono (by linarith) le_rfl)
  have := rd_rel2 (R := fun k => Near (ε * g k) (g k)) hG (k : Int)
  rwa [Int.toNat_natCast] at this

theorem imbeCik_near (hm : LibmAcc m) (bb : Arr 58 (Loc 12 Int)) (L9 : Int) {R : Loc 7 (IEEE m)} {R' : Loc 7 ℝ} {ε : ℝ} (hε : 1 / 2 ^ 15 ≤ ε)
    (hR : LocNear ε (fun _ => imbeC 1) R R') : Rel2 (Loc2Near ε imbeC) (imbeCik bb L9 R) (imbeCik bb L9 R') := by
  unfold imbeCik
  refine .bind (R := fun (a : Arr 7 (Loc 11 (IEEE m)) × Int) (b : Arr 7 (Loc 11 ℝ) × Int) => Loc2Near ε imbeC a.1 b.1 ∧ a.2 = b.2) (.loopFT' ⟨fun i k x y h => (by cases h), rfl⟩ fun i h1 h2 s s' hs => ?_)
    fun a b h => .ok h.1
  refine .bind (rd_rel2 (R := fun _ => Near (ε * imbeC 1) (imbeC 1)) hR _) fun v v' hv =>
    .bind (R := Loc2Near ε imbeC) (wr2_rel2 (R := fun _ k => Near (ε * imbeC k) (imbeC k)) hs.1 _ _ hv) fun C C' hC => .bindSame Post.true fun J _ => ?_
  refine .loopFT' (R := fun (a : Arr 7 (Loc 11 (IEEE m)) × Int) (b : Arr 7 (Loc 11 ℝ) × Int) => Loc2Near ε imbeC a.1 b.1 ∧ a.2 = b.2) ⟨hC, hs.2⟩ fun k k1 k2 s s' hs => ?_
  obtain ⟨h1, h2⟩ := hs
  rw [h2]
  refine .bindSame Post.true fun B _ => ?_
  by_cases hB : B = 0
  · rw [if_pos hB, if_pos hB]
    refine .bind (R := Loc2Near ε imbeC) (wr2_rel2 (R := fun _ k => Near (ε * imbeC k) (imbeC k)) h1 _ _ ?_) fun a b h => .ok ⟨h, rfl⟩
    have := imbeC_nonneg (k : Int).toNat
    exact fi0_near (mul_nonneg (le_trans (by norm_num) hε) this) this
  rw [if_neg hB, if_neg hB]
  refine .bindSame bbField_post fun bm hbm => .bindSame tabI_post fun q hq => .bindSame tabI_post fun sd hsd => ?_
  refine .bind (R := Loc2Near ε imbeC) (wr2_rel2 (R := fun _ k => Near (ε * imbeC k) (imbeC k)) h1 _ _ ?_) fun a b h => .ok ⟨h, rfl⟩
  obtain ⟨q0, hq⟩ := hq
  obtain ⟨s0, hsd⟩ := hsd
  have lq : ((B : Int) - 1).toNat < 11 := (List.getElem?_eq_some_iff.mp hq).1
  have ls : ((k : Int) - 2).toNat < 9 := (List.getElem?_eq_some_iff.mp hsd).1
  have ck := quant_bnd _ lq _ ls
  rw [getD_of_some hq, getD_of_some hsd, show ((k : Int) - 2).toNat + 2 = k by omega,
    show ((B : Int) - 1).toNat + 1 = B by omega] at ck
  have hqb : |q| ≤ 1000 := by
    have : (quantstep.all fun x => decide (|x| ≤ 1000)) = true := by decide
    rw [List.all_eq_true] at this
    simpa using this q (List.mem_of_getElem? hq)
  have hsb : |sd| ≤ 1000 := by
    have : (standdev.all fun x => decide (|x| ≤ 1000)) = true := by decide
    rw [List.all_eq_true] at this
    simpa using this sd (List.mem_of_getElem? hsd)
  obtain ⟨f1, r1, v1, e1⟩ := ftab_near (m := m) (d := quantstep_den) hqb (by decide) (by decide) (by decide)
  obtain ⟨f2, r2, v2, e2⟩ := ftab_near (m := m) (d := standdev_den) hsb (by decide) (by decide) (by decide)
  rw [Int.toNat_natCast] at hbm ⊢
  have d1 : (quantstep_den : ℝ) = 100 := by norm_num [quantstep_den]
  have d2 : (standdev_den : ℝ) = 1000 := by norm_num [standdev_den]
  rw [d1] at f1 e1
  rw [d2] at f2 e2
  have c1 : (0 : ℝ) ≤ (q : ℝ) * sd := by exact_mod_cast ck.1
  have c2 : (q : ℝ) * sd * 2 ^ B ≤ 200 * (imbeCI.getD k 0 : ℝ) := by exact_mod_cast ck.2
  have qb : |(q : ℝ) / 100| ≤ 10 := by
    have : |(q : ℝ)| ≤ 1000 := by exact_mod_cast hqb
    rw [abs_div, show |(100 : ℝ)| = 100 by norm_num]; linarith
  have sb : |(sd : ℝ) / 1000| ≤ 1 := by
    have : |(sd : ℝ)| ≤ 1000 := by exact_mod_cast hsb
    rw [abs_div, show |(1000 : ℝ)| = 1000 by norm_num]; linarith
  have p0 : (0 : ℝ) ≤ (q : ℝ) / 100 * ((sd : ℝ) / 1000) := by
    rw [div_mul_div_comm]; positivity
  have pa : |(q : ℝ) / 100| * |(sd : ℝ) / 1000| = (q : ℝ) / 100 * ((sd : ℝ) / 1000) := by rw [← abs_mul, abs_of_nonneg p0]
  have hs : Near ((q : ℝ) / 100 * ((sd : ℝ) / 1000) / 2 ^ 20 + 1 / 2 ^ 100) ((q : ℝ) / 100 * ((sd : ℝ) / 1000))
      (ftab q quantstep_den *ᶠ ftab sd standdev_den : IEEE m) ((q : ℝ) / 100 * ((sd : ℝ) / 1000)) := by
    have n1 : Near (|(q : ℝ) / 100| / 2 ^ 23) |(q : ℝ) / 100| (ftab q quantstep_den : IEEE m) (ftab q quantstep_den : ℝ) :=
      ⟨r1, v1, by rw [f1]; exact e1, by rw [f1]⟩
    have n2 : Near (|(sd : ℝ) / 1000| / 2 ^ 23) |(sd : ℝ) / 1000| (ftab sd standdev_den : IEEE m) (ftab sd standdev_den : ℝ) :=
      ⟨r2, v2, by rw [f2]; exact e2, by rw [f2]⟩
    have := Near.mul (B := (q : ℝ) / 100 * ((sd : ℝ) / 1000)) (e := (q : ℝ) / 100 * ((sd : ℝ) / 1000) / 2 ^ 20 + 1 / 2 ^ 100) n1 n2 pa.le ?_ ?_
    · rw [RealArith.mul_r, f1, f2] at this
      exact this
    · rw [show |(q : ℝ) / 100| / 2 ^ 23 * (|(sd : ℝ) / 1000| + |(sd : ℝ) / 1000| / 2 ^ 23) + |(q : ℝ) / 100| * (|(sd : ℝ) / 1000| / 2 ^ 23) =
        |(q : ℝ) / 100| * |(sd : ℝ) / 1000| * (1 / 2 ^ 23 + 1 / 2 ^ 23 + 1 / 2 ^ 46) by ring, pa]
      have t : (1 : ℝ) / 2 ^ 150 ≤ 1 / 2 ^ 100 := by norm_num
      linarith
    · rw [show |(q : ℝ) / 100| / 2 ^ 23 * (|(sd : ℝ) / 1000| + |(sd : ℝ) / 1000| / 2 ^ 23) + |(q : ℝ) / 100| * (|(sd : ℝ) / 1000| / 2 ^ 23) =
        |(q : ℝ) / 100| * |(sd : ℝ) / 1000| * (1 / 2 ^ 23 + 1 / 2 ^ 23 + 1 / 2 ^ 46) by ring, pa]
      have : (q : ℝ) / 100 * ((sd : ℝ) / 1000) ≤ 10 * 1 := by
        rw [← pa]; exact mul_le_mul qb sb (abs_nonneg _) (by norm_num)
      norm_num
      linarith
  obtain ⟨g1, g2⟩ := imbeC_range (k := k) (by omega) (by omega)
  have hBi : Val (ofInt (B : Int) : IEEE m) (B : ℚ) := by
    have := Val.ofInt (m := m) (n := (B : Int)) (by rw [abs_of_nonneg (by omega)]; omega)
    exact_mod_cast this
  have := quant_near hm (n := B) (b := bm) (g := imbeC k) (xR := (ofInt (B : Int) -ᶠ lit 1 1 : ℝ)) (by omega) hbm.2 p0 hs
    (bits_val (by omega) hBi) (by rw [RealArith.sub_r, lit1_r, RealArith.ofInt_r, Int.cast_natCast]) ?_ g1 g2
  · rw [f1, f2]
    exact this.mono (mul_le_mul_of_nonneg_right hε (imbeC_nonneg k)) le_rfl
  · unfold imbeC
    rw [div_mul_div_comm, div_mul_div_comm, div_le_div_iff₀ (by norm_num) (by norm_num)]; linarith

theorem idctBlock_near {r n a b : Nat} {c : DctCache (IEEE m) r n} {c' : DctCache ℝ r n} (hc : CacheNear c c')
    {C : Arr a (Loc b (IEEE m))} {C' : Arr a (Loc b ℝ)} {g : Nat → ℝ} {ε B : ℝ} (hε : 0 ≤ ε) (hε' : ε ≤ 1 / 1000) (hg : ∀ k, 0 ≤ g k)
    {i ji : Nat} (hj : ji ≤ 17) (hB : ∑ k ∈ Finset.Icc 1 ji, wgt k * g k ≤ B) (hB' : B ≤ 1000) (hB0 : 1 / 1000 ≤ B)
    (hC : Loc2Near ε g C C') {s : Arr 57 (IEEE m) × Int} {s' : Arr 57 ℝ × Int}
    (hs : (∀ l, Near (B * (ε + 1 / 40000)) B (s.1 l) (s'.1 l)) ∧ s.2 = s'.2) :
    Rel2 (fun s s' => (∀ l, Near (B * (ε + 1 / 40000)) B (s.1 l) (s'.1 l)) ∧ s.2 = s'.2) (idctBlock c C i ji s) (idctBlock c' C' i ji s') := by
  unfold idctBlock
  refine .loopFT' hs fun j h1 h2 s s' hs => ?_
  refine .bind (idctSum_near hj hε hε' hg hB hB' hB0 (fun k k1 k2 => ?_) fun k => hc.rdIdct _ _ _) fun x y hxy => ?_
  · have := rd2_rel2 (R := fun _ k => Near (ε * g k) (g k)) hC (i : Int) (k : Int)
    rwa [Int.toNat_natCast] at this
  · obtain ⟨h1, h2⟩ := hs
    rw [h2]
    refine .bind (R := fun (a : Arr 57 (IEEE m)) (b : Arr 57 ℝ) => ∀ l, Near (B * (ε + 1 / 40000)) B (a l) (b l)) (.posts Arr.wr_post Arr.wr_post ?_)
      fun a b hab => .ok ⟨hab, rfl⟩
    rintro a b ⟨_, _, rfl⟩ ⟨_, _, rfl⟩ l
    by_cases e : l.val = s'.2.toNat
    · rw [Arr.set_same e, Arr.set_same e]; exact hxy
    · rw [Arr.set_ne e, Arr.set_ne e]; exact h1 l

theorem imbeTl_near {c : DctCache (IEEE m) 7 11} {c' : DctCache ℝ 7 11} (hc : CacheNear c c') (L9 : Int) {C : Arr 7 (Loc 11 (IEEE m))}
    {C' : Arr 7 (Loc 11 ℝ)} {ε : ℝ} (hε : 0 ≤ ε) (hε' : ε ≤ 1 / 1000) (hC : Loc2Near ε imbeC C C') :
    Rel2 (fun T T' => ∀ l, Near (37.12 * (ε + 1 / 40000)) 37.12 (T l) (T' l)) (imbeTl c L9 C) (imbeTl c' L9 C') := by
  unfold imbeTl
  refine .bind (R := fun s s' => (∀ l, Near (37.12 * (ε + 1 / 40000)) 37.12 (s.1 l) (s'.1 l)) ∧ s.2 = s'.2) (.loopFT' ⟨fun l => ?_, rfl⟩
    fun i h1 h2 s s' hs => ?_) fun a b h => .ok h.1
  · exact fi0_near (by positivity) (by norm_num)
  · refine .bindSame tab2_post fun J hJ => ?_
    obtain ⟨r, _, _, hr, hJ⟩ := hJ
    have h := Ji_bnd
    rw [List.all_eq_true] at h
    have h := h r (List.mem_of_getElem? hr)
    rw [List.all_eq_true] at h
    have h : J ≤ 10 := by simpa using h J (List.mem_of_getElem? hJ)
    exact idctBlock_near hc hε hε' imbeC_nonneg (by omega) (imbeC_sum h) (by norm_num) (by norm_num) hC hs

/-- The residuals of a payload in the two arithmetics. -/
theorem imbeResidual_near (hm : LibmAcc m) {c : DctCache (IEEE m) 7 11} {c' : DctCache ℝ 7 11} (hc : CacheNear c c') (L9 : Int) (d : Nat → Int) :
    Rel2 (fun T T' => ∀ l, Near (3 / 1000) 37.12 (T l) (T' l)) (imbeResidual c L9 d) (imbeResidual c' L9 d) := by
  unfold imbeResidual
  refine .bindSame Post.true fun bb _ => .bind (imbeGm_near hm bb L9) fun G G' hG => ?_
  refine .bind (idctRi_near hc (by norm_num) (by norm_num) (by norm_num) imbeG_nonneg imbeG_sum (imbeC_range le_rfl (by norm_num)).2
    (le_trans (by norm_num) (imbeC_range le_rfl (by norm_num)).1) hG) fun R R' hR => ?_
  refine .bind (imbeCik_near hm bb L9 (by norm_num) hR) fun C C' hC => ?_
  exact (imbeTl_near hc L9 (by norm_num) (by norm_num) hC).mono fun T T' h l => (h l).mono (by norm_num) le_rfl

end Verif.Model
