import Verif.Lemmas.FinSynth

/-!
# The enhancement of the erasure model divides zero by zero
-/

namespace Verif.Model
open Verif Verif.Gen Verif.Spec Verif.Num Arith
variable {m : Libm}

theorem Val.intOp {x : IEEE m} {a : ℚ} {n : Int} (hx : Val x (rnd F32 a)) (e : a = n) (h : |n| ≤ 2 ^ 24) : Val x n := by
  rwa [e, rnd_int F32_p (by decide) h] at hx

theorem int_big {n : Int} (h : |n| ≤ 2 ^ 24) : |(n : ℚ)| ≤ Val.big := by
  have : ((|n| : Int) : ℚ) ≤ ((2 ^ 24 : Int) : ℚ) := by exact_mod_cast h
  rw [Int.cast_abs] at this
  exact this.trans (le_trans (by norm_num) big_ge)

theorem Val.mulI {x y : IEEE m} {a b : Int} (hx : Val x a) (hy : Val y b) (h : |a * b| ≤ 2 ^ 24) : Val (x *ᶠ y : IEEE m) ((a * b : Int) : ℚ) := by
  have e : (a : ℚ) * b = ((a * b : Int) : ℚ) := by push_cast; ring
  exact Val.intOp (hx.mul hy (by rw [e]; exact int_big h)) e h

theorem Val.addI {x y : IEEE m} {a b : Int} (hx : Val x a) (hy : Val y b) (h : |a + b| ≤ 2 ^ 24) : Val (x +ᶠ y : IEEE m) ((a + b : Int) : ℚ) := by
  have e : (a : ℚ) + b = ((a + b : Int) : ℚ) := by push_cast; ring
  exact Val.intOp (hx.add hy (by rw [e]; exact int_big h)) e h

theorem Val.subI {x y : IEEE m} {a b : Int} (hx : Val x a) (hy : Val y b) (h : |a - b| ≤ 2 ^ 24) : Val (x -ᶠ y : IEEE m) ((a - b : Int) : ℚ) := by
  have e : (a : ℚ) - b = ((a - b : Int) : ℚ) := by push_cast; ring
  exact Val.intOp (hx.sub hy (by rw [e]; exact int_big h)) e h

theorem zero_div_zero {x y : IEEE m} (hx : Val x 0) (hy : Val y 0) : (x /ᶠ y : IEEE m) = (qnan : IEEE m) := by
  obtain ⟨s, rfl⟩ := hx
  obtain ⟨t, rfl⟩ := hy
  show FP.divR F32 (FP.fin s 0) (FP.fin t 0) = FP.nan
  simp [FP.divR]

/-- The weight when the fundamental is zero and all amplitudes are one. -/
theorem enhWeight_zero {w0 rm0 rm1 a c : IEEE m} {L : Int} (h0 : 0 ≤ L) (h1 : L ≤ 56) (hw : Val w0 0) (hr : Val rm0 L) (hs : Val rm1 L)
    (hc : Val c ((1 : Int) : ℚ)) : enhWeight w0 rm0 rm1 a c = (qnan : IEEE m) := by
  have q1 : L * L ≤ 3136 := by nlinarith
  have q0 : 0 ≤ L * L := by positivity
  have r20 := Val.mulI hr hr (by rw [abs_of_nonneg q0]; omega)
  have r21 := Val.mulI hs hs (by rw [abs_of_nonneg q0]; omega)
  have e2 : Val (ofInt 2 : IEEE m) ((2 : Int) : ℚ) := Val.ofInt (by norm_num)
  have t1 := Val.mulI e2 hr (by rw [abs_of_nonneg (by positivity)]; omega)
  have t2 := Val.mulI t1 hs (by rw [abs_of_nonneg (by positivity)]; nlinarith)
  have t3 := Val.mulI t2 hc (by rw [abs_of_nonneg (by positivity)]; nlinarith)
  have t4 := Val.addI r20 r21 (by rw [abs_of_nonneg (by positivity)]; omega)
  have e0 : L * L + L * L - 2 * L * L * 1 = 0 := by ring
  have t5 := Val.subI t4 t3 (by rw [e0]; norm_num)
  rw [e0] at t5
  obtain ⟨k, vk, _⟩ := enhK (m := m)
  have n := mul_zero_val vk (by simpa using t5)
  have d1 := Val.subI r20 r21 (by rw [sub_self]; norm_num)
  rw [sub_self] at d1
  have d := mul_zero_val (zero_mul_val hw hr) (by simpa using d1)
  unfold enhWeight
  dsimp only
  rw [zero_div_zero n d, qsqrt_nan, qsqrt_nan, qmul_nan]

theorem cosTab_zero (hm : TrigAcc m) {w : IEEE m} (hw : Val w 0) {L : Int} (hL : L ≤ 56) : Ok (cosTab w L) fun ct =>
    ∀ l : Fin 57, 1 ≤ l.val → (l.val : Int) ≤ L → ∃ c : IEEE m, ct l = some c ∧ Val c ((1 : Int) : ℚ) := by
  have hc : Val (cos w : IEEE m) ((1 : Int) : ℚ) := by
    have : Val (cos w : IEEE m) 1 := hm.cos0 w hw
    simpa using this
  have hs : Val (sin w : IEEE m) ((0 : Int) : ℚ) := by
    have : Val (sin w : IEEE m) 0 := hm.sin0 w hw
    simpa using this
  unfold cosTab loopTo
  dsimp only
  refine Ok.bind (P := fun s : Loc 57 (IEEE m) × IEEE m × IEEE m => ∀ l : Fin 57, 1 ≤ l.val → l.val < L.toNat + 1 → ∃ c : IEEE m, s.1 l = some c ∧
    Val c ((1 : Int) : ℚ)) ?_ fun s h => Ok.ok fun l h1 h2 => h l h1 (by omega)
  by_cases h1 : 1 ≤ L.toNat + 1
  · refine (loopFT_inv (fun i (s : Loc 57 (IEEE m) × IEEE m × IEEE m) => Val s.2.1 ((1 : Int) : ℚ) ∧ Val s.2.2 ((0 : Int) : ℚ) ∧
      ∀ l : Fin 57, 1 ≤ l.val → l.val < i → ∃ c : IEEE m, s.1 l = some c ∧ Val c ((1 : Int) : ℚ)) h1 ⟨?_, ?_, ?_⟩ fun i l1 l2 s hs' => ?_).mono
      fun s h => h.2.2
    · simpa using one_val (m := m)
    · exact ⟨false, by simp; rfl⟩
    · intro l h h'; omega
    · obtain ⟨a, b, c⟩ := hs'
      rw [Loc.wr_nat (show i < 57 by omega), ok_bind]
      have x1 := Val.mulI a hc (by norm_num)
      have x2 := Val.mulI b hs (by norm_num)
      have x3 := Val.mulI b hc (by norm_num)
      have x4 := Val.mulI a hs (by norm_num)
      have y1 := Val.subI x1 x2 (by norm_num)
      have y2 := Val.addI x3 x4 (by norm_num)
      refine Ok.ok ⟨by simpa using y1, by simpa using y2, fun l h h' => ?_⟩
      by_cases e : l.val = i
      · exact ⟨_, Arr.set_same e, by simpa using y1⟩
      · dsimp only; rw [Arr.set_ne e]; exact c l h (by omega)
  · omega

theorem enhWeights_nan' {w0 rm0 rm1 : IEEE m} {L : Int} {ct : Loc 57 (IEEE m)} {Ml : Arr 57 (IEEE m)} {k : Fin 57} {c : IEEE m} (hc : ct k = some c)
    (h : enhWeight w0 rm0 rm1 (Ml k) c = (qnan : IEEE m)) (h1 : 1 ≤ k.val) (h2 : (k.val : Int) ≤ L) (h3 : L < 8 * (k.val : Int))
    (h0 : eq (Ml k) (lit 0 1) = false) :
    Post (enhWeights w0 L rm0 rm1 ct Ml) fun Ml' => Ml' k = (qnan : IEEE m) := by
  unfold enhWeights loopTo
  have := loopFT_post (lo := 1) (hi := L.toNat) (f := fun l (Ml : Arr 57 (IEEE m)) => do
    let a ← Ml.rd l
    if eq a (lit 0 1) then .ok Ml
    else Ml.wr l (enhApply l L (enhWeight w0 rm0 rm1 a (← ct.rd l)) a)) (s := Ml)
    (fun i (M : Arr 57 (IEEE m)) => (k.val < i → M k = (qnan : IEEE m)) ∧ (i ≤ k.val → M k = Ml k)) (by omega)
    ⟨fun h => by omega, fun _ => rfl⟩ (fun i hi1 hi2 M hM => by
      refine Post.bind Arr.rd_post fun a ha => ?_
      obtain ⟨hb, rfl⟩ := ha
      by_cases e : i = k.val
      · subst e
        have : M ⟨((k.val : Nat) : Int).toNat, hb⟩ = Ml k := by rw [← hM.2 le_rfl]; rfl
        rw [this, h0, if_neg (by simp), Loc.rd_nat k.isLt hc, ok_bind, h, enhApply_nan h3]
        refine Arr.wr_post.mono fun N hN => ⟨fun _ => ?_, fun h => by omega⟩
        rw [hN.2.2, Arr.set_same (by simp)]
      · have keep : ∀ N : Arr 57 (IEEE m), N k = M k → (k.val < i + 1 → N k = (qnan : IEEE m)) ∧ (i + 1 ≤ k.val → N k = Ml k) := by
          intro N hN
          rw [hN]
          exact ⟨fun h => hM.1 (by omega), fun h => hM.2 (by omega)⟩
        refine Post.ite (fun _ => Post.pure (keep _ rfl)) fun _ => Post.bind Post.true fun c _ => Arr.wr_post.mono fun N hN => ?_
        refine keep _ ?_
        rw [hN.2.2, Arr.set_ne (by simp; omega)])
  exact this.mono fun M hM => hM.1 (by omega)

/-- Enhancement of a frame with fundamental 0 and unit amplitudes: every amplitude becomes a NaN. -/
theorem enhance_erase (hm : TrigAcc m) {addr : Nat} {cur : Parms (IEEE m)} {t : Tls (IEEE m)} (hw : Val cur.w0 0) (h9 : 9 ≤ cur.L) (hL : cur.L ≤ 56)
    (h : ∀ l : Fin 57, 1 ≤ l.val → (l.val : Int) ≤ cur.L → Val (cur.Ml l) 1) :
    Post (spectralAmpEnhance addr cur t) fun r => ∀ l : Fin 57, 1 ≤ l.val → (l.val : Int) ≤ cur.L → r.1.Ml l = (qnan : IEEE m) := by
  have h0c : Val (lit 0 1 : IEEE m) 0 := ⟨false, rfl⟩
  unfold spectralAmpEnhance
  refine Post.bind (Ok.post (cosTab_zero hm hw hL)) fun ct hct => ?_
  refine Post.bind (P := fun s : IEEE m × IEEE m => Val s.1 cur.L ∧ Val s.2 cur.L) ?_ fun r hr => ?_
  · unfold rm01 loopTo
    refine (loopFT_post (fun i (s : IEEE m × IEEE m) => Val s.1 ((i : Int) - 1 : Int) ∧ Val s.2 ((i : Int) - 1 : Int)) (by omega)
      ⟨by simpa using h0c, by simpa using h0c⟩ fun i h1 h2 s hs => ?_).mono fun s hs => ?_
    · have hi : (i : Int) ≤ cur.L := by omega
      obtain ⟨c, e1, e2⟩ := hct ⟨i, by omega⟩ h1 hi
      rw [Arr.rd_nat (show i < 57 by omega), ok_bind, Loc.rd_nat (show i < 57 by omega) e1, ok_bind]
      have hz : Val (cur.Ml ⟨i, by omega⟩) ((1 : Int) : ℚ) := by simpa using h ⟨i, by omega⟩ h1 hi
      have z2 := Val.mulI hz hz (by norm_num)
      have z3 := Val.mulI z2 e2 (by norm_num)
      have a := Val.addI hs.1 z2 (by rw [abs_of_nonneg (by omega)]; omega)
      have b := Val.addI hs.2 z3 (by rw [abs_of_nonneg (by omega)]; omega)
      have e : ((i + 1 : Nat) : Int) - 1 = (i : Int) - 1 + 1 * 1 := by push_cast; ring
      have e' : ((i + 1 : Nat) : Int) - 1 = (i : Int) - 1 + 1 * 1 * 1 := by push_cast; ring
      exact Post.pure ⟨by rw [e]; exact a, by rw [e']; exact b⟩
    · have e : ((cur.L.toNat + 1 : Nat) : Int) - 1 = cur.L := by omega
      rw [e] at hs
      exact hs
  obtain ⟨k, hk⟩ : ∃ k : Nat, cur.L = k := ⟨cur.L.toNat, by omega⟩
  have kL : k < 57 := by omega
  obtain ⟨c, hc1, hc2⟩ := hct ⟨k, kL⟩ (by dsimp only; omega) (by dsimp only; omega)
  refine Post.bind (enhWeights_nan' (k := ⟨k, kL⟩) hc1 (enhWeight_zero (by omega) hL hw hr.1 hr.2 hc2) (by dsimp only; omega) (by dsimp only; omega) (by dsimp only; omega) ?_)
    fun M hM => ?_
  · rw [(h ⟨k, kL⟩ (by dsimp only; omega) (by dsimp only; omega)).eq h0c]
    simp
  refine Post.bind (enhSum_nan (k := ⟨k, kL⟩) (by dsimp only; omega) (by dsimp only; omega) hM) fun s hs => ?_
  rw [hs, enhScale_eq hL, ok_bind]
  refine Post.pure fun l h1 h2 => ?_
  dsimp only
  rw [if_pos ⟨h1, h2⟩]
  unfold enhGamma
  rw [qnan_eq, if_neg (by simp), qdiv_nan, qsqrt_nan, qnan_mul]

end Verif.Model
