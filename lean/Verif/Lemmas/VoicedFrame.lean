import Verif.Lemmas.VoicedBand
import Mathlib.Algebra.Order.BigOperators.Group.Finset

/-!
# Rounding errors of a whole frame
-/

namespace Verif.Model
open Verif Verif.Gen Verif.Spec Verif.Num Arith
variable {m : Libm}

/-! ## The sum over the harmonics -/

/-- The amplitudes of the voiced harmonics below `k`. -/
noncomputable def ampBelow (cur prev : Parms (IEEE m)) (k : Nat) : ℝ :=
  ∑ l : Fin 57, if 1 ≤ l.val ∧ l.val < k then voicedAmp prev l + voicedAmp cur l else 0

theorem ampBelow_nonneg (cur prev : Parms (IEEE m)) (k : Nat) : 0 ≤ ampBelow cur prev k :=
  Finset.sum_nonneg fun l _ => by
    split
    · exact add_nonneg (voicedAmp_nonneg _ _) (voicedAmp_nonneg _ _)
    · exact le_rfl

theorem ampBelow_one (cur prev : Parms (IEEE m)) : ampBelow cur prev 1 = 0 :=
  Finset.sum_eq_zero fun l _ => if_neg (by omega)

theorem ampBelow_succ (cur prev : Parms (IEEE m)) {k : Nat} (h1 : 1 ≤ k) (hk : k < 57) :
    ampBelow cur prev (k + 1) = ampBelow cur prev k + (voicedAmp prev ⟨k, hk⟩ + voicedAmp cur ⟨k, hk⟩) := by
  unfold ampBelow
  have e : ∀ l : Fin 57, (if 1 ≤ l.val ∧ l.val < k + 1 then voicedAmp prev l + voicedAmp cur l else 0) =
      (if 1 ≤ l.val ∧ l.val < k then voicedAmp prev l + voicedAmp cur l else 0) +
        (if l = (⟨k, hk⟩ : Fin 57) then voicedAmp prev ⟨k, hk⟩ + voicedAmp cur ⟨k, hk⟩ else 0) := by
    intro l
    by_cases e : l = ⟨k, hk⟩
    · subst e
      rw [if_pos ⟨h1, by dsimp only; omega⟩, if_neg (by dsimp only; omega), if_pos rfl, zero_add]
    · have : l.val ≠ k := fun h => e (Fin.ext h)
      rw [if_neg e, add_zero]
      by_cases c : 1 ≤ l.val ∧ l.val < k
      · rw [if_pos c, if_pos (by omega)]
      · rw [if_neg c, if_neg (by omega)]
  simp only [e]
  rw [Finset.sum_add_distrib, Finset.sum_ite_eq' Finset.univ (⟨k, hk⟩ : Fin 57) (fun _ => voicedAmp prev ⟨k, hk⟩ + voicedAmp cur ⟨k, hk⟩),
    if_pos (Finset.mem_univ _)]

theorem ampBelow_mono (cur prev : Parms (IEEE m)) {j k : Nat} (h : j ≤ k) : ampBelow cur prev j ≤ ampBelow cur prev k :=
  Finset.sum_le_sum fun l _ => by
    have := add_nonneg (voicedAmp_nonneg prev l) (voicedAmp_nonneg cur l)
    split <;> split <;> first | exact le_rfl | exact this | omega

theorem voicedSum_eq (n : Int) (p : Parms (IEEE m)) :
    voicedSum n (valuesOf p) = ∑ l : Fin 57, if 1 ≤ l.val ∧ (l.val : Int) ≤ n then voicedAmp p l else 0 := by
  unfold voicedSum
  refine Finset.sum_congr rfl fun l _ => ?_
  unfold voicedAmp
  show (if 1 ≤ l.val ∧ (l.val : Int) ≤ n ∧ p.Vl l = 1 then |number (p.Ml l)| else 0) = _
  by_cases h1 : 1 ≤ l.val ∧ (l.val : Int) ≤ n
  · by_cases h2 : p.Vl l = 1
    · rw [if_pos ⟨h1.1, h1.2, h2⟩, if_pos h1, if_pos h2]
    · rw [if_neg (fun h => h2 h.2.2), if_pos h1, if_neg h2]
  · rw [if_neg (fun h => h1 ⟨h.1, h.2.1⟩), if_neg h1]

theorem ampBelow_eq (cur prev : Parms (IEEE m)) {n : Int} (h0 : 0 ≤ n) :
    ampBelow cur prev (n.toNat + 1) = voicedSum n (valuesOf prev) + voicedSum n (valuesOf cur) := by
  rw [voicedSum_eq, voicedSum_eq, ← Finset.sum_add_distrib]
  refine Finset.sum_congr rfl fun l _ => ?_
  by_cases h : 1 ≤ l.val ∧ (l.val : Int) ≤ n
  · rw [if_pos (by omega), if_pos h, if_pos h]
  · rw [if_neg (by omega), if_neg h, if_neg h, add_zero]

/-- The numbers of the harmonics `1 .. n`. -/
structure Bands (n : Int) (cur prev : Parms (IEEE m)) : Prop where
  wc : ∃ q : ℚ, Val cur.w0 q ∧ (q = 0 ∨ 1 / 64 ≤ q) ∧ q ≤ 5 / 8
  wp : ∃ q : ℚ, Val prev.w0 q ∧ 0 ≤ q ∧ q ≤ 5 / 8
  phi : ∀ l : Fin 57, 1 ≤ l.val → Bnd (cur.PHIl l) (32 + 100 * l.val) ∧ Bnd (prev.PHIl l) (32 + 100 * l.val)
  mc : ∀ l : Fin 57, 1 ≤ l.val → (l.val : Int) ≤ n → cur.Vl l = 1 → Bnd (cur.Ml l) (2 ^ 32)
  mp : ∀ l : Fin 57, 1 ≤ l.val → (l.val : Int) ≤ n → prev.Vl l = 1 → Bnd (prev.Ml l) (2 ^ 32)

theorem voicedAmp_le {p : Parms (IEEE m)} {l : Fin 57} (h : p.Vl l = 1 → Bnd (p.Ml l) (2 ^ 32)) : voicedAmp p l ≤ 2 ^ 32 := by
  by_cases hv : p.Vl l = 1
  · exact (ml_near hv (h hv)).2
  · unfold voicedAmp
    rw [if_neg hv]
    positivity

theorem ampBelow_le {n : Int} {cur prev : Parms (IEEE m)} (h : Bands n cur prev) (_hn : n ≤ 56) : ampBelow cur prev (n.toNat + 1) ≤ 2 ^ 39 := by
  have : ampBelow cur prev (n.toNat + 1) ≤ ∑ _l : Fin 57, (2 ^ 33 : ℝ) := by
    refine Finset.sum_le_sum fun l _ => ?_
    by_cases c : 1 ≤ l.val ∧ l.val < n.toNat + 1
    · rw [if_pos c]
      have h1 := voicedAmp_le (h.mc l c.1 (by omega))
      have h2 := voicedAmp_le (h.mp l c.1 (by omega))
      norm_num at h1 h2 ⊢
      linarith
    · rw [if_neg c]; positivity
  refine this.trans ?_
  rw [Finset.sum_const, Finset.card_univ, Fintype.card_fin]
  norm_num

theorem voiced_sum_near (hm : TrigAcc m) {cur prev : Parms (IEEE m)} {n : Int} (hn : n ≤ 56) (hn0 : 0 ≤ n) (hb : Bands n cur prev) :
    ∃ x : Fin 57 → Fin 160 → ℝ,
      (∀ l : Fin 57, 1 ≤ l.val → (l.val : Int) ≤ n → ContributionWithin (1 / 2 ^ 20) (1 / 1000) (valuesOf cur) (valuesOf prev) l (x l)) ∧
      (∀ l : Fin 57, l.val < 1 ∨ n < l.val → x l = fun _ => 0) ∧
      ∀ {osc : Nat → IEEE m → IEEE m → IEEE m → IEEE m → IEEE m → Arr 160 (IEEE m) → Exec (Arr 160 (IEEE m))}, OscNear osc →
        Post (loopTo 1 n (voicedBandWith osc cur.w0 prev.w0 cur prev) (Arr.const 160 (fi 0))) fun r =>
          ∀ i, AccNear (ampBelow cur prev (n.toNat + 1)) 114 (ampBelow cur prev (n.toNat + 1)) (r i) (∑ l, x l i) := by
  obtain ⟨qc, vc, c0, c1⟩ := hb.wc
  obtain ⟨qp, vp, p0, p1⟩ := hb.wp
  have hW := ampBelow_le hb hn
  have hW0 := ampBelow_nonneg cur prev (n.toNat + 1)
  have hex : ∀ l : Fin 57, ∃ y : Fin 160 → ℝ, (1 ≤ l.val ∧ (l.val : Int) ≤ n →
      ContributionWithin (1 / 2 ^ 20) (1 / 1000) (valuesOf cur) (valuesOf prev) l y ∧
      ∀ {osc : Nat → IEEE m → IEEE m → IEEE m → IEEE m → IEEE m → Arr 160 (IEEE m) → Exec (Arr 160 (IEEE m))}, OscNear osc →
      ∀ {k : Nat} {out : Arr 160 (IEEE m)} {X : Fin 160 → ℝ} {W T : ℝ}, k ≤ 190 → 0 ≤ T → T + (voicedAmp prev l + voicedAmp cur l) ≤ W →
        W ≤ 2 ^ 40 → (∀ n, AccNear W k T (out n) (X n)) →
      Post (voicedBandWith osc cur.w0 prev.w0 cur prev l.val out) fun r =>
        ∀ n, AccNear W (k + 2) (T + (voicedAmp prev l + voicedAmp cur l)) (r n) (X n + y n)) ∧
      (¬ (1 ≤ l.val ∧ (l.val : Int) ≤ n) → y = fun _ => 0) := by
    intro l
    by_cases h : 1 ≤ l.val ∧ (l.val : Int) ≤ n
    · obtain ⟨y, hy⟩ := voicedBand_near hm (l := l) vc vp c0 c1 p0 p1 (hb.phi l h.1).1 (hb.phi l h.1).2 (hb.mc l h.1 h.2) (hb.mp l h.1 h.2)
      exact ⟨y, fun _ => hy, fun h' => absurd h h'⟩
    · exact ⟨fun _ => 0, fun h' => absurd h' h, fun _ => rfl⟩
  choose x hx hx0 using hex
  refine ⟨x, fun l a b => (hx l ⟨a, b⟩).1, fun l h => hx0 l (by omega), fun {osc} hosc => ?_⟩
  unfold loopTo
  refine (loopFT_post (fun k (r : Arr 160 (IEEE m)) => ∀ i, AccNear (ampBelow cur prev (n.toNat + 1)) (2 * k) (ampBelow cur prev k) (r i)
      (∑ l, if l.val < k then x l i else 0)) (by omega) ?_ ?_).mono ?_
  · intro i
    have e : (∑ l : Fin 57, if l.val < 1 then x l i else 0) = 0 := by
      refine Finset.sum_eq_zero fun l _ => ?_
      by_cases h : l.val < 1
      · rw [if_pos h, hx0 l (by omega)]
      · rw [if_neg h]
    rw [e, ampBelow_one]
    refine ⟨0, ⟨false, rfl⟩, ?_, by simp⟩
    have : 0 ≤ accErr (ampBelow cur prev (n.toNat + 1)) (2 * 1) 0 := by unfold accErr; positivity
    simpa using this
  · intro k hk1 hk2 o h3
    have hk : k < 57 := by omega
    have hkn : (k : Int) ≤ n := by omega
    have hs := ampBelow_succ cur prev hk1 hk
    refine ((hx ⟨k, hk⟩ ⟨hk1, hkn⟩).2 hosc (k := 2 * k) (by omega) (ampBelow_nonneg cur prev k)
      (by rw [← hs]; exact ampBelow_mono cur prev (by omega)) (by norm_num at hW ⊢; linarith) h3).mono fun r hr i => ?_
    have e : ∀ l : Fin 57, (if l.val < k + 1 then x l i else 0) = (if l.val < k then x l i else 0) + (if l = (⟨k, hk⟩ : Fin 57) then x ⟨k, hk⟩ i else 0) := by
      intro l
      by_cases e : l = ⟨k, hk⟩
      · subst e
        rw [if_pos (Nat.lt_succ_self k), if_neg (Nat.lt_irrefl k), if_pos rfl, zero_add]
      · have : l.val ≠ k := fun h => e (Fin.ext h)
        rw [if_neg e, add_zero]
        by_cases h : l.val < k
        · rw [if_pos h, if_pos (by omega)]
        · rw [if_neg h, if_neg (by omega)]
    simp only [e]
    rw [Finset.sum_add_distrib, Finset.sum_ite_eq' Finset.univ (⟨k, hk⟩ : Fin 57) (fun _ => x ⟨k, hk⟩ i), if_pos (Finset.mem_univ _), hs]
    exact hr i
  · intro r h3 i
    have e : ∀ l : Fin 57, (if l.val < n.toNat + 1 then x l i else 0) = x l i := by
      intro l
      by_cases h : l.val < n.toNat + 1
      · rw [if_pos h]
      · rw [if_neg h, hx0 l (by omega)]
    have := h3 i
    simp only [e] at this
    exact this.mono (by omega) hW0

/-! ## Phases -/

theorem wrapPhase_near {x : IEEE m} {a : ℝ} (h : Near 0 5632 x a) :
    ∃ J : ℤ, Near (26 / 100000) 6.3 (wrapPhase x : IEEE m) (a - 2 * Real.pi * J) := by
  obtain ⟨q, v, e, hq⟩ := h
  have e : (q : ℝ) = a := by
    have := abs_nonpos_iff.1 e
    linarith
  subst e
  have p1 := Real.pi_gt_d20
  have p2 := Real.pi_lt_d20
  obtain ⟨τ, vτ, t1, _⟩ := twoPi_near (m := m)
  have tlo : (6.28 : ℝ) ≤ τ := by have := (abs_le.1 t1).1; norm_num at this p1 ⊢; linarith
  have thi : (τ : ℝ) ≤ 6.29 := by have := (abs_le.1 t1).2; norm_num at this p2 ⊢; linarith
  have tq : (6.28 : ℚ) ≤ τ := by
    have : ((6.28 : ℚ) : ℝ) ≤ τ := by push_cast; exact tlo
    exact_mod_cast this
  have t0 : (0 : ℚ) < τ := lt_of_lt_of_le (by norm_num) tq
  have t0' : (0 : ℝ) < τ := by exact_mod_cast t0
  have vf : Val (fmod x twoPi : IEEE m) (q - FP.truncQ (q / τ) * τ) := by
    obtain ⟨s, rfl⟩ := v
    obtain ⟨t, ht⟩ := vτ
    rw [ht]
    show Val (if τ = 0 then FP.nan else FP.fin (FP.sgn (FP.fin s q)) (q - FP.truncQ (q / τ) * τ)) _
    rw [if_neg t0.ne']
    exact ⟨_, rfl⟩
  have hr : |q - FP.truncQ (q / τ) * τ| ≤ τ := truncQ_rem t0
  have hi : ∃ J : ℤ, FP.truncQ (q / τ) = (J : ℚ) := ⟨_, rfl⟩
  obtain ⟨J, hJ⟩ := hi
  rw [hJ] at vf hr
  have hr' : |(q : ℝ) - J * τ| ≤ τ := by
    have : ((|q - J * τ| : ℚ) : ℝ) ≤ (τ : ℝ) := by exact_mod_cast hr
    push_cast at this
    exact this
  have Jt : |(J : ℝ) * τ| ≤ 5639 := by
    have := abs_sub_abs_le_abs_sub ((J : ℝ) * τ) (q : ℝ)
    rw [abs_sub_comm] at this
    linarith
  have Jabs : |(J : ℝ)| ≤ 898 := by
    rw [abs_mul, abs_of_pos t0'] at Jt
    by_contra hc
    rw [not_le] at hc
    have : (898 : ℝ) * 6.28 ≤ |(J : ℝ)| * τ := mul_le_mul hc.le tlo (by norm_num) (abs_nonneg _)
    norm_num at this
    linarith
  have kt : |(J : ℝ) * τ - J * (2 * Real.pi)| ≤ 225 / 1000000 := by
    rw [← mul_sub, abs_mul]
    have : |(J : ℝ)| * |(τ : ℝ) - 2 * Real.pi| ≤ 898 * (1 / 4000000) := mul_le_mul Jabs t1 (abs_nonneg _) (by norm_num)
    norm_num at this ⊢
    linarith
  obtain ⟨k1, k2⟩ := abs_le.1 kt
  obtain ⟨r1, r2⟩ := abs_le.1 hr'
  have n1 : Near (225 / 1000000) 6.3 (fmod x twoPi : IEEE m) ((q : ℝ) - 2 * Real.pi * J) := by
    refine ⟨_, vf, ?_, ?_⟩
    · push_cast
      rw [abs_le]
      constructor <;> linarith
    · rw [abs_le]
      norm_num at k1 k2 thi ⊢
      constructor <;> linarith
  unfold wrapPhase
  dsimp only
  have z0 : Val (lit 0 1 : IEEE m) 0 := ⟨false, rfl⟩
  rw [vf.lt z0]
  by_cases hneg : q - J * τ < 0
  · rw [decide_eq_true hneg, if_pos rfl]
    refine ⟨J - 1, ?_⟩
    have hneg' : (q : ℝ) - J * τ < 0 := by
      have : ((q - J * τ : ℚ) : ℝ) < ((0 : ℚ) : ℝ) := by exact_mod_cast hneg
      push_cast at this
      exact this
    have n2 := Near.addr (e := 26 / 100000) (B := 12.6) n1 (twoPi_near (m := m)) (by norm_num) (by norm_num) (by norm_num)
    have e : (q : ℝ) - 2 * Real.pi * J + 2 * Real.pi = q - 2 * Real.pi * ((J - 1 : ℤ) : ℝ) := by push_cast; ring
    rw [e] at n2
    refine n2.shift (by simp) ?_
    rw [← e, abs_le]
    norm_num at k1 k2 p1 p2 thi ⊢
    constructor <;> linarith
  · rw [decide_eq_false hneg, if_neg Bool.false_ne_true]
    exact ⟨J, n1.mono (by norm_num) le_rfl⟩

theorem white_acc0 : rngB (whiteScalar : IEEE libm0) (118271 / 1000000000) (118272 / 1000000000) = true := by decide +kernel

/-- The smooth phase of a harmonic. -/
theorem psi_near {l : Nat} (hl : l ≤ 56) {x cw pw : IEEE m} {a c p : ℝ} (hx : Near 0 5632 x a) (hc : Near 0 (5 / 8) cw c) (hp : Near 0 (5 / 8) pw p) :
    ∃ J : ℤ, Near (2 / 1000) (6.3 + 100 * l) (wrapPhase x +ᶠ ((pw +ᶠ cw) *ᶠ (ofInt ((l : Int) * 160) /ᶠ lit 2 1)) : IEEE m)
      (a - 2 * Real.pi * J + l * (p + c) * 80) := by
  have hl' : (l : ℝ) ≤ 56 := by exact_mod_cast hl
  have hl0 : (0 : ℝ) ≤ l := Nat.cast_nonneg l
  obtain ⟨J, h1⟩ := wrapPhase_near hx
  refine ⟨J, ?_⟩
  have d2 := Near.addr (e := 8 / 100000000) (B := 5 / 4) hp hc (by norm_num) (by norm_num) (by norm_num)
  have hi : Near 0 (160 * l) (ofInt ((l : Int) * 160) : IEEE m) (l * 160) := by
    have := near_int (m := m) (n := (l : Int) * 160) (by rw [abs_of_nonneg (by omega)]; omega) (B := 160 * l)
      (by rw [abs_of_nonneg (by positivity)]; push_cast; linarith)
    push_cast at this
    exact this
  have d3 := Near.divc (e := 27 / 100000) (B := 80 * l) hi (two_val (m := m)) (by norm_num) (by norm_num; linarith) (by norm_num; linarith)
    (by norm_num; linarith)
  have d4 := Near.mulr (e := 11 / 10000) (B := 100 * l) d2 d3 (by linarith) (by norm_num; linarith) (by norm_num; linarith)
  have d5 := Near.addr (e := 2 / 1000) (B := 6.3 + 100 * l) h1 d4 (by linarith) (by norm_num; linarith) (by norm_num; linarith)
  have e : a - 2 * Real.pi * J + (p + c) * (l * 160 / ((2 : ℚ) : ℝ)) = a - 2 * Real.pi * J + l * (p + c) * 80 := by push_cast; ring
  rw [e] at d5
  exact d5

theorem Near.bnd {e B : ℝ} {x : IEEE m} {y : ℝ} (h : Near e B x y) {b : ℚ} (hb : e + B ≤ b) : Bnd x b := by
  obtain ⟨q, v, h1, h2⟩ := h
  refine ⟨q, v, ?_⟩
  have := abs_sub_abs_le_abs_sub (q : ℝ) y
  have : ((|q| : ℚ) : ℝ) ≤ (b : ℝ) := by push_cast; linarith
  exact_mod_cast this

theorem Near.number {e B : ℝ} {x : IEEE m} {y : ℝ} (h : Near e B x y) : |number x - y| ≤ e := by
  obtain ⟨q, v, h1, _⟩ := h
  rw [Val.number v]
  exact h1

/-- The random part of a phase. -/
theorem jitter_near {nuv L : Int} (hL : 9 ≤ L) (hL' : L ≤ 56) (hu : 0 ≤ nuv) (hu' : nuv ≤ L + 1) {z : IEEE m} {ζ : ℝ} (hz : Near 0 65536 z ζ) :
    Near (1 / 10000) 13 ((ofInt nuv *ᶠ ((whiteScalar *ᶠ z) -ᶠ fpi)) /ᶠ ofInt L : IEEE m) (nuv / L * (2 * Real.pi / 53125 * ζ - Real.pi)) := by
  have hw : Near (1 / 1000000000) (12 / 100000) (whiteScalar : IEEE m) (2 * Real.pi / 53125) := by
    have : rngB (whiteScalar : IEEE m) (118271 / 1000000000) (118272 / 1000000000) = true := white_acc0
    obtain ⟨q, v, h1, h2⟩ := rng_of this
    have p1 := Real.pi_gt_d20
    have p2 := Real.pi_lt_d20
    have h1' : ((118271 / 1000000000 : ℚ) : ℝ) ≤ q := by exact_mod_cast h1
    have h2' : (q : ℝ) ≤ ((118272 / 1000000000 : ℚ) : ℝ) := by exact_mod_cast h2
    push_cast at h1' h2'
    refine ⟨q, v, ?_, ?_⟩
    · rw [abs_le]; constructor <;> norm_num at h1' h2' p1 p2 ⊢ <;> linarith
    · rw [abs_of_pos (by positivity)]; norm_num at p2 ⊢; linarith
  have hLr : (9 : ℝ) ≤ L := by exact_mod_cast hL
  have hLr' : (L : ℝ) ≤ 56 := by exact_mod_cast hL'
  have hur : (0 : ℝ) ≤ nuv := by exact_mod_cast hu
  have hur' : (nuv : ℝ) ≤ L + 1 := by exact_mod_cast hu'
  have j1 := Near.mulr (e := 7 / 100000) (B := 7.87) hw hz (by norm_num) (by norm_num) (by norm_num)
  have j2 := Near.subr (e := 8 / 100000) (B := 11.1) j1 (fpi_near (m := m)) (by norm_num) (by norm_num) (by norm_num)
  have nu : Near 0 (L + 1) (ofInt nuv : IEEE m) nuv :=
    near_int (by rw [abs_of_nonneg hu]; omega) (by rw [abs_of_nonneg hur]; exact hur')
  have j3 := Near.mulr (e := 82 / 1000000 * (L + 1)) (B := 11.1 * (L + 1)) nu j2 (by linarith) (by norm_num; linarith) (by norm_num; linarith)
  have vL : Val (ofInt L : IEEE m) (L : ℚ) := Val.ofInt (by rw [abs_of_nonneg (by omega)]; omega)
  have hLq : (0 : ℚ) < L := by exact_mod_cast (by omega : (0 : Int) < L)
  have hLp : (0 : ℝ) < L := by linarith
  have g : (L + 1 : ℝ) / L ≤ 10 / 9 := by
    rw [div_le_iff₀ hLp]
    linarith
  have g2 : (82 / 1000000 * ((L : ℝ) + 1)) / L ≤ 82 / 1000000 * (10 / 9) := by
    rw [mul_div_assoc]
    exact mul_le_mul_of_nonneg_left g (by norm_num)
  have g3 : (11.1 * ((L : ℝ) + 1)) / L ≤ 13 := by
    rw [mul_div_assoc]
    refine (mul_le_mul_of_nonneg_left g (by norm_num)).trans ?_
    norm_num
  have j4 := Near.divc (e := 1 / 10000) (B := 13) j3 vL hLq (by push_cast; exact g3) (by push_cast; norm_num at g2 ⊢; linarith)
    (by push_cast; norm_num at g2 ⊢; linarith)
  have e : (nuv : ℝ) * (2 * Real.pi / 53125 * ζ - Real.pi) / ((L : ℚ) : ℝ) = nuv / L * (2 * Real.pi / 53125 * ζ - Real.pi) := by push_cast; ring
  rw [e] at j4
  exact j4

end Verif.Model
