import Verif.Lemmas.UnvoicedBlock
import Verif.Lemmas.VoicedSimd
import Verif.Lemmas.SimdSafe
import Verif.Lemmas.IvlRun
import Verif.Props.VecAccuracy

/-!
# Unvoiced synthesis of the vector build in binary32
-/

namespace Verif.Model
open Verif Verif.Gen Verif.Spec Verif.Num Arith
variable {m : Libm}

theorem fftNear_vec (hcos : CosAcc m) (hsin : SinAcc m) {E : Env (IEEE m)} (hE : RunsV E) : FftNear E := by
  intro R hR B hB hb a b h j
  have k := Vec.outV_near hcos hsin hB hb h j
  rw [← (Props.runsV_eq hE).1, ← (Props.runsV_eq hE).2] at k
  have hR' := (Props.C70_same R).2 hR
  rw [← (Props.runsV_eq hR').1, ← (Props.runsV_eq hR').2] at k
  exact k

/-! ## Power of a band -/

/-- A sum of squares after `n` levels of additions, with at most `c` terms. -/
def SN (n c : ℕ) (x : IEEE m) (r : ℝ) : Prop :=
  Near (n / 2 ^ 23 * r + n * c / 2 ^ 146) r x r ∧ 0 ≤ r ∧ r ≤ c * 2 ^ 60

theorem SN.mono {n n' c c' : ℕ} {x : IEEE m} {r : ℝ} (h : SN n c x r) (hn : n ≤ n') (hc : c ≤ c') : SN n' c' x r := by
  obtain ⟨h1, h2, h3⟩ := h
  have a : (n : ℝ) ≤ n' := by exact_mod_cast hn
  have b : (c : ℝ) ≤ c' := by exact_mod_cast hc
  have a0 : (0 : ℝ) ≤ n := Nat.cast_nonneg _
  have b0 : (0 : ℝ) ≤ c := Nat.cast_nonneg _
  have p := mul_le_mul_of_nonneg_right a h2
  have q := mul_le_mul a b b0 (a0.trans a)
  refine ⟨h1.mono ?_ le_rfl, h2, h3.trans ?_⟩
  · norm_num
    linarith
  · norm_num
    linarith

theorem SN.zero : SN 0 0 (lit 0 1 : IEEE m) (lit 0 1 : ℝ) := by
  rw [litZero_r]
  exact ⟨⟨0, zero_val, by norm_num, by norm_num⟩, le_rfl, by norm_num⟩

theorem SN.add {n c d : ℕ} {x y : IEEE m} {r s : ℝ} (h : SN n c x r) (h' : SN n d y s) (hn : n ≤ 127) (hc : 1 ≤ c + d) (hc' : c + d ≤ 512) :
    SN (n + 1) (c + d) (x +ᶠ y : IEEE m) (r +ᶠ s : ℝ) := by
  obtain ⟨h1, h2, h3⟩ := h
  obtain ⟨g1, g2, g3⟩ := h'
  have a0 : (0 : ℝ) ≤ n := Nat.cast_nonneg _
  have a1 : (n : ℝ) ≤ 127 := by exact_mod_cast hn
  have c0 : (0 : ℝ) ≤ c := Nat.cast_nonneg _
  have d0 : (0 : ℝ) ≤ d := Nat.cast_nonneg _
  have c1 : (1 : ℝ) ≤ c + d := by exact_mod_cast hc
  have c2 : (c : ℝ) + d ≤ 512 := by exact_mod_cast hc'
  have p1 := mul_le_mul_of_nonneg_right a1 h2
  have p2 := mul_le_mul_of_nonneg_right a1 g2
  have p3 := mul_le_mul_of_nonneg_right a1 c0
  have p4 := mul_le_mul_of_nonneg_right a1 d0
  have q1 := mul_nonneg a0 h2
  have q2 := mul_nonneg a0 g2
  have q3 := mul_nonneg a0 c0
  have q4 := mul_nonneg a0 d0
  rw [SN, Nat.cast_succ, Nat.cast_add]
  refine ⟨?_, by rw [RealArith.add_r]; exact add_nonneg h2 g2, by rw [RealArith.add_r, add_mul]; exact add_le_add h3 g3⟩
  generalize (n : ℝ) = N at *
  generalize (c : ℝ) = C at *
  generalize (d : ℝ) = D at *
  have e : (r +ᶠ s : ℝ) = r + s := RealArith.add_r _ _
  refine Near.add h1 g1 (le_of_eq e.symm) ?_ ?_
  · rw [e]
    norm_num at *
    linarith
  · rw [e]
    norm_num at *
    linarith

theorem SN.add' {j k n c d : ℕ} {x y : IEEE m} {r s : ℝ} (h : SN j c x r) (h' : SN k d y s) (hj : j ≤ n) (hk : k ≤ n) (hn : n ≤ 127) (hc : 1 ≤ c + d)
    (hc' : c + d ≤ 512) : SN (n + 1) (c + d) (x +ᶠ y : IEEE m) (r +ᶠ s : ℝ) := (h.mono hj le_rfl).add (h'.mono hk le_rfl) hn hc hc'

/-- The number and its value. -/
def IsVal (x : IEEE m) (r : ℝ) : Prop := ∃ q : ℚ, Val x q ∧ r = q ∧ |r| ≤ 2 ^ 30

theorem SN.sq {x : IEEE m} {r : ℝ} (h : IsVal x r) : SN 1 1 (x *ᶠ x : IEEE m) (r *ᶠ r : ℝ) := by
  obtain ⟨q, v, rfl, hb⟩ := h
  have e : ((q : ℝ) *ᶠ (q : ℝ) : ℝ) = (q : ℝ) ^ 2 := by rw [RealArith.mul_r, _root_.sq]
  have n := sq_near v hb
  rw [← _root_.sq] at n
  have s := sq_nonneg (q : ℝ)
  rw [SN, e, Nat.cast_one]
  refine ⟨n.mono ?_ le_rfl, s, ?_⟩
  · norm_num
    linarith
  · rw [← sq_abs]
    calc |(q : ℝ)| ^ 2 ≤ (2 ^ 30) ^ 2 := pow_le_pow_left₀ (abs_nonneg _) hb 2
      _ ≤ _ := by norm_num

/-- Lane by lane. -/
def RV4 {α β : Type} (R : α → β → Prop) (v : V4 α) (w : V4 β) : Prop := R v.a w.a ∧ R v.b w.b ∧ R v.c w.c ∧ R v.d w.d

theorem RArr.rd4 {n : Nat} {α β : Type} {R : α → β → Prop} {a : Arr n α} {b : Arr n β} (h : RArr R a b) (i : Int) :
    RelE (RV4 R) (Arr.rd4 a i) (Arr.rd4 b i) :=
  RelE.bind (h.rd _) fun _ _ h1 => RelE.bind (h.rd _) fun _ _ h2 => RelE.bind (h.rd _) fun _ _ h3 => RelE.bind (h.rd _) fun _ _ h4 =>
    RelE.ok ⟨h1, h2, h3, h4⟩

/-- A loop with a relation that depends on the number of rounds. -/
theorem RelE.loopI {α β : Type} {n : Nat} (R : ℕ → α → β → Prop) {f : Nat → α → Exec α} {g : Nat → β → Exec β} {s : α} {t : β} (h : R 0 s t)
    (hs : ∀ i a b, i < n → R i a b → RelE (R (i + 1)) (f i a) (g i b)) : RelE (R n) (Verif.loop n f s) (Verif.loop n g t) := by
  have key : ∀ k, k ≤ n → RelE (R k) (Verif.loop k f s) (Verif.loop k g t) := by
    intro k
    induction k with
    | zero => exact fun _ => RelE.ok h
    | succ k ih => exact fun hk => by rw [loop_succ, loop_succ]; exact RelE.bind (ih (by omega)) fun a b r => hs k a b hk r
  exact key n le_rfl

theorem hsumMag_near (isa : Isa) {n c : ℕ} {v : V4 (IEEE m)} {w : V4 ℝ} (h : RV4 (SN n c) v w) (hn : n ≤ 126) (hc : 1 ≤ c) (hc' : c ≤ 128) :
    SN (n + 2) (4 * c) (hsumMag isa v) (hsumMag isa w) := by
  obtain ⟨h1, h2, h3, h4⟩ := h
  cases isa
  · exact ((h1.add h2 (by omega) (by omega) (by omega)).add (h4.add h3 (by omega) (by omega) (by omega)) (by omega) (by omega) (by omega)).mono le_rfl (by omega)
  · exact ((h1.add h3 (by omega) (by omega) (by omega)).add (h2.add h4 (by omega) (by omega) (by omega)) (by omega) (by omega) (by omega)).mono le_rfl (by omega)

theorem magSumSimd_rel (isa : Isa) {fft : Arr 256 (IEEE m)} {X : Arr 256 ℝ} (h : RArr IsVal fft X) {a b : Int} (ha : 0 ≤ a) (hb : b ≤ 128) :
    RelE (SN 80 264) (magSumSimd isa fft a b) (magSumSimd isa X a b) := by
  unfold magSumSimd
  by_cases hba : b ≤ a
  · rw [if_pos hba, if_pos hba]
    exact RelE.ok (SN.zero.mono (by omega) (by omega))
  rw [if_neg hba, if_neg hba]
  refine RelE.bind (R := fun p q => SN 2 1 p.1 q.1 ∧ p.2 = q.2 ∧ 0 ≤ q.2) ?_ ?_
  · by_cases h0 : a = 0
    · rw [if_pos h0, if_pos h0]
      refine RelE.bind (h.rd 0) fun x r hx => RelE.ok ⟨?_, rfl, Int.one_nonneg⟩
      exact (SN.zero.add' (SN.sq hx) (n := 1) (by omega) le_rfl (by omega) (by omega) (by omega))
    · rw [if_neg h0, if_neg h0]
      exact RelE.ok ⟨SN.zero.mono (by omega) (by omega), rfl, ha⟩
  rintro ⟨sx, st⟩ ⟨sr, st'⟩ ⟨hs, e, h0⟩
  dsimp only at hs e h0 ⊢
  subst e
  rw [show decide (b > 128) = false from decide_eq_false (by omega)]
  simp only [Bool.false_eq_true, if_false]
  have hq : (b - st).toNat / 4 ≤ 32 := by omega
  have hr : (b - st).toNat - 4 * ((b - st).toNat / 4) ≤ 3 := by omega
  generalize (b - st).toNat / 4 = q at *
  refine RelE.bind (R := SN 69 257) ?_ fun u v huv => RelE.bind (R := SN 80 264) ?_ fun _ _ k => RelE.ok k
  · by_cases h4 : (b - st).toNat ≥ 4
    · rw [if_pos h4, if_pos h4]
      refine RelE.bind (RelE.loopI (fun k => RV4 (SN (2 * k + 1) (2 * k))) ?_ fun k v w hk hv => ?_) fun v w hv => RelE.ok ?_
      · have z : SN (2 * 0 + 1) (2 * 0) (lit 0 1 : IEEE m) (lit 0 1 : ℝ) := SN.zero.mono (by omega) (by omega)
        exact ⟨z, z, z, z⟩
      · refine RelE.bind (h.rd4 _) fun v0 w0 k0 => RelE.bind (h.rd4 _) fun v1 w1 k1 => RelE.ok ?_
        have step : ∀ {x y z : IEEE m} {x' y' z' : ℝ}, SN (2 * k + 1) (2 * k) x x' → IsVal y y' → IsVal z z' →
            SN (2 * (k + 1) + 1) (2 * (k + 1)) ((x +ᶠ (y *ᶠ y)) +ᶠ (z *ᶠ z) : IEEE m) ((x' +ᶠ (y' *ᶠ y')) +ᶠ (z' *ᶠ z') : ℝ) := fun a b c =>
          (((a.add' (SN.sq b) (n := 2 * k + 1) le_rfl (by omega) (by omega) (by omega) (by omega)).add' (SN.sq c) (n := 2 * k + 2) (by omega) (by omega)
            (by omega) (by omega) (by omega)).mono (by omega) (by omega))
        exact ⟨step hv.1 k0.1 k1.1, step hv.2.1 k0.2.1 k1.2.1, step hv.2.2.1 k0.2.2.1 k1.2.2.1, step hv.2.2.2 k0.2.2.2 k1.2.2.2⟩
      · have k : SN 68 256 (hsumMag isa v) (hsumMag isa w) := by
          have f : ∀ {x : IEEE m} {r : ℝ}, SN (2 * q + 1) (2 * q) x r → SN 66 64 x r := fun a => a.mono (by omega) (by omega)
          exact (hsumMag_near isa (n := 66) (c := 64) ⟨f hv.1, f hv.2.1, f hv.2.2.1, f hv.2.2.2⟩ (by omega) (by omega) (by omega)).mono (by omega) (by omega)
        exact (hs.add' k (n := 68) (by omega) le_rfl (by omega) (by omega) (by omega)).mono (by omega) (by omega)
    · rw [if_neg h4, if_neg h4]
      exact RelE.ok (hs.mono (by omega) (by omega))
  · refine RelE.mono (RelE.loopI (fun k => SN (69 + k) (257 + 2 * k)) huv fun k x r hk hx => ?_) fun x r k => k.mono (by omega) (by omega)
    refine RelE.bind (h.rd _) fun y y' hy => RelE.bind (h.rd _) fun z z' hz => RelE.ok ?_
    exact (hx.add' ((SN.sq hy).add (SN.sq hz) (by omega) (by omega) (by omega)) (n := 69 + k) le_rfl (by omega) (by omega) (by omega) (by omega)).mono
      (by omega) (by omega)

/-- The power of a band that the vector build computes. -/
noncomputable def powSimd (isa : Isa) (fft : Arr 256 (IEEE m)) (a b : Int) : IEEE m :=
  match magSumSimd isa fft a b with
  | .ok v => v
  | .error _ => fi 0

theorem powSimd_eq (isa : Isa) (fft : Arr 256 (IEEE m)) {a b : Int} (ha : 0 ≤ a) (hb : b ≤ 128) :
    magSumSimd isa fft a b = .ok (powSimd isa fft a b) := by
  obtain ⟨v, h, _⟩ := magSumSimd_fine isa fft ha hb
  unfold powSimd
  rw [h]

theorem powSimd_near (isa : Isa) : PowerNear (m := m) (powSimd isa) := by
  intro fft x hv hx a b hb
  have hX : RArr IsVal fft (fun i => (x i : ℝ)) := fun i => ⟨x i, hv i, rfl, hx i⟩
  have e : magSumSimd isa (fun i => (x i : ℝ)) (a : Int) (b : Int) = .ok (powerOf (binAt fun i => (x i : ℝ)) a b) := by
    rw [magSumSimd_eq isa _ (by omega), magSum_eq _ (by omega) (by omega), bandPower_bins _ hb]
    rfl
  obtain ⟨v, h1, h2, h3, _⟩ := magSumSimd_rel isa hX (a := a) (b := b) (by omega) (by omega) _ e
  have : powSimd isa fft a b = v := by
    unfold powSimd
    rw [h1]
  rw [this]
  refine h2.mono ?_ le_rfl
  push_cast
  norm_num
  linarith

/-! ## Gains -/

theorem gainW_step {pw : Int → Int → IEEE m} {Vl : Arr 57 Int} {Ml : Arr 57 (IEEE m)} {lo hi : Nat → Int} {n k : Nat} {v : IEEE m}
    (h : GainW pw Vl Ml lo hi n k v) (hn : ∀ h : n + 1 < 57, ∀ v', ¬ OwnsW pw Vl Ml lo hi ⟨n + 1, h⟩ k v') :
    GainW pw Vl Ml lo hi (n + 1) k v := by
  rcases h with ⟨h1, h2⟩ | ⟨l, h1, h2, h3, h4⟩
  · refine .inl ⟨h1, fun l g1 g2 v' => ?_⟩
    by_cases e : l.val = n + 1
    · have : l = ⟨n + 1, by omega⟩ := Fin.ext e
      rw [this]; exact hn _ v'
    · exact h2 l g1 (by omega) v'
  · refine .inr ⟨l, h1, by omega, h3, fun l' g1 g2 v' => ?_⟩
    by_cases e : l'.val = n + 1
    · have : l' = ⟨n + 1, by omega⟩ := Fin.ext e
      rw [this]; exact hn _ v'
    · exact h4 l' g1 (by omega) v'

theorem binScalorsSimd_gains (isa : Isa) {L : Int} (hL : L ≤ 56) (Vl : Arr 57 Int) (Ml : Arr 57 (IEEE m)) (fft : Arr 256 (IEEE m))
    {e : Loc 57 Int × Loc 57 Int} {lo hi : Nat → Int} (h : EdgeIs L e lo hi) :
    Ok (binScalorsSimd isa L Vl Ml fft e.1 e.2) fun S => ∀ k : Fin 129, GainW (powSimd isa fft) Vl Ml lo hi L.toNat k.val (S k) := by
  unfold binScalorsSimd loopTo
  by_cases h0 : L ≤ 0
  · have : L.toNat = 0 := by omega
    rw [this]
    exact Ok.ok fun k => .inl ⟨rfl, fun l h1 h2 => by omega⟩
  refine (loopFT_inv (lo := 1) (hi := L.toNat)
    (fun n (S : Arr 129 (IEEE m)) => ∀ k : Fin 129, GainW (powSimd isa fft) Vl Ml lo hi (n - 1) k.val (S k)) (by omega)
    (fun k => .inl ⟨rfl, fun l h1 h2 => by omega⟩) ?_).mono fun S hS => hS
  intro l h1 h2 S hS
  obtain ⟨e1, e2, ha, hb⟩ := h ⟨l, by omega⟩ h1 (by show (l : Int) ≤ L; omega)
  dsimp only at e1 e2 ha hb
  have hl : l < 57 := by omega
  rw [show l + 1 - 1 = (l - 1) + 1 by omega]
  have stp : ∀ k : Fin 129, (∀ v', ¬ OwnsW (powSimd isa fft) Vl Ml lo hi ⟨l, hl⟩ k.val v') →
      GainW (powSimd isa fft) Vl Ml lo hi (l - 1 + 1) k.val (S k) := by
    intro k hk
    refine gainW_step (hS k) fun h => ?_
    have : (⟨l - 1 + 1, h⟩ : Fin 57) = ⟨l, hl⟩ := Fin.ext (by show l - 1 + 1 = l; omega)
    rw [this]
    exact hk
  rw [Arr.rd_nat hl, ok_bind]
  refine Ok.ite (fun hv => ?_) fun hv => Ok.ok fun k => stp k fun v' ho => hv ho.1
  rw [Loc.rd_nat hl e1, ok_bind, Loc.rd_nat hl e2, ok_bind, powSimd_eq isa fft ha hb, ok_bind]
  refine Ok.ite (fun hc => ?_) fun hc => Ok.ok fun k => stp k fun v' ho => ?_
  · rw [Arr.rd_nat hl, ok_bind, fillRange _ ha (by omega)]
    refine Ok.ok fun k => ?_
    by_cases hk : lo l ≤ (k.val : Int) ∧ (k.val : Int) < hi l
    · rw [if_pos hk]
      refine .inr ⟨⟨l, hl⟩, h1, by show l ≤ _; omega, ⟨hv, hk.1, hk.2, hc.2, rfl⟩, fun l' g1 g2 => ?_⟩
      have : l < l'.val := g1
      omega
    · rw [if_neg hk]
      exact stp k fun v' ho => hk ⟨ho.2.1, ho.2.2.1⟩
  · obtain ⟨_, f3, f4, f5, _⟩ := ho
    dsimp only at f3 f4 f5
    exact hc ⟨by omega, f5⟩

theorem unvoicedSimd_blockW (isa : Isa) (E : Env (IEEE m)) (P : Plan (IEEE m)) (noise : Arr 256 (IEEE m)) (cur prev : Parms (IEEE m))
    (out : Arr 160 (IEEE m)) (hL : cur.L ≤ 56) :
    Post (unvoicedSimd isa E P noise cur prev out) fun r => BlockW (powSimd isa) E noise cur r.2 := by
  unfold unvoicedSimd
  rw [windowNoise_eq, ok_bind]
  refine Post.bind (bandEdges_eq cur.w0 hL) ?_
  rintro e ⟨lo, hi, he, hed⟩
  refine Post.bind (binScalorsSimd_gains isa hL cur.Vl cur.Ml _ he).post fun S hS => ?_
  rw [scaleBins_eq, ok_bind, normalizeSimd_eq, normalize_eq, ok_bind]
  intro r hr
  obtain ⟨o, ho, h⟩ := bind_ok hr
  rw [← ok_inj h]
  exact ⟨lo, hi, S, hed, hS, rfl⟩

theorem unvoicedSimd_shape (hcos : CosAcc m) (hsin : SinAcc m) (isa : Isa) {E : Env (IEEE m)} (hE : RunsV E) {P : Plan (IEEE m)} {noise : Arr 256 (IEEE m)}
    {cur prev : Parms (IEEE m)} {out : Arr 160 (IEEE m)} (hL : cur.L ≤ 56) (hw : ∃ q, Val cur.w0 q ∧ (q = 0 ∨ 1 / 64 ≤ q) ∧ q ≤ 5 / 8)
    (hn : ∀ i, Bnd (noise i) (2 ^ 16)) {A : ℚ} (hA0 : 0 ≤ A) (hA1 : A ≤ 2 ^ 32) (hA : UnvoicedBnd A cur) :
    Post (unvoicedSimd isa E P noise cur prev out) fun r => (∀ i, ∃ q, Val (r.2 i) q) ∧
      ShapedNoise (A / 10 + 1 / 2 ^ 80) (valuesOf cur) (windowed noise) (seqOf fun n => number (r.2 n)) :=
  fun r hr => shape_of (powSimd_near isa) (fftNear_vec hcos hsin hE) hL hw hn hA0 hA1 hA (unvoicedSimd_blockW isa E P noise cur prev out hL r hr)

end Verif.Model
