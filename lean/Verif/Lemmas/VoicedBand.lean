import Verif.Lemmas.VoicedGlide

/-!
# Rounding errors of one harmonic and of their sum
-/

namespace Verif.Model
open Verif Verif.Gen Verif.Spec Verif.Num Arith
variable {m : Libm}

theorem tenth_acc0 : rngB (lit 1 10 : IEEE libm0) (1 / 10 - 1 / 2 ^ 27) (1 / 10 + 1 / 2 ^ 27) = true := by decide +kernel

/-- The comparison of the change of the fundamental with a tenth of it. -/
theorem useInterp_near {cw pw : IEEE m} {c p : ℚ} (hc : Val cw c) (hp : Val pw p) (c0 : c = 0 ∨ 1 / 64 ≤ c) (c1 : c ≤ 5 / 8) (p0 : 0 ≤ p) (p1 : p ≤ 5 / 8)
    (l : Nat) : (useInterp l cw pw = true → l < 8 ∧ |(c : ℝ) - p| < (1 / 10 + 1 / 2 ^ 20) * c) ∧
      (l < 8 → |(c : ℝ) - p| < (1 / 10 - 1 / 2 ^ 20) * c → useInterp l cw pw = true) := by
  have ht : rngB (lit 1 10 : IEEE m) (1 / 10 - 1 / 2 ^ 27) (1 / 10 + 1 / 2 ^ 27) = true := tenth_acc0
  obtain ⟨t, vt, t1, t2⟩ := rng_of ht
  have cn : 0 ≤ c := by rcases c0 with h | h <;> linarith
  have cp : |c - p| ≤ 1 := by rw [abs_le]; constructor <;> linarith
  have big : (1 : ℚ) ≤ Val.big := le_trans (by norm_num) big_ge
  have vd := hc.sub hp (cp.trans big)
  have tc0 : 0 ≤ t * c := mul_nonneg (by norm_num at t1 ⊢; linarith) (by linarith)
  have tc1 : t * c ≤ 1 := by
    have : t * c ≤ 1 * 1 := mul_le_mul (by norm_num at t2 ⊢; linarith) (by linarith) (by linarith) (by norm_num)
    linarith
  have vp := vt.mul hc (by rw [abs_of_nonneg tc0]; exact tc1.trans big)
  have e1 := rnd32_err (c - p)
  have e2 := rnd32_err (t * c)
  have uz : c = 0 → rnd F32 (t * c) = 0 := fun h => by rw [h, mul_zero, rnd_zero]
  generalize rnd F32 (c - p) = d at vd e1
  generalize rnd F32 (t * c) = u at vp e2 uz
  have va : Val (abs (cw -ᶠ pw) : IEEE m) |d| := by
    obtain ⟨s, hs⟩ := vd
    rw [show (abs (cw -ᶠ pw) : IEEE m) = abs (F := IEEE m) (FP.fin s d) from congrArg _ hs]
    exact ⟨_, rfl⟩
  have hlt : (lt (abs (cw -ᶠ pw)) (lit 1 10 *ᶠ cw) : Bool) = decide (|d| < u) := va.lt vp
  rw [p24, abs_of_nonneg tc0] at e2
  rw [p24] at e1
  have k150 := p150
  have d1 : |d| ≤ |c - p| + (1 / 16777216 * |c - p| + pow2 (-150)) := by
    have := abs_sub_abs_le_abs_sub d (c - p)
    linarith
  have d2 : |c - p| ≤ |d| + (1 / 16777216 * |c - p| + pow2 (-150)) := by
    have := abs_sub_abs_le_abs_sub (c - p) d
    rw [abs_sub_comm (c - p) d] at this
    linarith
  obtain ⟨u1, u2⟩ := abs_le.1 e2
  have tcl : (1 / 10 - 1 / 2 ^ 27) * c ≤ t * c := mul_le_mul_of_nonneg_right t1 (by linarith)
  have tch : t * c ≤ (1 / 10 + 1 / 2 ^ 27) * c := mul_le_mul_of_nonneg_right t2 (by linarith)
  unfold useInterp
  rw [Bool.and_eq_true, decide_eq_true_iff, hlt, decide_eq_true_iff]
  rcases c0 with c0 | c0
  · constructor
    · rintro ⟨_, h2⟩
      rw [uz c0] at h2
      exact absurd h2 (not_lt.2 (abs_nonneg _))
    · intro _ h2
      rw [c0, Rat.cast_zero, mul_zero] at h2
      exact absurd h2 (not_lt.2 (abs_nonneg _))
  constructor
  · rintro ⟨h1, h2⟩
    refine ⟨h1, ?_⟩
    have : |c - p| < (1 / 10 + 1 / 2 ^ 20) * c := by
      norm_num at d1 d2 u1 u2 tcl tch k150 h2 c0 c1 ⊢
      linarith
    have : ((|c - p| : ℚ) : ℝ) < (((1 / 10 + 1 / 2 ^ 20) * c : ℚ) : ℝ) := by exact_mod_cast this
    push_cast at this
    exact this
  · intro h1 h2
    refine ⟨h1, ?_⟩
    have : ((|c - p| : ℚ) : ℝ) < (((1 / 10 - 1 / 2 ^ 20) * c : ℚ) : ℝ) := by push_cast; exact h2
    have : |c - p| < (1 / 10 - 1 / 2 ^ 20) * c := by exact_mod_cast this
    norm_num at d1 d2 u1 u2 tcl tch k150 this c0 c1 ⊢
    linarith

theorem AccNear.mono {W T : ℝ} {j k : Nat} {o : IEEE m} {X : ℝ} (h : AccNear W j T o X) (hjk : j ≤ k) (hW : 0 ≤ W) : AccNear W k T o X := by
  refine Near.mono h ?_ le_rfl
  unfold accErr
  have : (j : ℝ) ≤ k := by exact_mod_cast hjk
  have g : 0 ≤ W / 2 ^ 21 + 1 / 2 ^ 100 := by positivity
  have := mul_le_mul_of_nonneg_right this g
  linarith

/-- The amplitude of harmonic `l`, 0 if it is unvoiced. -/
noncomputable def voicedAmp (p : Parms (IEEE m)) (l : Fin 57) : ℝ := if p.Vl l = 1 then |number (p.Ml l)| else 0

theorem voicedAmp_nonneg (p : Parms (IEEE m)) (l : Fin 57) : 0 ≤ voicedAmp p l := by
  unfold voicedAmp
  split
  · exact abs_nonneg _
  · exact le_rfl

theorem ml_near {p : Parms (IEEE m)} {l : Fin 57} (hv : p.Vl l = 1) (h : Bnd (p.Ml l) (2 ^ 32)) :
    Near 0 (voicedAmp p l) (p.Ml l) (number (p.Ml l)) ∧ voicedAmp p l ≤ 2 ^ 32 := by
  obtain ⟨q, v, e, hq⟩ := bnd_number h
  unfold voicedAmp
  rw [if_pos hv]
  refine ⟨⟨q, v, by rw [e]; simp, le_rfl⟩, ?_⟩
  push_cast at hq
  exact hq

theorem pow26_of {q : ℚ} {b : ℝ} (h : |(q : ℝ)| ≤ b) (hb : b ≤ 2 ^ 26) : |q| ≤ pow2 26 := by
  rw [pow2_eq]
  have : ((|q| : ℚ) : ℝ) ≤ ((2 ^ (26 : ℤ) : ℚ) : ℝ) := by
    push_cast
    refine (h.trans hb).trans ?_
    norm_num
  exact_mod_cast this

/-- The contribution of a harmonic with a given oscillator. -/
def voicedBandWith (osc : Nat → IEEE m → IEEE m → IEEE m → IEEE m → IEEE m → Arr 160 (IEEE m) → Exec (Arr 160 (IEEE m)))
    (cw0 pw0 : IEEE m) (cur prev : Parms (IEEE m)) (l : Nat) (out : Arr 160 (IEEE m)) : Exec (Arr 160 (IEEE m)) := do
  let cv := decide ((← cur.Vl.rd l) = 1)
  let pv := decide ((← prev.Vl.rd l) = 1)
  let cw0l := cw0 *ᶠ ofInt (l : Int)
  let pw0l := pw0 *ᶠ ofInt (l : Int)
  if cv || pv then
    if cv && pv && useInterp l cw0 pw0 then interpBand l cw0 pw0 cur prev out
    else do
      let out ← (if pv then do
          let ph ← prev.PHIl.rd l
          osc 160 (← prev.Ml.rd l) (sin pw0l) (cos pw0l) (sin ph) (cos ph) out
        else .ok out)
      if cv then do
        let ph := (← cur.PHIl.rd l) -ᶠ (cw0l *ᶠ ofInt 160)
        osc 0 (← cur.Ml.rd l) (sin cw0l) (cos cw0l) (sin ph) (cos ph) out
      else .ok out
  else .ok out

theorem voicedBand_with : (voicedBand (F := IEEE m)) = voicedBandWith windowedOsc := rfl

/-- One harmonic: its exact contribution does not depend on the oscillator. -/
theorem voicedBand_near (hm : TrigAcc m) {l : Fin 57} {cur prev : Parms (IEEE m)}
    {c p : ℚ} (hc : Val cur.w0 c) (hp : Val prev.w0 p) (c0 : c = 0 ∨ 1 / 64 ≤ c) (c1 : c ≤ 5 / 8) (p0 : 0 ≤ p) (p1 : p ≤ 5 / 8)
    (h1 : Bnd (cur.PHIl l) (32 + 100 * l.val)) (h0 : Bnd (prev.PHIl l) (32 + 100 * l.val)) (hC : cur.Vl l = 1 → Bnd (cur.Ml l) (2 ^ 32))
    (hP : prev.Vl l = 1 → Bnd (prev.Ml l) (2 ^ 32)) :
    ∃ x : Fin 160 → ℝ, ContributionWithin (1 / 2 ^ 20) (1 / 1000) (valuesOf cur) (valuesOf prev) l x ∧
      ∀ {osc : Nat → IEEE m → IEEE m → IEEE m → IEEE m → IEEE m → Arr 160 (IEEE m) → Exec (Arr 160 (IEEE m))}, OscNear osc →
      ∀ {k : Nat} {out : Arr 160 (IEEE m)} {X : Fin 160 → ℝ} {W T : ℝ}, k ≤ 190 → 0 ≤ T → T + (voicedAmp prev l + voicedAmp cur l) ≤ W →
        W ≤ 2 ^ 40 → (∀ n, AccNear W k T (out n) (X n)) →
    Post (voicedBandWith osc cur.w0 prev.w0 cur prev l.val out) fun r =>
        ∀ n, AccNear W (k + 2) (T + (voicedAmp prev l + voicedAmp cur l)) (r n) (X n + x n) := by
  have ac := voicedAmp_nonneg cur l
  have ap := voicedAmp_nonneg prev l
  obtain ⟨hui, hui'⟩ := useInterp_near hc hp c0 c1 p0 p1 l.val
  have ec : (valuesOf cur).w0 = c := Val.number hc
  have ep : (valuesOf prev).w0 = p := Val.number hp
  have c0' : (0 : ℝ) ≤ c := by have : 0 ≤ c := by rcases c0 with h | h <;> linarith
                               exact_mod_cast this
  have c1' : (c : ℝ) ≤ 5 / 8 := by have : (c : ℝ) ≤ ((5 / 8 : ℚ) : ℝ) := by exact_mod_cast c1
                                   push_cast at this; exact this
  have p0' : (0 : ℝ) ≤ p := by exact_mod_cast p0
  have p1' : (p : ℝ) ≤ 5 / 8 := by have : (p : ℝ) ≤ ((5 / 8 : ℚ) : ℝ) := by exact_mod_cast p1
                                   push_cast at this; exact this
  have nc : Near 0 (5 / 8) cur.w0 (c : ℝ) := ⟨c, hc, by simp, by rw [abs_of_nonneg (by linarith)]; exact c1'⟩
  have np : Near 0 (5 / 8) prev.w0 (p : ℝ) := ⟨p, hp, by simp, by rw [abs_of_nonneg (by linarith)]; exact p1'⟩
  have hl56 : (l.val : ℝ) ≤ 56 := by exact_mod_cast (by omega : l.val ≤ 56)
  have il : Near 0 56 (ofInt (l.val : Int) : IEEE m) l.val := by
    have := near_int (m := m) (n := (l.val : Int)) (by rw [abs_of_nonneg (by omega)]; omega) (B := 56)
      (by rw [abs_of_nonneg (by positivity)]; push_cast; linarith)
    push_cast at this
    exact this
  have ncl := Near.mulr (e := 21 / 10000000) (B := 35) nc il (by norm_num) (by norm_num) (by norm_num)
  have npl := Near.mulr (e := 21 / 10000000) (B := 35) np il (by norm_num) (by norm_num) (by norm_num)
  have b5632 : (((32 + 100 * (l.val : ℚ) : ℚ)) : ℝ) ≤ 5632 := by push_cast; linarith
  have n1 := near_self h1 b5632
  have n0 := near_self h0 b5632
  by_cases hg : cur.Vl l = 1 ∧ prev.Vl l = 1 ∧ useInterp l.val cur.w0 prev.w0 = true
  · obtain ⟨g1, g2, g3⟩ := hg
    obtain ⟨g4, g5⟩ := hui g3
    have e1 : (decide (cur.Vl l = 1) || decide (prev.Vl l = 1)) = true := by rw [decide_eq_true g1]; rfl
    have e2 : (decide (cur.Vl l = 1) && decide (prev.Vl l = 1) && useInterp l.val cur.w0 prev.w0) = true := by
      rw [decide_eq_true g1, decide_eq_true g2, g3]; rfl
    obtain ⟨mc, mc'⟩ := ml_near g1 (hC g1)
    obtain ⟨mp, mp'⟩ := ml_near g2 (hP g2)
    have hl7 : (l.val : ℝ) ≤ 7 := by exact_mod_cast (by omega : l.val ≤ 7)
    have b732 : (((32 + 100 * (l.val : ℚ) : ℚ)) : ℝ) ≤ 732 := by push_cast; linarith
    obtain ⟨θ, hθ, hr⟩ := interpBand_near hm g4 nc np (near_self h1 b732) (near_self h0 b732) mc mp ac ap mc' mp'
    refine ⟨fun n => 2 * ((1 - (n.val : ℝ) / 160) * (valuesOf prev).Ml l + (n.val : ℝ) / 160 * (valuesOf cur).Ml l) *
      Real.cos (θ n.val), .inl ⟨⟨g1, g2, g4, ?_⟩, θ, ?_, fun _ => rfl⟩, ?_⟩
    · rw [ec, ep]; exact g5
    · rw [ec, ep]; exact hθ
    intro osc hosc k out X W T hk hT hW hW2 ho
    have hW0 : 0 ≤ W := by linarith
    unfold voicedBandWith
    rw [Arr.rd_nat l.isLt, ok_bind, Arr.rd_nat l.isLt, ok_bind]
    dsimp only
    rw [if_pos e1, if_pos e2]
    exact (hr (k := k) (by omega) hT hW hW2 ho).mono fun r hr n => (hr n).mono (by omega) hW0
  · have e2 : ¬ (decide (cur.Vl l = 1) && decide (prev.Vl l = 1) && useInterp l.val cur.w0 prev.w0) = true := by
      simp only [Bool.and_eq_true, decide_eq_true_eq]
      tauto
    have ng : ¬ GlidesAt (1 / 10 - 1 / 2 ^ 20) (valuesOf cur) (valuesOf prev) l := by
      rintro ⟨g1, g2, g3, g4⟩
      rw [ec, ep] at g4
      exact hg ⟨g1, g2, hui' g3 g4⟩
    refine ⟨_, .inr ⟨ng, fun n => by rw [ec, ep]⟩, ?_⟩
    intro osc hosc k out X W T hk hT hW hW2 ho
    have hW0 : 0 ≤ W := by linarith
    unfold voicedBandWith
    rw [Arr.rd_nat l.isLt, ok_bind, Arr.rd_nat l.isLt, ok_bind]
    dsimp only
    rw [if_neg e2]
    have key : Post (if (decide (cur.Vl l = 1) || decide (prev.Vl l = 1)) = true then (do
        let out ← (if decide (prev.Vl l = 1) = true then do
            let ph ← prev.PHIl.rd l.val
            osc 160 (← prev.Ml.rd l.val) (sin (prev.w0 *ᶠ ofInt (l.val : Int))) (cos (prev.w0 *ᶠ ofInt (l.val : Int))) (sin ph) (cos ph) out
          else .ok out)
        if decide (cur.Vl l = 1) = true then do
          let ph := (← cur.PHIl.rd l.val) -ᶠ ((cur.w0 *ᶠ ofInt (l.val : Int)) *ᶠ ofInt 160)
          osc 0 (← cur.Ml.rd l.val) (sin (cur.w0 *ᶠ ofInt (l.val : Int))) (cos (cur.w0 *ᶠ ofInt (l.val : Int))) (sin ph) (cos ph) out
        else .ok out) else .ok out) fun r => ∀ n : Fin 160, AccNear W (k + 2) (T + (voicedAmp prev l + voicedAmp cur l)) (r n)
          (X n + ((if prev.Vl l = 1 then 2 * trapezoid (n.val + 160) * number (prev.Ml l) * Real.cos (number (prev.PHIl l) + l.val * p * n.val) else 0) +
            (if cur.Vl l = 1 then 2 * trapezoid n.val * number (cur.Ml l) * Real.cos (number (cur.PHIl l) + l.val * c * (n.val - 160)) else 0))) := by
      refine Post.ite (fun _ => ?_) fun hno => ?_
      · refine Post.bind (P := fun o : Arr 160 (IEEE m) => ∀ n : Fin 160, AccNear W (k + 1) (T + voicedAmp prev l) (o n) (X n +
          (if prev.Vl l = 1 then 2 * trapezoid (n.val + 160) * number (prev.Ml l) * Real.cos (number (prev.PHIl l) + l.val * p * n.val) else 0))) ?_ ?_
        · refine Post.ite (fun hv => ?_) fun hv => ?_
          · have hv : prev.Vl l = 1 := of_decide_eq_true hv
            rw [Arr.rd_nat l.isLt, ok_bind, Arr.rd_nat l.isLt, ok_bind]
            obtain ⟨mp, mp'⟩ := ml_near hv (hP hv)
            obtain ⟨qx, vx, x1, x2⟩ := npl
            obtain ⟨qp, vp, y1, y2⟩ := n0
            have x3 : |(qx : ℝ)| ≤ 36 := by
              have := abs_sub_abs_le_abs_sub (qx : ℝ) (p * l.val)
              linarith
            have y3 : |(qp : ℝ)| ≤ 5632 := by
              have := abs_sub_abs_le_abs_sub (qp : ℝ) (number (prev.PHIl l))
              linarith
            refine (hosc (off := 160) le_rfl (k := k) (by omega) mp ap (by norm_num at *; linarith) vx (pow26_of x3 (by norm_num)) vp
              (pow26_of y3 (by norm_num)) (φ := number (prev.PHIl l)) (ω := l.val * p) ?_ hT (by linarith) hW2 ho).mono fun r hr n => ?_
            · intro n hn
              have hn' : (n : ℝ) ≤ 160 := by exact_mod_cast hn.le
              have hn0 : (0 : ℝ) ≤ n := Nat.cast_nonneg n
              rw [show (qp : ℝ) + n * qx - (number (prev.PHIl l) + l.val * p * n) = (qp - number (prev.PHIl l)) + n * (qx - p * l.val) by ring]
              refine (abs_add_le _ _).trans ?_
              rw [abs_mul, abs_of_nonneg hn0]
              have : (n : ℝ) * |(qx : ℝ) - p * l.val| ≤ 160 * (21 / 10000000) := mul_le_mul hn' x1 (abs_nonneg _) (by norm_num)
              norm_num at this ⊢
              linarith
            · rw [if_pos hv]
              have := hr n
              push_cast at this
              exact this
          · have hv : ¬ prev.Vl l = 1 := fun h => hv (decide_eq_true h)
            refine Post.pure fun n => ?_
            have e : voicedAmp prev l = 0 := if_neg hv
            rw [if_neg hv, e, add_zero, add_zero]
            exact (ho n).mono (by omega) hW0
        · intro o ho'
          refine Post.ite (fun hv => ?_) fun hv => ?_
          · have hv : cur.Vl l = 1 := of_decide_eq_true hv
            rw [Arr.rd_nat l.isLt, ok_bind]
            dsimp only
            rw [Arr.rd_nat l.isLt, ok_bind]
            obtain ⟨mp, mp'⟩ := ml_near hv (hC hv)
            have i160 : Near 0 160 (ofInt 160 : IEEE m) 160 := ⟨160, one60_val, by norm_num, by norm_num⟩
            have q1 := Near.mulr (e := 68 / 100000) (B := 5600) ncl i160 (by norm_num) (by norm_num) (by norm_num)
            have q2 := Near.subr (e := 14 / 10000) (B := 11232) n1 q1 (by norm_num) (by norm_num) (by norm_num)
            obtain ⟨qx, vx, x1, x2⟩ := ncl
            obtain ⟨qp, vp, y1, y2⟩ := q2
            have x3 : |(qx : ℝ)| ≤ 36 := by
              have := abs_sub_abs_le_abs_sub (qx : ℝ) (c * l.val)
              linarith
            have y3 : |(qp : ℝ)| ≤ 11233 := by
              have := abs_sub_abs_le_abs_sub (qp : ℝ) (number (cur.PHIl l) - c * l.val * 160)
              linarith
            refine (hosc (off := 0) (by norm_num) (k := k + 1) (by omega) mp ac (by norm_num at *; linarith) vx (pow26_of x3 (by norm_num)) vp
              (pow26_of y3 (by norm_num)) (φ := number (cur.PHIl l) - l.val * c * 160) (ω := l.val * c) ?_ (by linarith) (by linarith) hW2 ho').mono
              fun r hr n => ?_
            · intro n hn
              have hn' : (n : ℝ) ≤ 160 := by exact_mod_cast hn.le
              have hn0 : (0 : ℝ) ≤ n := Nat.cast_nonneg n
              rw [show (qp : ℝ) + n * qx - (number (cur.PHIl l) - l.val * c * 160 + l.val * c * n) =
                (qp - (number (cur.PHIl l) - c * l.val * 160)) + n * (qx - c * l.val) by ring]
              refine (abs_add_le _ _).trans ?_
              rw [abs_mul, abs_of_nonneg hn0]
              have : (n : ℝ) * |(qx : ℝ) - c * l.val| ≤ 160 * (21 / 10000000) := mul_le_mul hn' x1 (abs_nonneg _) (by norm_num)
              norm_num at this y1 ⊢
              linarith
            · rw [if_pos hv]
              have := hr n
              rw [Nat.cast_zero, add_zero, show number (cur.PHIl l) - l.val * c * 160 + l.val * c * n.val =
                number (cur.PHIl l) + l.val * c * (n.val - 160) by ring, add_assoc T, add_assoc (X n)] at this
              exact this
          · have hv : ¬ cur.Vl l = 1 := fun h => hv (decide_eq_true h)
            refine Post.pure fun n => ?_
            have e : voicedAmp cur l = 0 := if_neg hv
            rw [if_neg hv, e, add_zero, add_zero]
            exact (ho' n).mono (by omega) hW0
      · simp only [Bool.or_eq_true, decide_eq_true_eq, not_or] at hno
        refine Post.pure fun n => ?_
        have e1 : voicedAmp cur l = 0 := if_neg hno.1
        have e2 : voicedAmp prev l = 0 := if_neg hno.2
        rw [if_neg hno.1, if_neg hno.2, e1, e2, add_zero, add_zero, add_zero]
        exact (ho n).mono (by omega) hW0
    exact key

end Verif.Model
