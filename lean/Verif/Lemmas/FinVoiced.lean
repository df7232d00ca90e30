import Verif.Lemmas.FinEnh
import Verif.Lemmas.SafeIeee

/-!
# Magnitudes in the voiced synthesis
-/

namespace Verif.Num
open Verif Arith
variable {m : Libm}

/-- A number of magnitude at most `2^k`. -/
abbrev Mag (k : Int) (x : FP) : Prop := Bnd x (pow2 k)

theorem Mag.up {x : FP} {j k : Int} (h : Mag j x) (hjk : j ≤ k) : Mag k x := h.mono (pow2_le hjk)

theorem pow2_dbl (n : Int) : pow2 (n - 1) + pow2 (n - 1) = pow2 n := by
  have : pow2 n = pow2 (n - 1) * pow2 1 := by rw [← pow2_add]; congr 1; ring
  rw [this]
  have : pow2 1 = 2 := by rw [pow2_eq]; norm_num
  rw [this]; ring

theorem Mag.add {x y : IEEE m} {j k n : Int} (hx : Mag j x) (hy : Mag k y) (h1 : j + 1 ≤ n) (h2 : k + 1 ≤ n) (h3 : -149 ≤ n) (h4 : n ≤ 127) :
    Mag n (x +ᶠ y : IEEE m) :=
  Bnd.add (hx.up (k := n - 1) (by omega)) (hy.up (k := n - 1) (by omega)) (pow2_dbl n).le (repr32_pow2 h3) (pow2_big h4)

theorem Mag.sub {x y : IEEE m} {j k n : Int} (hx : Mag j x) (hy : Mag k y) (h1 : j + 1 ≤ n) (h2 : k + 1 ≤ n) (h3 : -149 ≤ n) (h4 : n ≤ 127) :
    Mag n (x -ᶠ y : IEEE m) :=
  Bnd.sub (hx.up (k := n - 1) (by omega)) (hy.up (k := n - 1) (by omega)) (pow2_dbl n).le (repr32_pow2 h3) (pow2_big h4)

theorem Mag.mul {x y : IEEE m} {j k n : Int} (hx : Mag j x) (hy : Mag k y) (h : j + k ≤ n) (h3 : -149 ≤ n) (h4 : n ≤ 127) :
    Mag n (x *ᶠ y : IEEE m) :=
  Bnd.mulc hx hy (by rw [← pow2_add]; exact pow2_le h) (repr32_pow2 h3) (pow2_big h4)

theorem Mag.div {x y : IEEE m} {j d n : Int} {q : ℚ} (hx : Mag j x) (hy : Val y q) (hq : pow2 d ≤ |q|) (h : j - d ≤ n) (h3 : -149 ≤ n) (h4 : n ≤ 127) :
    Mag n (x /ᶠ y : IEEE m) :=
  Bnd.div hx hy (pow2_pos d) hq (by rw [← pow2_add]; exact pow2_le (by omega)) (repr32_pow2 h3) (pow2_big h4)

theorem Mag.ofInt {n : Int} {k : Nat} (hk : k ≤ 24) (h : |n| ≤ 2 ^ k) : Mag k (Arith.ofInt n : IEEE m) := by
  refine ⟨n, Val.ofInt (h.trans (pow_le_pow_right₀ (by norm_num) hk)), ?_⟩
  have : ((|n| : Int) : ℚ) ≤ ((2 ^ k : Int) : ℚ) := Int.cast_le.mpr h
  rw [Int.cast_abs] at this
  rw [pow2_eq]
  simpa using this

theorem Mag.zero (k : Int) : Mag k (Arith.lit 0 1 : IEEE m) := ⟨0, ⟨false, rfl⟩, by rw [abs_zero]; exact (pow2_pos k).le⟩
theorem Mag.fi0 (k : Int) : Mag k (fi 0 : IEEE m) := ⟨0, ⟨false, rfl⟩, by rw [abs_zero]; exact (pow2_pos k).le⟩

theorem Mag.floor {x : IEEE m} {k : Nat} (hx : Mag k x) : Mag k (Arith.floor x : IEEE m) := by
  obtain ⟨q, ⟨s, rfl⟩, hq⟩ := hx
  refine ⟨(⌊q⌋ : Int), ⟨_, rfl⟩, ?_⟩
  have e : pow2 (k : Int) = (((2 : Int) ^ k : Int) : ℚ) := by rw [pow2_eq]; simp
  rw [e] at hq ⊢
  rw [abs_le] at hq ⊢
  constructor
  · have : -(2 : Int) ^ k ≤ ⌊q⌋ := Int.le_floor.mpr (by push_cast; push_cast at hq; exact hq.1)
    exact_mod_cast this
  · exact (Int.floor_le q).trans hq.2

theorem truncQ_rem {a b : ℚ} (hb : 0 < b) : |a - FP.truncQ (a / b) * b| ≤ b := by
  have hb' := hb.ne'
  unfold FP.truncQ
  by_cases h : 0 ≤ a / b
  · rw [if_pos h]
    have h1 : ((⌊a / b⌋ : Int) : ℚ) ≤ a / b := Int.floor_le _
    have h2 : a / b < (⌊a / b⌋ : Int) + 1 := Int.lt_floor_add_one _
    rw [le_div_iff₀ hb] at h1
    rw [div_lt_iff₀ hb] at h2
    show |a - (⌊a / b⌋ : Int) * b| ≤ b
    rw [abs_le]
    constructor <;> linarith
  · rw [if_neg h]
    have h1 : ((⌊-(a / b)⌋ : Int) : ℚ) ≤ -(a / b) := Int.floor_le _
    have h2 : -(a / b) < (⌊-(a / b)⌋ : Int) + 1 := Int.lt_floor_add_one _
    rw [← neg_div, le_div_iff₀ hb] at h1
    rw [← neg_div, div_lt_iff₀ hb] at h2
    show |a - ((-(⌊-(a / b)⌋ : Int) : Int) : ℚ) * b| ≤ b
    rw [← neg_div]
    push_cast
    rw [abs_le]
    constructor <;> linarith

theorem Val.fmod {x y : IEEE m} {a b : ℚ} (hx : Val x a) (hy : Val y b) (hb : 0 < b) : Bnd (Arith.fmod x y : IEEE m) b := by
  obtain ⟨s, rfl⟩ := hx
  obtain ⟨t, rfl⟩ := hy
  refine ⟨a - FP.truncQ (a / b) * b, ?_, truncQ_rem hb⟩
  show Val (if b = 0 then FP.nan else FP.fin (FP.sgn (FP.fin s a)) (a - FP.truncQ (a / b) * b)) _
  rw [if_neg hb.ne']
  exact ⟨_, rfl⟩

theorem TrigAcc.cosM (hm : TrigAcc m) {x : IEEE m} (hx : Mag 26 x) : Mag 1 (Arith.cos x : IEEE m) := by
  obtain ⟨q, h, hq⟩ := hx
  obtain ⟨r, hr, he⟩ := hm.cos x q h hq
  refine ⟨r, hr, ?_⟩
  have := unit_abs he (Real.abs_cos_le_one _) (rfl : (0 : ℚ) = 0)
  rw [pow2_eq]
  refine this.trans ?_
  norm_num

end Verif.Num

namespace Verif.Model
open Verif Verif.Gen Verif.Num Arith
variable {m : Libm}

theorem fpi_val0 : rngB (fpi : IEEE libm0) 3 (2 * 2) = true := by decide +kernel
theorem twoPi_val0 : rngB (twoPi : IEEE libm0) 6 7 = true := by decide +kernel
theorem white_val0 : rngB (whiteScalar : IEEE libm0) 0 (1 / 8192) = true := by decide +kernel

theorem fpi_mag : Mag 2 (fpi : IEEE m) := by
  have : rngB (fpi : IEEE m) 3 (2 * 2) = true := fpi_val0
  obtain ⟨q, h, h1, h2⟩ := rng_of this
  refine ⟨q, h, ?_⟩
  rw [abs_of_nonneg (by linarith), pow2_eq]
  refine h2.trans ?_
  norm_num

theorem twoPi_val : ∃ q, Val (twoPi : IEEE m) q ∧ 6 ≤ q ∧ q ≤ 7 := by
  have : rngB (twoPi : IEEE m) 6 7 = true := twoPi_val0
  exact rng_of this

theorem white_mag : Mag (-13) (whiteScalar : IEEE m) := by
  have : rngB (whiteScalar : IEEE m) 0 (1 / 8192) = true := white_val0
  obtain ⟨q, h, h1, h2⟩ := rng_of this
  refine ⟨q, h, ?_⟩
  rw [abs_of_nonneg (by linarith), pow2_eq]
  refine h2.trans ?_
  norm_num

theorem two_val : Val (lit 2 1 : IEEE m) 2 := by
  have : Val (ofInt 2 : IEEE m) ((2 : Int) : ℚ) := Val.ofInt (by norm_num)
  exact this

theorem wrapPhase_mag {x : IEEE m} {k : Int} (h : Mag k x) : Mag 4 (wrapPhase x : IEEE m) := by
  obtain ⟨q, hq, q1, q2⟩ := twoPi_val (m := m)
  obtain ⟨a, ha, _⟩ := h
  have h8 : Mag 3 (fmod x twoPi : IEEE m) := by
    refine (ha.fmod hq (by linarith)).mono ?_
    rw [pow2_eq]
    refine q2.trans ?_
    norm_num
  have t3 : Mag 3 (twoPi : IEEE m) := by
    refine ⟨q, hq, ?_⟩
    rw [abs_of_nonneg (by linarith), pow2_eq]
    refine q2.trans ?_
    norm_num
  unfold wrapPhase
  dsimp only
  split
  · exact h8.add t3 (by norm_num) (by norm_num) (by norm_num) (by norm_num)
  · exact h8.up (by norm_num)

/-- All elements have magnitude at most `2^k`. -/
def AllMag {n : Nat} (k : Int) (a : Arr n FP) : Prop := ∀ i, Mag k (a i)

theorem AllMag.up {n : Nat} {j k : Int} {a : Arr n FP} (h : AllMag j a) (hjk : j ≤ k) : AllMag k a := fun i => (h i).up hjk

theorem AllMag.set {n : Nat} {k : Int} {a : Arr n FP} (h : AllMag k a) (i : Nat) {v : FP} (hv : Mag k v) : AllMag k (a.set i v) := by
  intro j
  by_cases c : j.val = i
  · rw [Arr.set_same c]; exact hv
  · rw [Arr.set_ne c]; exact h j

theorem AllMag.const {n : Nat} {k : Int} {v : FP} (hv : Mag k v) : AllMag k (Arr.const n v) := fun _ => hv

theorem AllMag.wr {n : Nat} {k : Int} {a : Arr n FP} (h : AllMag k a) {i : Int} {v : FP} (hv : Mag k v) : Post (a.wr i v) (AllMag k) :=
  Arr.wr_post.mono fun b hb => by rw [hb.2.2]; exact h.set _ hv

theorem AllMag.rd {n : Nat} {k : Int} {a : Arr n FP} (h : AllMag k a) {i : Int} : Post (a.rd i) (Mag k) :=
  Arr.rd_post.mono fun v hv => by obtain ⟨_, rfl⟩ := hv; exact h _

theorem phaseUpdate_mag {noise : Arr 256 (IEEE m)} {nuv : Int} {cw pw : IEEE m} {cur prev : Parms (IEEE m)} (hn : AllMag 16 noise)
    (hu : |nuv| ≤ 2 ^ 6) (hc : Mag 0 cw) (hp : Mag 0 pw) (hL : 9 ≤ cur.L ∧ cur.L ≤ 56) (h1 : AllMag 15 cur.PSIl) (h2 : AllMag 16 cur.PHIl)
    (h3 : AllMag 15 prev.PSIl) :
    Post (phaseUpdate noise nuv cw pw cur prev) fun r => AllMag 15 r.1.PSIl ∧ AllMag 16 r.1.PHIl ∧ AllMag 15 r.2.PSIl := by
  unfold phaseUpdate
  refine (loopFT_post (fun _ (s : Parms (IEEE m) × Parms (IEEE m)) => AllMag 15 s.1.PSIl ∧ AllMag 16 s.1.PHIl ∧ AllMag 15 s.2.PSIl ∧
    s.1.L = cur.L) (by norm_num) ⟨h1, h2, h3, rfl⟩ fun l l1 l2 s hs => ?_).mono fun r hr => ⟨hr.1, hr.2.1, hr.2.2.1⟩
  obtain ⟨a1, a2, a3, a4⟩ := hs
  refine Post.bind a3.rd fun x hx => ?_
  have w4 := wrapPhase_mag hx
  refine Post.bind (a3.wr (w4.up (by norm_num))) fun P hP => ?_
  have hl : Mag 14 (ofInt ((l : Int) * 160) : IEEE m) := Mag.ofInt (k := 14) (by norm_num) (by rw [abs_of_nonneg (by omega)]; omega)
  have hl2 : Mag 13 (ofInt ((l : Int) * 160) /ᶠ lit 2 1 : IEEE m) :=
    hl.div two_val (d := 1) (by rw [pow2_eq]; norm_num) (by norm_num) (by norm_num) (by norm_num)
  have hs1 : Mag 1 (pw +ᶠ cw : IEEE m) := hp.add hc (by norm_num) (by norm_num) (by norm_num) (by norm_num)
  have hpsi : Mag 15 (wrapPhase x +ᶠ ((pw +ᶠ cw) *ᶠ (ofInt ((l : Int) * 160) /ᶠ lit 2 1)) : IEEE m) :=
    w4.add (k := 14) (hs1.mul hl2 (by norm_num) (by norm_num) (by norm_num)) (by norm_num) (by norm_num) (by norm_num) (by norm_num)
  refine Post.bind (a1.wr hpsi) fun Q hQ => ?_
  dsimp only
  split
  · refine Post.bind hQ.rd fun y hy => Post.bind (a2.wr (hy.up (by norm_num))) fun R hR => Post.pure ⟨hQ, hR, hP, a4⟩
  · refine Post.bind hn.rd fun z hz => Post.bind hQ.rd fun y hy => ?_
    have e1 : Mag 3 (whiteScalar *ᶠ z : IEEE m) := white_mag.mul hz (by norm_num) (by norm_num) (by norm_num)
    have e2 : Mag 4 ((whiteScalar *ᶠ z) -ᶠ fpi : IEEE m) := e1.sub fpi_mag (by norm_num) (by norm_num) (by norm_num) (by norm_num)
    have e3 : Mag 10 (ofInt nuv *ᶠ ((whiteScalar *ᶠ z) -ᶠ fpi) : IEEE m) :=
      (Mag.ofInt (k := 6) (by norm_num) hu).mul e2 (by norm_num) (by norm_num) (by norm_num)
    have vL : Val (ofInt s.1.L : IEEE m) (s.1.L : Int) := Val.ofInt (by rw [a4, abs_of_nonneg (by omega)]; omega)
    have e4 : Mag 7 ((ofInt nuv *ᶠ ((whiteScalar *ᶠ z) -ᶠ fpi)) /ᶠ ofInt s.1.L : IEEE m) := by
      refine e3.div vL (d := 3) ?_ (by norm_num) (by norm_num) (by norm_num)
      rw [a4, abs_of_nonneg (by exact_mod_cast (by omega : (0 : Int) ≤ cur.L)), pow2_eq]
      have : ((9 : Int) : ℚ) ≤ (cur.L : ℚ) := Int.cast_le.mpr hL.1
      refine le_trans ?_ this
      norm_num
    refine Post.bind (a2.wr (hy.add e4 (by norm_num) (by norm_num) (by norm_num) (by norm_num))) fun R hR => Post.pure ⟨hQ, hR, hP, a4⟩

/-! ## Oscillators -/

/-- All elements are at most `k * 2^37`. -/
def Out37 (k : Nat) (out : Arr 160 FP) : Prop := ∀ i, Bnd (out i) (k * pow2 37)

theorem repr_k37 {k : Nat} (hk : k ≤ 2 ^ 20) : Repr F32 (k * pow2 37) :=
  ⟨k, 37, by simp, by
    rw [abs_of_nonneg (by omega)]
    exact_mod_cast hk.trans (by decide : 2 ^ 20 ≤ 2 ^ 24), by decide⟩

theorem k37_big {k : Nat} (hk : k ≤ 2 ^ 20) : (k : ℚ) * pow2 37 ≤ Val.big := by
  have h1 : (k : ℚ) ≤ 2 ^ 20 := by exact_mod_cast hk
  have e : pow2 37 = 2 ^ 37 := by rw [pow2_eq]; norm_num
  rw [e]
  refine le_trans ?_ big_ge
  have : (k : ℚ) * 2 ^ 37 ≤ 2 ^ 20 * 2 ^ 37 := mul_le_mul_of_nonneg_right h1 (by norm_num)
  exact this.trans (by norm_num)

theorem add37 {x y : IEEE m} {k : Nat} (hk : k < 2 ^ 20) (hx : Bnd x (k * pow2 37)) (hy : Mag 37 y) :
    Bnd (x +ᶠ y : IEEE m) ((k + 1 : Nat) * pow2 37) :=
  Bnd.add hx hy (by push_cast; linarith) (repr_k37 (by omega)) (k37_big (by omega))

/-- The invariant of a loop that adds to element after element. -/
def Part37 (k n : Nat) (out : Arr 160 FP) : Prop := ∀ i : Fin 160, Bnd (out i) ((if i.val < n then k + 1 else k : Nat) * pow2 37)

theorem Part37.start {k : Nat} {out : Arr 160 FP} (h : Out37 k out) : Part37 k 0 out := fun i => by
  rw [if_neg (by omega)]; exact h i

theorem Part37.done {k : Nat} {out : Arr 160 FP} (h : Part37 k 160 out) : Out37 (k + 1) out := fun i => by
  have := h i
  rwa [if_pos i.isLt] at this

theorem Part37.step {k n : Nat} (hk : k < 2 ^ 20) (hn : n < 160) {out : Arr 160 (IEEE m)} (h : Part37 k n out) {y : IEEE m} (hy : Mag 37 y) :
    Part37 k (n + 1) (out.set n (out ⟨n, hn⟩ +ᶠ y)) := by
  intro i
  by_cases c : i.val = n
  · rw [Arr.set_same c, if_pos (by omega)]
    have := h ⟨n, hn⟩
    rw [if_neg (by simp)] at this
    exact add37 hk this hy
  · rw [Arr.set_ne c]
    have := h i
    by_cases c' : i.val < n
    · rw [if_pos c'] at this; rw [if_pos (by omega)]; exact this
    · rw [if_neg c'] at this; rw [if_neg (by omega)]; exact this

theorem ws_le0 : ∀ v ∈ Ws, bndB (ftab v Ws_den : IEEE libm0) 1 = true := by decide +kernel

theorem ws_mag (m : Libm) (i : Nat) : Post (tab Ws i) fun v => Mag 0 (ftab v Ws_den : IEEE m) := by
  intro v hv
  have hv' : v ∈ Ws := by
    unfold tab at hv
    cases e : Ws[i]? with
    | none => rw [e] at hv; cases hv
    | some a => rw [e] at hv; cases hv; exact List.mem_of_getElem? e
  have h : bndB (ftab v Ws_den : IEEE m) 1 = true := ws_le0 v hv'
  have := Bnd.of h
  have e1 : pow2 0 = 1 := by rw [pow2_eq]; norm_num
  show Bnd _ (pow2 0)
  rwa [e1]

theorem windowedOsc_mag {off k : Nat} {amp sd cd s0 c0 : IEEE m} {out : Arr 160 (IEEE m)} (hk : k < 2 ^ 20) (ha : Mag 32 amp)
    {θ : ℝ} {z0 : ℂ} (hz : ‖z0‖ ≤ 5 / 4) (h0 : Rot θ z0 0 c0 s0) {p q : ℚ} (hcd : Val cd p) (hsd : Val sd q)
    (hp : |(p : ℝ) - Real.cos θ| ≤ 1 / 1048576) (hq : |(q : ℝ) - Real.sin θ| ≤ 1 / 1048576) (ho : Out37 k out) :
    Post (windowedOsc off amp sd cd s0 c0 out) (Out37 (k + 1)) := by
  unfold windowedOsc
  refine Post.bind (loop_post (fun n (s : Arr 160 (IEEE m) × IEEE m × IEEE m) => Part37 k n s.1 ∧ Rot θ z0 n s.2.1 s.2.2) ⟨ho |> Part37.start, h0⟩
    fun n hn s hs => ?_) fun r hr => Post.pure hr.1.done
  obtain ⟨hs1, hs2⟩ := hs
  dsimp only
  refine Post.bind (ws_mag m _) fun w hw => ?_
  rw [Arr.rd_nat hn, ok_bind, Arr.wr_nat hn, ok_bind]
  refine Post.pure ⟨hs1.step hk hn ?_, hs2.step hz (by omega) hcd hsd hp hq⟩
  obtain ⟨a, b, va, vb, hab⟩ := hs2
  obtain ⟨_, hA, _⟩ := Rot.bound hz (by omega) hab
  have m2 : Mag 1 (lit 2 1 : IEEE m) := ⟨2, two_val, by rw [pow2_eq]; norm_num⟩
  have mc : Mag 1 s.2.1 := ⟨a, va, hA.trans (by rw [pow2_eq]; norm_num)⟩
  have e1 : Mag 1 (lit 2 1 *ᶠ ftab w Ws_den : IEEE m) := m2.mul hw (by norm_num) (by norm_num) (by norm_num)
  have e2 : Mag 33 ((lit 2 1 *ᶠ ftab w Ws_den) *ᶠ amp : IEEE m) := e1.mul ha (by norm_num) (by norm_num) (by norm_num)
  exact e2.mul mc (by norm_num) (by norm_num) (by norm_num)

theorem _root_.Verif.Num.TrigAcc.rot0 (hm : TrigAcc m) {x : IEEE m} (hx : Mag 26 x) (θ : ℝ) :
    ∃ z0 : ℂ, ‖z0‖ ≤ 5 / 4 ∧ Rot θ z0 0 (cos x : IEEE m) (sin x : IEEE m) := by
  obtain ⟨q, h, hq⟩ := hx
  obtain ⟨c, hc, ec⟩ := hm.cos x q h hq
  obtain ⟨s, hs, es⟩ := hm.sin x q h hq
  refine ⟨⟨(c : ℝ), (s : ℝ)⟩, ?_, c, s, hc, hs, by simp⟩
  have e : (⟨(c : ℝ), (s : ℝ)⟩ : ℂ) = ⟨(c : ℝ) - Real.cos q, (s : ℝ) - Real.sin q⟩ + Complex.exp ((q : ℝ) * Complex.I) := by
    apply Complex.ext
    · rw [Complex.add_re, Complex.exp_ofReal_mul_I_re]; simp
    · rw [Complex.add_im, Complex.exp_ofReal_mul_I_im]; simp
  rw [e]
  refine (norm_add_le _ _).trans ?_
  rw [Complex.norm_exp_ofReal_mul_I]
  have := norm_pair ((c : ℝ) - Real.cos q) ((s : ℝ) - Real.sin q)
  linarith

/-- The windowed oscillator at the frequency `x` and the phase `ph`. -/
theorem osc_mag (hm : TrigAcc m) {off k : Nat} {amp x ph : IEEE m} {out : Arr 160 (IEEE m)} (hk : k < 2 ^ 20) (ha : Mag 32 amp) (hx : Mag 26 x)
    (hph : Mag 26 ph) (ho : Out37 k out) : Post (windowedOsc off amp (sin x) (cos x) (sin ph) (cos ph) out) (Out37 (k + 1)) := by
  obtain ⟨q, h, hq⟩ := hx
  obtain ⟨c, hc, ec⟩ := hm.cos x q h hq
  obtain ⟨s, hs, es⟩ := hm.sin x q h hq
  obtain ⟨z0, hz, hr⟩ := hm.rot0 hph (q : ℝ)
  exact windowedOsc_mag hk ha hz hr hc hs ec es ho

theorem one60_val : Val (ofInt 160 : IEEE m) 160 := by
  have : Val (ofInt 160 : IEEE m) ((160 : Int) : ℚ) := Val.ofInt (by norm_num)
  exact_mod_cast this

theorem interpBand_mag (hm : TrigAcc m) {l k : Nat} {cw pw : IEEE m} {cur prev : Parms (IEEE m)} {out : Arr 160 (IEEE m)} (hk : k < 2 ^ 20)
    (hl : l < 8) (hc : Mag 0 cw) (hp : Mag 0 pw) (h1 : AllMag 16 cur.PHIl) (h2 : AllMag 16 prev.PHIl) (h3 : Mag 32 (cur.Ml ⟨l, by omega⟩))
    (h4 : Mag 32 (prev.Ml ⟨l, by omega⟩)) (ho : Out37 k out) : Post (interpBand l cw pw cur prev out) (Out37 (k + 1)) := by
  have m2 : Mag 1 (lit 2 1 : IEEE m) := ⟨2, two_val, by rw [pow2_eq]; norm_num⟩
  unfold interpBand
  refine Post.bind h1.rd fun x hx => Post.bind h2.rd fun y hy => ?_
  have hd : Mag 14 (deltaW (deltaPhi l cw pw x y) : IEEE m) := by
    have d1 : Mag 17 (x -ᶠ y : IEEE m) := hx.sub hy (by norm_num) (by norm_num) (by norm_num) (by norm_num)
    have d2 : Mag 1 (pw +ᶠ cw : IEEE m) := hp.add hc (by norm_num) (by norm_num) (by norm_num) (by norm_num)
    have d3 : Mag 11 (ofInt ((l : Int) * 160) : IEEE m) := Mag.ofInt (k := 11) (by norm_num) (by rw [abs_of_nonneg (by omega)]; omega)
    have d4 : Mag 12 ((pw +ᶠ cw) *ᶠ ofInt ((l : Int) * 160) : IEEE m) := d2.mul d3 (by norm_num) (by norm_num) (by norm_num)
    have d5 : Mag 11 (((pw +ᶠ cw) *ᶠ ofInt ((l : Int) * 160)) /ᶠ lit 2 1 : IEEE m) :=
      d4.div two_val (d := 1) (by rw [pow2_eq]; norm_num) (by norm_num) (by norm_num) (by norm_num)
    have d6 : Mag 18 (deltaPhi l cw pw x y : IEEE m) := d1.sub d5 (by norm_num) (by norm_num) (by norm_num) (by norm_num)
    obtain ⟨t, vt, t1, t2⟩ := twoPi_val (m := m)
    have vt' : Val (lit 2 1 *ᶠ fpi : IEEE m) t := vt
    have d7 : Mag 19 (deltaPhi l cw pw x y +ᶠ fpi : IEEE m) := d6.add fpi_mag (by norm_num) (by norm_num) (by norm_num) (by norm_num)
    have d8 : Mag (17 : Nat) ((deltaPhi l cw pw x y +ᶠ fpi) /ᶠ (lit 2 1 *ᶠ fpi) : IEEE m) := by
      refine d7.div vt' (d := 2) ?_ (by norm_num) (by norm_num) (by norm_num)
      rw [abs_of_nonneg (by linarith), pow2_eq]
      refine le_trans ?_ t1
      norm_num
    have d9 : Mag 3 (lit 2 1 *ᶠ fpi : IEEE m) := by
      refine ⟨t, vt', ?_⟩
      rw [abs_of_nonneg (by linarith), pow2_eq]
      refine t2.trans ?_
      norm_num
    have d10 := d9.mul (n := 20) d8.floor (by norm_num) (by norm_num) (by norm_num)
    have d11 := d6.sub (n := 21) d10 (by norm_num) (by norm_num) (by norm_num) (by norm_num)
    have d12 : Mag (-7) (lit 1 1 /ᶠ ofInt 160 : IEEE m) := by
      have : Mag 0 (lit 1 1 : IEEE m) := ⟨1, one_val, by rw [pow2_eq]; norm_num⟩
      refine this.div one60_val (d := 7) ?_ (by norm_num) (by norm_num) (by norm_num)
      rw [pow2_eq]; norm_num
    exact d12.mul d11 (by norm_num) (by norm_num) (by norm_num)
  refine (loop_post (fun n (s : Arr 160 (IEEE m)) => Part37 k n s) (Part37.start ho) fun n hn s hs => ?_).mono fun r hr => hr.done
  dsimp only
  rw [Arr.rd_nat (show l < 57 by omega), ok_bind, Arr.rd_nat (show l < 57 by omega), ok_bind, Arr.rd_nat hn, ok_bind, Arr.wr_nat hn]
  refine Post.pure (hs.step hk hn ?_)
  have ml : Mag 3 (ofInt (l : Int) : IEEE m) := Mag.ofInt (k := 3) (by norm_num) (by rw [abs_of_nonneg (by omega)]; omega)
  have mn : Mag 8 (ofInt (n : Int) : IEEE m) := Mag.ofInt (k := 8) (by norm_num) (by rw [abs_of_nonneg (by omega)]; omega)
  have t1 : Mag 3 (pw *ᶠ ofInt (l : Int) : IEEE m) := hp.mul ml (by norm_num) (by norm_num) (by norm_num)
  have t2 := t1.add (n := 15) hd (by norm_num) (by norm_num) (by norm_num) (by norm_num)
  have t3 := t2.mul (n := 23) mn (by norm_num) (by norm_num) (by norm_num)
  have t4 := hy.add (n := 24) t3 (by norm_num) (by norm_num) (by norm_num) (by norm_num)
  have t5 : Mag 1 (cw -ᶠ pw : IEEE m) := hc.sub hp (by norm_num) (by norm_num) (by norm_num) (by norm_num)
  have mll : Mag 18 (ofInt ((l : Int) * n * n) : IEEE m) := by
    refine Mag.ofInt (k := 18) (by norm_num) ?_
    rw [abs_of_nonneg (by positivity)]
    have a1 : (l : Int) * n ≤ 7 * 159 := mul_le_mul (by omega) (by omega) (by omega) (by omega)
    have a2 : (l : Int) * n * n ≤ 7 * 159 * 159 := mul_le_mul a1 (by omega) (by omega) (by omega)
    exact a2.trans (by norm_num)
  have t6 := t5.mul (n := 19) mll (by norm_num) (by norm_num) (by norm_num)
  have v320 : Val (ofInt (2 * 160) : IEEE m) ((320 : Int) : ℚ) := Val.ofInt (by norm_num)
  have t7 := t6.div (n := 11) v320 (d := 8) (by rw [pow2_eq]; norm_num) (by norm_num) (by norm_num) (by norm_num)
  have t8 : Mag 25 (thetaLn l n cw pw y (deltaW (deltaPhi l cw pw x y)) : IEEE m) := t4.add t7 (by norm_num) (by norm_num) (by norm_num) (by norm_num)
  have a1 := h3.sub (n := 33) h4 (by norm_num) (by norm_num) (by norm_num) (by norm_num)
  have a2 : Mag 1 (ofInt (n : Int) /ᶠ ofInt 160 : IEEE m) := mn.div one60_val (d := 7) (by rw [pow2_eq]; norm_num) (by norm_num) (by norm_num) (by norm_num)
  have a3 := a2.mul (n := 34) a1 (by norm_num) (by norm_num) (by norm_num)
  have a4 : Mag 35 (ampLn n (cur.Ml ⟨l, by omega⟩) (prev.Ml ⟨l, by omega⟩) : IEEE m) := h4.add a3 (by norm_num) (by norm_num) (by norm_num) (by norm_num)
  have a5 := m2.mul (n := 36) a4 (by norm_num) (by norm_num) (by norm_num)
  exact a5.mul (hm.cosM (t8.up (by norm_num))) (by norm_num) (by norm_num) (by norm_num)

theorem Out37.mono {j k : Nat} {out : Arr 160 FP} (h : Out37 j out) (hjk : j ≤ k) : Out37 k out := fun i => by
  refine (h i).mono (mul_le_mul_of_nonneg_right ?_ (pow2_pos _).le)
  exact_mod_cast hjk

/-- The voiced bands `1..n` have amplitudes of at most `2^32`. -/
def VoiMag (n : Int) (p : Parms (IEEE m)) : Prop := ∀ l : Fin 57, 1 ≤ l.val → (l.val : Int) ≤ n → p.Vl l = 1 → Mag 32 (p.Ml l)

theorem voicedBand_mag (hm : TrigAcc m) {l k : Nat} {cw pw : IEEE m} {cur prev : Parms (IEEE m)} {out : Arr 160 (IEEE m)} (hk : k + 2 < 2 ^ 20)
    (hl : l < 57) (hc : Mag 0 cw) (hp : Mag 0 pw) (h1 : AllMag 16 cur.PHIl) (h2 : AllMag 16 prev.PHIl)
    (h3 : cur.Vl ⟨l, hl⟩ = 1 → Mag 32 (cur.Ml ⟨l, hl⟩)) (h4 : prev.Vl ⟨l, hl⟩ = 1 → Mag 32 (prev.Ml ⟨l, hl⟩)) (ho : Out37 k out) :
    Post (voicedBand cw pw cur prev l out) (Out37 (k + 2)) := by
  unfold voicedBand
  rw [Arr.rd_nat hl, ok_bind, Arr.rd_nat hl, ok_bind]
  dsimp only
  have ml : Mag 6 (ofInt (l : Int) : IEEE m) := Mag.ofInt (k := 6) (by norm_num) (by rw [abs_of_nonneg (by omega)]; omega)
  have cl : Mag 6 (cw *ᶠ ofInt (l : Int) : IEEE m) := hc.mul ml (by norm_num) (by norm_num) (by norm_num)
  have pl : Mag 6 (pw *ᶠ ofInt (l : Int) : IEEE m) := hp.mul ml (by norm_num) (by norm_num) (by norm_num)
  split
  · split
    · rename_i c1 c2
      simp only [Bool.and_eq_true, decide_eq_true_eq, useInterp] at c2
      exact (interpBand_mag hm (by omega) c2.2.1 hc hp h1 h2 (h3 c2.1.1) (h4 c2.1.2) ho).mono fun r hr => hr.mono (by omega)
    · refine Post.bind (P := fun o : Arr 160 (IEEE m) => Out37 (k + 1) o) ?_ fun o h => ?_
      · split
        · rename_i c
          refine Post.bind h2.rd fun ph hph => ?_
          rw [Arr.rd_nat hl, ok_bind]
          exact osc_mag hm (by omega) (h4 (of_decide_eq_true c)) (pl.up (by norm_num)) (hph.up (by norm_num)) ho
        · exact Post.pure (ho.mono (by omega))
      · split
        · rename_i c
          refine Post.bind h1.rd fun ph hph => ?_
          rw [Arr.rd_nat hl, ok_bind]
          refine osc_mag hm (k := k + 1) (by omega) (h3 (of_decide_eq_true c)) (cl.up (by norm_num)) ?_ h
          have m160 : Mag 8 (ofInt 160 : IEEE m) := Mag.ofInt (k := 8) (by norm_num) (by norm_num)
          have e1 := cl.mul (n := 14) m160 (by norm_num) (by norm_num) (by norm_num)
          exact hph.sub e1 (by norm_num) (by norm_num) (by norm_num) (by norm_num)
        · exact Post.pure (h.mono (by omega))
  · exact Post.pure (ho.mono (by omega))

theorem voicedLoop_mag (hm : TrigAcc m) {n : Int} {cw pw : IEEE m} {cur prev : Parms (IEEE m)} (hn : n ≤ 56) (hc : Mag 0 cw) (hp : Mag 0 pw)
    (h1 : AllMag 16 cur.PHIl) (h2 : AllMag 16 prev.PHIl) (h3 : VoiMag n cur) (h4 : VoiMag n prev) :
    Post (loopTo 1 n (voicedBand cw pw cur prev) (Arr.const 160 (fi 0))) (AllMag 44) := by
  unfold loopTo
  have h0 : Out37 (2 * 1) (Arr.const 160 (fi 0) : Arr 160 (IEEE m)) := fun i => (Mag.fi0 (m := m) 37).mono (by
    have := pow2_pos 37
    push_cast
    linarith)
  refine (loopFT_post (fun l (o : Arr 160 (IEEE m)) => Out37 (2 * l) o) (by omega) h0 fun l l1 l2 o ho => ?_).mono fun o ho i => ?_
  · exact voicedBand_mag hm (k := 2 * l) (by omega) (show l < 57 by omega) hc hp h1 h2 (h3 ⟨l, by omega⟩ l1 (by show (l : Int) ≤ n; omega))
      (h4 ⟨l, by omega⟩ l1 (by show (l : Int) ≤ n; omega)) ho
  · refine (ho i).mono ?_
    have e : pow2 44 = 128 * pow2 37 := by rw [pow2_eq, pow2_eq]; norm_num
    rw [e]
    refine mul_le_mul_of_nonneg_right ?_ (pow2_pos _).le
    have : 2 * (n.toNat + 1) ≤ 128 := by omega
    exact_mod_cast this

/-! ## Noise, counting, band extension -/

theorem lcg_mag {s : Nat} (h : s < 53125) : Mag 16 (ofInt (s : Int) : IEEE m) :=
  Mag.ofInt (k := 16) (by norm_num) (by rw [abs_of_nonneg (by omega)]; omega)

theorem noiseOverlap_mag {buf : Arr 256 (IEEE m)} {seed : IEEE m} {ov : Arr 96 (IEEE m)} {t : Tls (IEEE m)} (hb : AllMag 16 buf) (ho : AllMag 16 ov) :
    Post (Model.noiseOverlap buf seed ov t) fun r => AllMag 16 r.buf ∧ AllMag 16 r.overlap := by
  unfold Model.noiseOverlap
  split
  · split
    · exact Post.pure ⟨AllMag.const (Mag.fi0 (m := m) _), AllMag.const (Mag.fi0 (m := m) _)⟩
    · exact Post.pure ⟨AllMag.const (Mag.fi0 (m := m) _), AllMag.const (Mag.fi0 (m := m) _)⟩
  · refine Post.bind (P := fun b : Arr 256 (IEEE m) => AllMag 16 b)
      (loop_post' (fun b : Arr 256 (IEEE m) => AllMag 16 b) hb fun i b hb => Post.bind ho.rd fun x hx => hb.wr hx) fun b hb => ?_
    refine Post.bind Post.true fun u _ => ?_
    dsimp only
    refine Post.bind (P := fun s : Arr 256 (IEEE m) × Nat => AllMag 16 s.1 ∧ s.2 < 53125)
      (loopFT_post' (fun s : Arr 256 (IEEE m) × Nat => AllMag 16 s.1 ∧ s.2 < 53125) ⟨hb, Nat.mod_lt _ (by norm_num)⟩ fun i s hs =>
        Post.bind (hs.1.wr (lcg_mag hs.2)) fun b hb => Post.pure ⟨hb, lcgStep_lt _⟩) fun s hs => ?_
    exact Post.bind (P := fun b : Arr 96 (IEEE m) => AllMag 16 b)
      (loop_post' (fun b : Arr 96 (IEEE m) => AllMag 16 b) ho fun i b hb => Post.bind hs.1.rd fun x hx => hb.wr hx) fun b hb => Post.pure ⟨hs.1, hb⟩

theorem countUv_le {L : Int} (hL : L ≤ 56) (Vl : Arr 57 Int) : Post (countUv L Vl) fun n => |n| ≤ 2 ^ 6 := by
  unfold countUv
  refine (loop_post (fun l (n : Int) => 0 ≤ n ∧ n ≤ l) ⟨le_rfl, le_rfl⟩ fun i hi n hn => ?_).mono fun n hn => ?_
  · refine Post.bind Post.true fun v _ => Post.pure ?_
    split
    · constructor <;> push_cast <;> omega
    · constructor <;> push_cast <;> omega
  · rw [abs_of_nonneg hn.1]
    have := hn.2
    omega

theorem extendBands_mag {lo hi : Int} {p : Parms (IEEE m)} (h : VoiMag lo p) : Post (extendBands lo hi p) fun q => VoiMag hi q := by
  unfold extendBands
  refine (loop_post (fun k (q : Parms (IEEE m)) => VoiMag (lo + k) q) (by simpa using h) fun k hk q hq => ?_).mono fun q hq l h1 h2 => ?_
  · dsimp only
    refine Post.bind Arr.wr_post fun M hM => Post.bind Arr.wr_post fun V hV => Post.pure fun l h1 h2 hv => ?_
    dsimp only at hV hv ⊢
    rw [hM.2.2]
    by_cases c : l.val = (lo + 1 + k).toNat
    · rw [Arr.set_same c]; exact Mag.zero 32
    · rw [Arr.set_ne c]
      rw [hV.2.2, Arr.set_ne c] at hv
      exact hq l h1 (by push_cast at h2; omega) hv
  · exact hq l h1 (by omega)

end Verif.Model
