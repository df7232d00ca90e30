import Verif.Lemmas.FinVoiced
import Verif.Lemmas.UnvoicedNum

/-!
# Magnitudes in the unvoiced synthesis
-/

namespace Verif.Model
open Verif Verif.Gen Verif.Spec Verif.Num Arith
variable {m : Libm}

/-- The two transforms enlarge the largest magnitude at most by the factor `2^12` (a sum of 256 products with factors of
magnitude 1 enlarges it by `2^8` before rounding). -/
def FftBnd (E : Env (IEEE m)) : Prop := ∀ (k : Int) (U : Arr 256 (IEEE m)), 0 ≤ k → k ≤ 100 → AllMag k U →
  AllMag (k + 12) (E.fwd U) ∧ AllMag (k + 12) (E.bwd U)

theorem wss_le0 : ∀ v ∈ Ws_synthesis, bndB (lit v Ws_synthesis_den : IEEE libm0) 1 = true := by decide +kernel

theorem pow2_zero' : pow2 0 = 1 := by rw [pow2_eq]; norm_num

theorem winAt_mag (n : Int) : Mag 0 (winAt n : IEEE m) := by
  unfold winAt
  split
  · exact Mag.zero 0
  · by_cases h : (n + 105).toNat < Ws_synthesis.length
    · have e : Ws_synthesis.getD (n + 105).toNat 0 ∈ Ws_synthesis := by
        rw [List.getD_eq_getElem?_getD, List.getElem?_eq_getElem h]
        exact List.getElem_mem h
      have h : bndB (lit (Ws_synthesis.getD (n + 105).toNat 0) Ws_synthesis_den : IEEE m) 1 = true := wss_le0 _ e
      have := Bnd.of h
      show Bnd _ (pow2 0)
      rwa [pow2_zero']
    · have e : Ws_synthesis.getD (n + 105).toNat 0 = 0 := by
        rw [List.getD_eq_getElem?_getD, List.getElem?_eq_none (by omega)]
        rfl
      rw [e]
      refine ⟨0, ⟨false, ?_⟩, by rw [abs_zero]; exact (pow2_pos _).le⟩
      show FP.round F32 false (mkRat 0 Ws_synthesis_den) = _
      rw [Rat.zero_mkRat]
      unfold FP.round
      rw [if_pos rfl]

theorem readOr_mag {k : Int} {a : Arr 256 (IEEE m)} (h : AllMag k a) (i : Int) : Mag k (readOr a i : IEEE m) := by
  unfold readOr
  split
  · exact h _
  · exact Mag.zero k

theorem binPower_mag {fft : Arr 256 (IEEE m)} (h : AllMag 28 fft) (k : Nat) : Mag 57 (binPower fft k : IEEE m) := by
  have sq : ∀ {x : IEEE m}, Mag 28 x → Mag 56 (x *ᶠ x : IEEE m) := fun hx => hx.mul hx (by norm_num) (by norm_num) (by norm_num)
  have a := readOr_mag h
  unfold binPower
  split
  · exact (sq (a _)).up (by norm_num)
  split
  · exact (sq (a _)).up (by norm_num)
  · exact (sq (a _)).add (sq (a _)) (by norm_num) (by norm_num) (by norm_num) (by norm_num)

theorem repr_k57 {k : Nat} (hk : k ≤ 2 ^ 20) : Repr F32 (k * pow2 57) :=
  ⟨k, 57, by simp, by
    rw [abs_of_nonneg (by omega)]
    exact_mod_cast hk.trans (by decide : 2 ^ 20 ≤ 2 ^ 24), by decide⟩

theorem k57_big {k : Nat} (hk : k ≤ 2 ^ 20) : (k : ℚ) * pow2 57 ≤ Val.big := by
  have h1 : (k : ℚ) ≤ 2 ^ 20 := by exact_mod_cast hk
  have e : pow2 57 = 2 ^ 57 := by rw [pow2_eq]; norm_num
  rw [e]
  refine le_trans ?_ big_ge
  have : (k : ℚ) * 2 ^ 57 ≤ 2 ^ 20 * 2 ^ 57 := mul_le_mul_of_nonneg_right h1 (by norm_num)
  exact this.trans (by norm_num)

theorem bandPower_mag {fft : Arr 256 (IEEE m)} (h : AllMag 28 fft) {a b : Int} (ha : 0 ≤ a) (hb : b ≤ 128) : Mag 65 (bandPower fft a b : IEEE m) := by
  have key : ∀ n, n ≤ 128 → Bnd ((List.range n).foldl (fun s i => s +ᶠ binPower fft (a.toNat + i)) (lit 0 1) : IEEE m) (n * pow2 57) := by
    intro n
    induction n with
    | zero => intro _; exact ⟨0, ⟨false, rfl⟩, by simp⟩
    | succ n ih =>
      intro hn
      rw [List.range_succ, List.foldl_append]
      show Bnd (_ +ᶠ _ : IEEE m) _
      exact Bnd.add (ih (by omega)) (binPower_mag h _) (by push_cast; linarith) (repr_k57 (by omega)) (k57_big (by omega))
  refine (key _ (by omega)).mono ?_
  have e : pow2 65 = 256 * pow2 57 := by rw [pow2_eq, pow2_eq]; norm_num
  rw [e]
  refine mul_le_mul_of_nonneg_right ?_ (pow2_pos _).le
  have : (b - a).toNat ≤ 256 := by omega
  exact_mod_cast this

theorem lit146_0 : rngB (lit 14617696 100000 : IEEE libm0) 0 256 = true := by decide +kernel
theorem lit1e10_0 : rngB (lit 1 10000000000 : IEEE libm0) (1 / 2 ^ 34) 1 = true := by decide +kernel

theorem gain_mag {Ml num : IEEE m} {cnt : Int} (hM : Mag 32 Ml) (hn : Mag 65 num) (h : lt (lit 1 10000000000) num = true) (c1 : 1 ≤ cnt)
    (c2 : cnt ≤ 128) : Mag 61 ((lit 14617696 100000 *ᶠ Ml) /ᶠ sqrt (num /ᶠ ofInt cnt) : IEEE m) := by
  have r1 : rngB (lit 14617696 100000 : IEEE m) 0 256 = true := lit146_0
  have r2 : rngB (lit 1 10000000000 : IEEE m) (1 / 2 ^ 34) 1 = true := lit1e10_0
  obtain ⟨c, vc, k1, k2⟩ := rng_of r1
  obtain ⟨t, vt, k3, _⟩ := rng_of r2
  obtain ⟨q, vq, hq⟩ := hn
  rw [vt.lt vq, decide_eq_true_eq] at h
  have mc : Mag 8 (lit 14617696 100000 : IEEE m) := ⟨c, vc, by rw [abs_of_nonneg k1, pow2_eq]; exact k2.trans (by norm_num)⟩
  have mm := mc.mul (n := 40) hM (by norm_num) (by norm_num) (by norm_num)
  have v := Val.ofInt (m := m) (n := cnt) (by rw [abs_of_nonneg (by omega)]; omega)
  have g1 : (1 : ℚ) ≤ cnt := by exact_mod_cast c1
  have g2 : (cnt : ℚ) ≤ 128 := by exact_mod_cast c2
  have g0 : (0 : ℚ) < cnt := by linarith
  have q0 : 0 < q := by
    have : (0 : ℚ) < 1 / 2 ^ 34 := by norm_num
    linarith
  rw [abs_of_pos q0] at hq
  have lo : pow2 (-42) ≤ q / cnt := by
    rw [le_div_iff₀ g0]
    have : pow2 (-42) = 1 / 2 ^ 42 := by rw [pow2_eq]; norm_num
    rw [this]
    have : (1 : ℚ) / 2 ^ 42 * cnt ≤ 1 / 2 ^ 42 * 128 := mul_le_mul_of_nonneg_left g2 (by norm_num)
    have e : (1 : ℚ) / 2 ^ 42 * 128 ≤ 1 / 2 ^ 34 := by norm_num
    linarith
  have hi : q / cnt ≤ pow2 65 := by
    rw [div_le_iff₀ g0]
    have := pow2_pos 65
    nlinarith
  have v' := vq.div v g0.ne' (by rw [abs_of_pos (lt_of_lt_of_le (pow2_pos _) lo)]; exact hi.trans (pow2_big (by norm_num)))
  have lo' := le_rnd_of_repr F32_p (repr32_pow2 (k := -42) (by norm_num)) lo
  have hi' := rnd_le_of_repr F32_p (repr32_pow2 (k := 65) (by norm_num)) hi
  obtain ⟨r, vr, r1, _⟩ := v'.sqrt_between (j := -21) (k := 33) (by norm_num) (by simpa using lo') (lt_of_le_of_lt hi' (by rw [pow2_eq, pow2_eq]; norm_num))
  exact mm.div vr (d := -21) (by rw [abs_of_nonneg ((pow2_pos _).le.trans r1)]; exact r1) (by norm_num) (by norm_num) (by norm_num)

/-- What the unvoiced synthesis needs: bounded amplitudes in the unvoiced bands, or bands without bins. -/
def UnvMag (p : Parms (IEEE m)) : Prop :=
  (∀ l : Fin 57, 1 ≤ l.val → (l.val : Int) ≤ p.L → p.Vl l = 0 → Mag 32 (p.Ml l)) ∨ Val p.w0 0

theorem binMul_zero {x : IEEE m} (h : Val x 0) : Val (binMultiplier x : IEEE m) 0 := by
  unfold binMultiplier
  have : bndB (lit 256 1 /ᶠ (lit 2 1 *ᶠ lit 314159265358979323846 100000000000000000000) : IEEE libm0) 100 = true := by decide +kernel
  have h1 : bndB (lit 256 1 /ᶠ (lit 2 1 *ᶠ lit 314159265358979323846 100000000000000000000) : IEEE m) 100 = true := this
  obtain ⟨q, vq, _⟩ := Bnd.of h1
  exact mul_zero_val vq h

theorem edges_zero {w : IEEE m} (h : Val w 0) {l : Nat} (hl : l < 57) {lo hi : Int} (he : Edges w l lo hi) : hi ≤ 0 := by
  obtain ⟨a, b, _, hb, _, rfl⟩ := he
  have v5 : Mag 0 (lit 5 10 : IEEE m) := by
    have : bndB (lit 5 10 : IEEE libm0) 1 = true := by decide +kernel
    have h1 : bndB (lit 5 10 : IEEE m) 1 = true := this
    have := Bnd.of h1
    show Bnd _ (pow2 0)
    rwa [pow2_zero']
  have ml : Mag 6 (ofInt (l : Int) : IEEE m) := Mag.ofInt (k := 6) (by norm_num) (by rw [abs_of_nonneg (by omega)]; omega)
  obtain ⟨q, vq, _⟩ := ml.add (n := 7) v5 (by norm_num) (by norm_num) (by norm_num) (by norm_num)
  have z := (mul_zero_val vq (binMul_zero h)).ceil
  have e : ((⌈(0 : ℚ)⌉ : Int) : ℚ) = 0 := by simp
  rw [e] at z
  rw [z.toI32 le_rfl (by norm_num)] at hb
  have := ok_inj hb
  simp at this
  omega

theorem gainAt_mag {p : Parms (IEEE m)} {fft : Arr 256 (IEEE m)} {lo hi : Nat → Int} {k : Nat} {v : IEEE m} (hf : AllMag 28 fft) (hU : UnvMag p)
    (he : ∀ l : Nat, 1 ≤ l → (l : Int) ≤ p.L → Edges p.w0 l (lo l) (hi l)) (h : GainAt p.Vl p.Ml fft lo hi p.L.toNat k v) :
    Mag 61 v := by
  rcases h with ⟨rfl, _⟩ | ⟨l, h1, h2, ⟨o1, o2, o3, o4, rfl⟩, _⟩
  · exact Mag.fi0 61
  · have hl : (l.val : Int) ≤ p.L := by omega
    have hE := he l.val h1 hl
    rcases hU with hU | hU
    · obtain ⟨a, b, _, _, e1, e2⟩ := hE
      have g1 : 0 ≤ lo l.val := by rw [e1]; exact le_max_left _ _
      have g2 : hi l.val ≤ 128 := by rw [e2]; exact min_le_left _ _
      exact gain_mag (hU l h1 hl o1) (bandPower_mag hf g1 g2) o4 (by omega) (by omega)
    · have := edges_zero hU l.isLt hE
      omega

/-- Samples and stored block of the unvoiced synthesis. -/
theorem unvoiced_mag {E : Env (IEEE m)} (hE : FftBnd E) {noise : Arr 256 (IEEE m)} {cur prev : Parms (IEEE m)} {out : Arr 160 (IEEE m)}
    (hn : AllMag 16 noise) (hU : UnvMag cur) (hL : cur.L ≤ 56) (hp : AllMag 93 prev.previousUw) (ho : AllMag 44 out) :
    Post (unvoiced E thePlan noise cur prev out) fun r => AllMag 97 r.1 ∧ AllMag 93 r.2 := by
  refine (unvoiced_eq E thePlan noise cur prev out hL).mono fun r hr => ?_
  obtain ⟨lo, hi, S, he, hS, h2, h3⟩ := hr
  have w16 : AllMag 16 (fun i => noise i *ᶠ winAt ((i.val : Int) - 128) : Arr 256 (IEEE m)) := fun i =>
    (hn i).mul (winAt_mag _) (by norm_num) (by norm_num) (by norm_num)
  have f28 := (hE 16 _ (by norm_num) (by norm_num) w16).1
  have S61 : ∀ k, Mag 61 (S k) := fun k => gainAt_mag f28 hU he (hS k)
  have s89 : AllMag 89 (fun i => E.fwd (fun i => noise i *ᶠ winAt ((i.val : Int) - 128)) i *ᶠ S ⟨binOf i.val, binOf_lt i⟩ : Arr 256 (IEEE m)) :=
    fun i => (f28 i).mul (S61 _) (by norm_num) (by norm_num) (by norm_num)
  have b101 := (hE 89 _ (by norm_num) (by norm_num) s89).2
  have n256 : Mag (-8) (lit 1 1 /ᶠ ofInt 256 : IEEE m) := by
    have h1 : Mag 0 (lit 1 1 : IEEE m) := ⟨1, one_val, by rw [pow2_eq]; norm_num⟩
    have v : Val (ofInt 256 : IEEE m) ((256 : Int) : ℚ) := Val.ofInt (by norm_num)
    exact h1.div v (d := 8) (by have e : pow2 8 = 256 := by { rw [pow2_eq]; norm_num }
                                rw [e]; norm_num) (by norm_num) (by norm_num) (by norm_num)
  have u93 : AllMag 93 r.2 := by
    rw [h2]
    exact fun i => (b101 i).mul n256 (by norm_num) (by norm_num) (by norm_num)
  refine ⟨?_, u93⟩
  rw [wolaFast_eq] at h3
  rw [← ok_inj h3]
  intro i
  dsimp only
  split
  · refine (ho i).add (k := 96) ?_ (by norm_num) (by norm_num) (by norm_num) (by norm_num)
    obtain ⟨d, vd, d1, _⟩ := denomVal (m := m) i
    have vd' : Val ((thePlan : Plan (IEEE m)).denom i) d := vd
    unfold wolaSample
    have a1 : Mag 93 ((thePlan : Plan (IEEE m)).wPrev i *ᶠ readOr prev.previousUw ((thePlan : Plan (IEEE m)).prevIdx i) : IEEE m) :=
      (winAt_mag _).mul (readOr_mag hp _) (by norm_num) (by norm_num) (by norm_num)
    have a2 : Mag 93 ((thePlan : Plan (IEEE m)).wCurr i *ᶠ readOr r.2 ((thePlan : Plan (IEEE m)).currIdx i) : IEEE m) :=
      (winAt_mag _).mul (readOr_mag u93 _) (by norm_num) (by norm_num) (by norm_num)
    have a3 := a1.add (n := 94) a2 (by norm_num) (by norm_num) (by norm_num) (by norm_num)
    refine a3.div vd' (d := -2) ?_ (by norm_num) (by norm_num) (by norm_num)
    rw [abs_of_nonneg (by linarith), pow2_eq]
    refine le_trans ?_ d1
    norm_num
  · exact (ho i).up (by norm_num)

end Verif.Model
