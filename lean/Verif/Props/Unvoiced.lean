import Verif.Lemmas.UnvoicedReal
import Verif.Props.Sound

/-!
# C39, C40 and the source of NaN samples (C29)
-/

namespace Verif.Props
open Verif Verif.Spec Verif.Model Verif.Num Verif.Gen Arith

section
variable {F : Type} [Arith F]

/-! ## C39 -/

/-- The only undefined operation unvoiced synthesis can perform, for any fundamental, bands, voicing, noise and buffers,
is the conversion of a band edge that is not an `int`: all array accesses are in bounds. -/
theorem C39_safe (E : Env F) (P : Plan F) (noise : Arr 256 F) (cur prev : Parms F) (out : Arr 160 F) (hL : cur.L ≤ 56) :
    (∃ r, unvoiced E P noise cur prev out = .ok r) ∨ unvoiced E P noise cur prev out = .error .floatToInt := by
  have := unvoiced_fine (U := fun u => u = .floatToInt) E P noise cur prev out hL (.inr rfl)
  unfold OkU at this
  cases h : unvoiced E P noise cur prev out with
  | ok r => exact .inl ⟨r, rfl⟩
  | error e =>
    rw [h] at this
    rcases this with ⟨r, h1, _⟩ | ⟨u, h1, h2⟩
    · cases h1
    · cases h1
      rw [h2]
      exact .inr rfl

/-- The spectrum that unvoiced synthesis transforms back: every element of the spectrum of the windowed noise is
multiplied by the gain of its bin. The gain of a bin is that of the last unvoiced band with noise power above 1e-10 that
the bin belongs to, and zero if there is none. The bins of band `l` lie within `0 .. 127`. -/
theorem C39_spectrum (E : Env F) (P : Plan F) (noise : Arr 256 F) (cur prev : Parms F) (out : Arr 160 F) (hL : cur.L ≤ 56)
    (r : Arr 160 F × Arr 256 F) (h : unvoiced E P noise cur prev out = .ok r) :
    ∃ (lo hi : Nat → Int) (S : Arr 129 F),
      (∀ l : Nat, 1 ≤ l → (l : Int) ≤ cur.L → Edges cur.w0 l (lo l) (hi l) ∧ 0 ≤ lo l ∧ hi l ≤ 128) ∧
      (∀ k : Fin 129, GainAt cur.Vl cur.Ml (E.fwd fun i => noise i *ᶠ winAt ((i.val : Int) - 128)) lo hi cur.L.toNat k.val (S k)) ∧
      r.2 = (fun i => E.bwd (fun i => E.fwd (fun i => noise i *ᶠ winAt ((i.val : Int) - 128)) i *ᶠ
        S ⟨binOf i.val, binOf_lt i⟩) i *ᶠ (lit 1 1 /ᶠ ofInt 256)) := by
  obtain ⟨lo, hi, S, h1, h2, h3, _⟩ := unvoiced_eq E P noise cur prev out hL r h
  refine ⟨lo, hi, S, fun l g1 g2 => ?_, h2, h3⟩
  have he := h1 l g1 g2
  obtain ⟨a, b, _, _, e1, e2⟩ := id he
  exact ⟨he, by rw [e1]; exact le_max_left _ _, by rw [e2]; exact min_le_left _ _⟩

/-- Only unvoiced bands contribute: a bin inside no unvoiced band is multiplied by zero, and so is bin 128. -/
theorem C39_only_unvoiced (E : Env F) (P : Plan F) (noise : Arr 256 F) (cur prev : Parms F) (out : Arr 160 F)
    (hL : cur.L ≤ 56) (r : Arr 160 F × Arr 256 F) (h : unvoiced E P noise cur prev out = .ok r) :
    ∃ S : Arr 129 F,
      r.2 = (fun i => E.bwd (fun i => E.fwd (fun i => noise i *ᶠ winAt ((i.val : Int) - 128)) i *ᶠ
        S ⟨binOf i.val, binOf_lt i⟩) i *ᶠ (lit 1 1 /ᶠ ofInt 256)) ∧
      S ⟨128, by omega⟩ = fi 0 ∧
      ∀ k : Fin 129, (∀ (l : Fin 57) (lo hi : Int), 1 ≤ l.val → (l.val : Int) ≤ cur.L → Edges cur.w0 l.val lo hi →
        lo ≤ k.val → (k.val : Int) < hi → cur.Vl l ≠ 0) → S k = fi 0 := by
  obtain ⟨lo, hi, S, h1, h2, h3⟩ := C39_spectrum E P noise cur prev out hL r h
  refine ⟨S, h3, ?_, fun k hk => ?_⟩
  · rcases h2 ⟨128, by omega⟩ with ⟨g, _⟩ | ⟨l, g1, g2, ⟨_, _, g3, _⟩, _⟩
    · exact g
    · have := (h1 l.val g1 (by omega)).2.2
      dsimp only at g3
      omega
  · rcases h2 k with ⟨g, _⟩ | ⟨l, g1, g2, ⟨g3, g4, g5, _⟩, _⟩
    · exact g
    · exact absurd g3 (hk l _ _ g1 (by omega) (h1 l.val g1 (by omega)).1 g4 g5)

end

variable {m : Libm}

/-- For every finite fundamental of magnitude up to 32768 (the decoders produce less than 1) nothing is undefined. -/
theorem C39_defined (E : Env (IEEE m)) (P : Plan (IEEE m)) (noise : Arr 256 (IEEE m)) (cur prev : Parms (IEEE m))
    (out : Arr 160 (IEEE m)) (hL : cur.L ≤ 56) (q : ℚ) (hw : Val cur.w0 q) (hq : |q| ≤ 32768) :
    ∃ r, unvoiced E P noise cur prev out = .ok r := by
  have := unvoiced_fine (U := fun _ => False) E P noise cur prev out hL (.inl (edgeConv ⟨q, hw, hq⟩ hL))
  unfold OkU at this
  rcases this with ⟨r, h, _⟩ | ⟨u, _, h⟩
  · exact ⟨r, h⟩
  · exact h.elim

/-- In binary32 arithmetic, consecutive bands are adjacent and do not overlap: with a finite fundamental between 0 and
32768, band `l` ends where band `l+1` starts, or at bin 128. So each bin belongs to at most one band. -/
theorem C39_partition (w : IEEE m) (q : ℚ) (hw : Val w q) (h0 : 0 ≤ q) (h1 : q ≤ 32768) :
    (∀ (l : Nat) (lo hi lo' hi' : Int), 1 ≤ l → l + 1 ≤ 56 → Edges w l lo hi → Edges w (l + 1) lo' hi' →
      hi = min 128 lo') ∧
    ∀ (l l' : Nat) (lo hi lo' hi' : Int), 1 ≤ l → l < l' → l' ≤ 56 → Edges w l lo hi → Edges w l' lo' hi' → hi ≤ lo' := by
  obtain ⟨e, _, hm, he⟩ := edges_seq hw h0 h1
  refine ⟨fun l lo hi lo' hi' a b c d => ?_, fun l l' lo hi lo' hi' a b c d f => ?_⟩
  · obtain ⟨_, rfl⟩ := (he l lo hi a (by omega)).1 c
    obtain ⟨rfl, _⟩ := (he (l + 1) lo' hi' (by omega) b).1 d
    rfl
  · obtain ⟨_, rfl⟩ := (he l lo hi a (by omega)).1 d
    obtain ⟨rfl, _⟩ := (he l' lo' hi' (by omega) c).1 f
    exact (min_le_right _ _).trans (hm (l + 1) l' (by omega) b)

/-- In exact arithmetic, whatever the noise: after scaling, an unvoiced band with noise power above 1e-10 has power
`(146.17696 · Ml)²` per bin, and one with less keeps gain zero. -/
theorem C39_energy (E : Env ℝ) (P : Plan ℝ) (noise : Arr 256 ℝ) (cur prev : Parms ℝ) (out : Arr 160 ℝ)
    (hL : cur.L ≤ 56) (hw : 0 ≤ cur.w0) (r : Arr 160 ℝ × Arr 256 ℝ) (h : unvoiced E P noise cur prev out = .ok r) :
    ∃ X : Arr 256 ℝ, r.2 = (fun i => E.bwd X i *ᶠ (lit 1 1 /ᶠ ofInt 256)) ∧
      ∀ (l : Fin 57) (lo hi : Int), 1 ≤ l.val → (l.val : Int) ≤ cur.L → cur.Vl l = 0 → Edges cur.w0 l.val lo hi →
        let p := bandPower (E.fwd fun i => noise i *ᶠ winAt ((i.val : Int) - 128)) lo hi
        (1 / 10000000000 < p → bandPower X lo hi = (146.17696 * cur.Ml l) ^ 2 * ((hi - lo : Int) : ℝ)) ∧
        (p ≤ 1 / 10000000000 → bandPower X lo hi = 0) := by
  obtain ⟨lo, hi, S, h1, h2, h3⟩ := C39_spectrum E P noise cur prev out hL r h
  refine ⟨_, h3, fun l a b g1 g2 g3 g4 => ?_⟩
  have hlit : (lit 1 10000000000 : ℝ) = 1 / 10000000000 := by
    rw [RealArith.lit_r _ _ (by decide)]
    norm_num
  have hlit2 : (lit 14617696 100000 : ℝ) = 146.17696 := by
    rw [RealArith.lit_r _ _ (by decide)]
    norm_num
  obtain ⟨e1, e2, e3⟩ := h1 l.val g1 g2
  have ea : a = lo l.val := by rw [(edges_real hw g1 g4).1, (edges_real hw g1 e1).1]
  have eb : b = hi l.val := by rw [(edges_real hw g1 g4).2, (edges_real hw g1 e1).2]
  subst ea eb
  -- no other band owns a bin of this one
  have uniq : ∀ (k : Nat) (l' : Fin 57) (v : ℝ), lo l.val ≤ k → (k : Int) < hi l.val → 1 ≤ l'.val → l'.val ≤ cur.L.toNat →
      Owns cur.Vl cur.Ml (E.fwd fun i => noise i *ᶠ winAt ((i.val : Int) - 128)) lo hi l' k v → l' = l := by
    intro k l' v k1 k2 q1 q2 ⟨_, o1, o2, _⟩
    by_contra hne
    have : l'.val ≠ l.val := fun e => hne (Fin.ext e)
    have f1 := (h1 l'.val q1 (by omega)).1
    rcases Nat.lt_or_gt_of_ne this with hlt | hlt
    · have := edges_real_disjoint hw q1 hlt f1 e1
      omega
    · have := edges_real_disjoint hw g1 hlt e1 f1
      omega
  dsimp only
  constructor
  · intro hp
    have hp0 : 0 < bandPower (E.fwd fun i => noise i *ᶠ winAt ((i.val : Int) - 128)) (lo l.val) (hi l.val) :=
      lt_trans (by norm_num) hp
    by_cases hle : hi l.val ≤ lo l.val
    · exfalso
      revert hp0
      unfold bandPower
      rw [show (hi l.val - lo l.val).toNat = 0 by omega, List.range_zero, List.foldl_nil, RealArith.lit_r _ _ (by decide)]
      norm_num
    have hn : (0 : ℝ) < ((hi l.val - lo l.val : Int) : ℝ) := by exact_mod_cast (show 0 < hi l.val - lo l.val by omega)
    rw [bandPower_scale _ S e2 e3 ((146.17696 * cur.Ml l) / Real.sqrt (bandPower
      (E.fwd fun i => noise i *ᶠ winAt ((i.val : Int) - 128)) (lo l.val) (hi l.val) / ((hi l.val - lo l.val : Int) : ℝ)))
      (fun k k1 k2 => ?_)]
    · rw [div_pow, Real.sq_sqrt (div_pos hp0 hn).le]
      field_simp
    · have hown : Owns cur.Vl cur.Ml (E.fwd fun i => noise i *ᶠ winAt ((i.val : Int) - 128)) lo hi l k.val
          ((lit 14617696 100000 *ᶠ cur.Ml l) /ᶠ Arith.sqrt (bandPower (E.fwd fun i => noise i *ᶠ winAt ((i.val : Int) - 128))
            (lo l.val) (hi l.val) /ᶠ ofInt (hi l.val - lo l.val))) :=
        ⟨g3, k1, k2, by rw [RealArith.lt_r, hlit]; exact hp, rfl⟩
      rcases h2 k with ⟨_, g⟩ | ⟨l', q1, q2, o, _⟩
      · exact absurd hown (g l g1 (by omega) _)
      · have := uniq k.val l' _ k1 k2 q1 q2 o
        subst this
        rw [o.2.2.2.2, hlit2]
        rfl
  · intro hp
    rw [bandPower_scale _ S e2 e3 0 (fun k k1 k2 => ?_)]
    · ring
    · rcases h2 k with ⟨g, _⟩ | ⟨l', q1, q2, o, _⟩
      · rw [g]
        exact Int.cast_zero
      · have := uniq k.val l' _ k1 k2 q1 q2 o
        subst this
        have := (RealArith.lt_r _ _).1 o.2.2.2.1
        rw [hlit] at this
        exact absurd this (not_lt.2 hp)

/-- A fundamental of 0.1 gives band 3 the bins 11 to 14. -/
example : bandLo (F := IEEE libm0) (binMultiplier (lit 1 10)) 3 = .ok 11 ∧
    bandHi (F := IEEE libm0) (binMultiplier (lit 1 10)) 3 = .ok 15 := by decide +kernel

/-! ## C40 -/

section
variable {F : Type} [Arith F]

/-- The table-driven overlap-add with a filled plan is the general one, for all buffers; it reads no element outside the
buffers and needs no fact about them. -/
theorem C40_fast (p c : Arr 256 F) (out : Arr 160 F) (raw : Plan F) :
    ∃ P, planFill raw = .ok P ∧ wolaFast P p c out = wolaCombine p c out ∧ ∃ o, wolaCombine p c out = .ok o :=
  ⟨thePlan, planFill_eq raw, (wolaCombine_eq p c out).symm, _, by rw [wolaCombine_eq, wolaFast_eq]⟩

end

/-- In binary32 arithmetic every one of the 160 samples receives the overlap-add term: the guard against small
denominators never triggers, and every denominator is a finite number between 0.48 and 1. -/
theorem C40_samples (p c : Arr 256 (IEEE m)) (out : Arr 160 (IEEE m)) :
    wolaCombine p c out = .ok (fun n => out n +ᶠ overlapAdd p c (n.val : Int)) ∧
    ∀ n : Fin 160, ∃ q : ℚ, Val (IEEE.get ((winAt (n.val : Int) *ᶠ winAt (n.val : Int)) +ᶠ
      (winAt ((n.val : Int) - 160) *ᶠ winAt ((n.val : Int) - 160) : IEEE m))) q ∧ 48 / 100 ≤ q ∧ q ≤ 1 := by
  refine ⟨?_, fun n => denomVal n⟩
  rw [wolaCombine_eq, wolaFast_eq]
  congr 1
  funext n
  rw [if_pos (denomTab n)]
  unfold overlapAdd
  rw [show (n.val : Int) - 160 + 128 = (n.val : Int) + 128 - 160 by ring]
  rfl

/-- The public function for unvoiced synthesis alone: it draws the frame of noise from the current set, adds to the output
the overlap of the block of the *previous* set with the new block, and leaves the new block, the noise state and nothing
else in the current set. -/
theorem C40_standalone (E : Env (IEEE m)) (raw P : Plan (IEEE m)) (hP : planFill raw = .ok P) (cur prev : Parms (IEEE m))
    (t : Tls (IEEE m)) (out : Arr 160 (IEEE m)) (r : Arr 160 (IEEE m) × Parms (IEEE m) × Tls (IEEE m))
    (h : unvoicedStandalone E P cur prev t out = .ok r) :
    (∀ n, r.1 n = out n +ᶠ overlapAdd prev.previousUw r.2.1.previousUw (n.val : Int)) ∧
    ∃ nr o, noiseOverlap (Arr.const 256 (fi 0)) cur.noiseSeed cur.noiseOverlap t = .ok nr ∧
      unvoiced E P nr.buf cur prev out = .ok o ∧
      r.2.1 = { cur with noiseSeed := nr.seed, noiseOverlap := nr.overlap, previousUw := o.2 } ∧ r.2.2 = nr.tls := by
  obtain ⟨nr, h1, h⟩ := bind_ok h
  obtain ⟨o, h2, h⟩ := bind_ok h
  rw [← ok_inj h]
  rw [planFill_eq raw] at hP
  have hP' := ok_inj hP
  subst hP'
  refine ⟨fun n => ?_, nr, o, h1, h2, rfl, rfl⟩
  have e : wolaFast thePlan prev.previousUw o.2 out = .ok o.1 := unvoiced_wola E thePlan nr.buf _ prev out o h2
  rw [← wolaCombine_eq, (C40_samples prev.previousUw o.2 out).1] at e
  rw [← ok_inj e]

/-- In exact arithmetic the overlap-add reconstructs a signal `x` that was windowed once around the centre of the previous
frame and once around the centre of the current frame, 160 samples later. -/
theorem C40_reconstruct (x : Int → ℝ) (p c : Arr 256 ℝ) (out : Arr 160 ℝ)
    (hp : ∀ i : Fin 256, p i = winAt ((i.val : Int) - 128) * x ((i.val : Int) - 128))
    (hc : ∀ i : Fin 256, c i = winAt ((i.val : Int) - 128) * x ((i.val : Int) - 128 + 160)) :
    wolaCombine p c out = .ok (fun n => out n + x (n.val : Int)) := by
  rw [wolaCombine_eq, wolaFast_eq]
  congr 1
  funext n
  have hd := denom_real n
  have hd' : (thePlan : Plan ℝ).denom n = (winAt (n.val : Int) : ℝ) * winAt (n.val : Int) +
      (winAt ((n.val : Int) - 160) : ℝ) * winAt ((n.val : Int) - 160) := rfl
  have hlit : (lit 1 10000000000 : ℝ) = 1 / 10000000000 := by
    rw [RealArith.lit_r _ _ (by decide)]
    norm_num
  rw [if_pos (by rw [RealArith.lt_r, hd', hlit]; linarith)]
  show out n + ((winAt (n.val : Int) : ℝ) * readOr p ((n.val : Int) + 128) +
    winAt ((n.val : Int) - 160) * readOr c ((n.val : Int) + 128 - 160)) / (thePlan : Plan ℝ).denom n = _
  have hz : ∀ k : Int, k < -105 ∨ k > 105 → (winAt k : ℝ) = 0 := by
    intro k hk
    unfold winAt
    rw [if_pos hk, RealArith.lit_r _ _ (by decide)]
    norm_num
  have e1 : (winAt (n.val : Int) : ℝ) * readOr p ((n.val : Int) + 128) =
      winAt (n.val : Int) * (winAt (n.val : Int) * x (n.val : Int)) := by
    by_cases h : n.val < 128
    · unfold readOr
      rw [dif_pos ⟨by omega, by omega⟩, hp]
      have : ((((n.val : Int) + 128).toNat : Nat) : Int) - 128 = (n.val : Int) := by omega
      dsimp only
      rw [this]
    · rw [hz _ (.inr (by omega))]
      ring
  have e2 : (winAt ((n.val : Int) - 160) : ℝ) * readOr c ((n.val : Int) + 128 - 160) =
      winAt ((n.val : Int) - 160) * (winAt ((n.val : Int) - 160) * x (n.val : Int)) := by
    by_cases h : 32 ≤ n.val
    · unfold readOr
      rw [dif_pos ⟨by omega, by omega⟩, hc]
      have : ((((n.val : Int) + 128 - 160).toNat : Nat) : Int) - 128 = (n.val : Int) - 160 := by omega
      dsimp only
      rw [this, show (n.val : Int) - 160 + 160 = (n.val : Int) by ring]
    · rw [hz _ (.inl (by omega))]
      ring
  rw [e1, e2, hd']
  have hne : (winAt (n.val : Int) : ℝ) * winAt (n.val : Int) +
      (winAt ((n.val : Int) - 160) : ℝ) * winAt ((n.val : Int) - 160) ≠ 0 := by linarith
  rw [← mul_assoc, ← mul_assoc, ← add_mul, mul_comm _ (x _), mul_div_assoc, div_self hne, mul_one]

/-- A constant signal windowed in both buffers comes back. -/
example : wolaCombine (fun i => winAt ((i.val : Int) - 128) * 1000) (fun i => winAt ((i.val : Int) - 128) * 1000)
    (fun _ => (5 : ℝ)) = .ok (fun _ => 5 + 1000) :=
  C40_reconstruct (fun _ => 1000) _ _ _ (fun _ => rfl) (fun _ => rfl)

/-! ## C29: where NaN comes from -/

theorem smoothing_plan {F : Type} [Arith F] {a : Nat} {cur prev : Parms F} {t : Tls F} {c : Parms F} {t1 : Tls F}
    (x : Option (Plan F)) (h : applySmoothing a cur prev t = .ok (c, t1)) :
    applySmoothing a cur prev { t with plan := x } = .ok (c, { t1 with plan := x }) := by
  unfold applySmoothing at h ⊢
  obtain ⟨⟨rm0, t2⟩, e1, h⟩ := bind_ok h
  have e1' : smoothRm0 a cur { t with plan := x } = .ok (rm0, { t2 with plan := x }) := by
    unfold smoothRm0 at e1 ⊢
    by_cases hv : t.preEnhValid ∧ t.preEnhOwner = a
    · rw [if_pos hv] at e1
      rw [if_pos (show ({ t with plan := x } : Tls F).preEnhValid ∧ ({ t with plan := x } : Tls F).preEnhOwner = a from hv)]
      cases ok_inj e1
      rfl
    · rw [if_neg hv] at e1
      rw [if_neg (show ¬ (({ t with plan := x } : Tls F).preEnhValid ∧ ({ t with plan := x } : Tls F).preEnhOwner = a) from hv)]
      obtain ⟨y, e, e1⟩ := bind_ok e1
      rw [e, ok_bind]
      cases ok_inj e1
      rfl
  rw [e1', ok_bind]
  dsimp only at h ⊢
  obtain ⟨v, e2, h⟩ := bind_ok h
  obtain ⟨am, e3, h⟩ := bind_ok h
  obtain ⟨tm, e4, h⟩ := bind_ok h
  obtain ⟨ml, e5, h⟩ := bind_ok h
  rw [e2, ok_bind, e3, ok_bind, e4, ok_bind, e5, ok_bind]
  cases ok_inj h
  rfl

/-- If a synthesised sample is NaN then the voiced part alone is NaN there, or the overlap-add term is NaN there, or the
two are infinities of opposite sign. The voiced part alone is what the same call produces on a thread that has no FFT
plan and cannot allocate one; where it is infinite that call shows the clipping limit. -/
theorem C29_nan_source (E : Env (IEEE m)) (a : Nat) (out : Arr 160 (IEEE m)) (cur prev : Parms (IEEE m)) (t : Tls (IEEE m))
    (uvq : Int) (r : SynthRes (IEEE m)) (h : synthesizeSpeechf E a out cur prev t uvq = .ok r) (n : Fin 160)
    (hn : r.out n = FP.nan) :
    ∃ r', synthesizeSpeechf { E with alloc := false } a out cur prev { t with plan := none } uvq = .ok r' ∧
      (r'.out n = FP.nan ∨ ∃ P u, r.tls.plan = some P ∧
        wolaFast P r.prev.previousUw r.cur.previousUw (Arr.const 160 (fi 0)) = .ok u ∧
        (u n = FP.nan ∨ ∃ s, u n = FP.inf s ∧ Val (r'.out n) (if s then 4553677 / 1024 else -(4553677 / 1024)))) := by
  unfold synthesizeSpeechf at h ⊢
  obtain ⟨⟨cur', t'⟩, hs, h⟩ := bind_ok h
  rw [smoothing_plan none hs, ok_bind]
  dsimp only at h ⊢
  by_cases hm : synthMuted cur' = true
  · exfalso
    rw [if_pos hm] at h
    obtain ⟨x, hx, h⟩ := bind_ok h
    obtain ⟨v, hv, e⟩ := comfortNoisef_bnd _ _ _ hx n
    rw [← ok_inj h] at hn
    dsimp only at hn
    rw [e] at hn
    obtain ⟨s, hs⟩ := comfortSample_val (m := m) hv
    rw [hs] at hn
    cases hn
  · rw [if_neg hm] at h ⊢
    obtain ⟨r', voiced, h1, h2, h3⟩ := synthUnmuted_split E cur' prev t' r h
    refine ⟨r', h1, ?_⟩
    rcases h3 with ⟨_, h3⟩ | ⟨P, mix, h3, h4, h5⟩
    · left
      rw [h2 n, ← h3 n, hn]
    · rw [h5 n] at hn
      have hx := (C29_clip_nan (m := m) (mix n)).1 hn
      rw [wolaFast_eq] at h4
      have hmix : (if lt (lit 1 10000000000) (P.denom n) = true then
          voiced n +ᶠ wolaSample P r.prev.previousUw r.cur.previousUw n else voiced n) = mix n := congrFun (ok_inj h4) n
      by_cases hd : lt (lit 1 10000000000) (P.denom n) = true
      · rw [if_pos hd, hx] at hmix
        rcases add_nan hmix with e | e | ⟨s, e1, e2⟩
        · left
          rw [h2 n, e]
          exact (C29_clip_nan (m := m) _).2 rfl
        · right
          refine ⟨P, _, h3, wolaFast_eq _ _ _ _, .inl ?_⟩
          rw [if_pos hd, e]
          rfl
        · right
          refine ⟨P, _, h3, wolaFast_eq _ _ _ _, .inr ⟨!s, ?_, ?_⟩⟩
          · rw [if_pos hd, e2]
            rfl
          · rw [h2 n, e1, show clipSample (F := IEEE m) (FP.inf s) = clipR (FP.inf s) from clipSample_ieee (m := m) _,
              clipR_inf s]
            cases s
            · exact ⟨_, rfl⟩
            · exact ⟨_, rfl⟩
      · rw [if_neg hd, hx] at hmix
        left
        rw [h2 n, hmix]
        exact (C29_clip_nan (m := m) _).2 rfl

end Verif.Props
