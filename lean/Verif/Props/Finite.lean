import Verif.Lemmas.FinApi
import Verif.Lemmas.FinFft
import Verif.Props.Sound

/-!
# C65: where the samples are finite
-/

namespace Verif.Props
open Verif Verif.Spec Verif.Model Verif.Num Verif.Gen Arith

variable {m : Libm}

/-- **The samples of a program are finite as long as the decoded amplitudes stay moderate.** Take any sequence of calls
of the entry points, from initialised structures, with arguments as documented and reported error counts of at most 20. If
after every call the amplitudes of the last frame are at most `2^27` and all zero or not all below `2^-10`, then every block
of 160 samples delivered consists of finite numbers, and converts to 16-bit integers without undefined behaviour.

Partial: the claim C65 has no hypothesis on the amplitudes, and is false without one (`C65_witness`). The bound `2^27` is not
sharp: NaN appears once the energy exceeds `2^64`. -/
theorem C65_finite_partial (hm : TrigAcc m) (he : Exp2Acc m) (E : Env (IEEE m)) (hE : Runs E) (as : List (Api (IEEE m)))
    (hv : ∀ a ∈ as, a.Valid) (h20 : ∀ a ∈ as, a.ErrsLe 20) (s : St (IEEE m)) (hs : Fresh s)
    (ha : ∀ bs, bs <+: as → ∀ s', runApi E bs s = .ok s' → AmpsOk s'.prev)
    (l : List (Option (Arr 160 (IEEE m) × List Char))) (s' : St (IEEE m)) (h : deliveries (Api.call E) as s = .ok (l, s')) :
    ∀ x ∈ l, ∀ pcm str, x = some (pcm, str) →
      AllFin pcm ∧ ∀ sbuf : Arr 160 Int, ∃ r, floatToShort pcm sbuf = .ok r ∧ ∀ i, |r i| ≤ 31128 := by
  intro x hx pcm str e
  have hf : AllFin pcm := (runApi_fin hm he hE hv h20 (fresh_ok hs).1 (fresh_fin hs) ha h x hx _ e).fin
  refine ⟨hf, fun sbuf => ?_⟩
  obtain ⟨r, h1, _, h2⟩ := C28_buffers (m := m) pcm (fun i hn => by
    obtain ⟨q, s, v⟩ := hf i
    rw [hn] at v
    cases v) sbuf
  exact ⟨r, h1, h2⟩

/-- Each transform multiplies a bound on its input by at most 4096, rounding included. -/
theorem C65_transform_bound (hm : TrigAcc m) (E : Env (IEEE m)) (hE : Runs E) (k : Int) (h0 : 0 ≤ k) (hk : k ≤ 100) (U : Arr 256 (IEEE m))
    (hU : ∀ i, ∃ q, Val (U i) q ∧ |q| ≤ 2 ^ k) :
    ∀ i, (∃ q, Val (E.fwd U i) q ∧ |q| ≤ 2 ^ (k + 12)) ∧ ∃ q, Val (E.bwd U i) q ∧ |q| ≤ 2 ^ (k + 12) := by
  have := runs_fftBnd hm hE k U h0 hk fun i => by
    obtain ⟨q, v, hq⟩ := hU i
    exact ⟨q, v, by rw [pow2_eq]; exact hq⟩
  intro i
  obtain ⟨q, v, hq⟩ := this.1 i
  obtain ⟨q', v', hq'⟩ := this.2 i
  rw [pow2_eq] at hq hq'
  exact ⟨⟨q, v, hq⟩, q', v', hq'⟩

/-! ## A latent NaN -/

/-- An AMBE erasure leaves the model parameters with the fundamental zero, nine unvoiced harmonics of amplitude one. -/
theorem C65_erasure_parms {F : Type} [Arith F] (c p : Parms F) : ∃ q, setAmbeErasureParms c p = .ok q ∧ q.w0 = lit 0 1 ∧ q.L = 9 ∧
    ∀ l, q.Ml l = lit 1 1 ∧ q.Vl l = 0 :=
  ⟨_, setAmbeErasureParms_eq c p, rfl, rfl, fun _ => ⟨rfl, rfl⟩⟩

/-- If a frame that is to be repeated follows, `mbe_spectralAmpEnhance` is applied to them: the two energies are equal, the
denominator is zero, and all nine amplitudes become NaN. (They stay inaudible: the harmonics are unvoiced and, with the
fundamental zero, belong to no bin; the samples are finite by `C65_finite_partial`.) -/
theorem C65_erasure_latent_nan (hm : TrigAcc m) (c p q : Parms (IEEE m)) (hq : setAmbeErasureParms c p = .ok q) (addr : Nat) (t : Tls (IEEE m))
    (r : Parms (IEEE m) × Tls (IEEE m)) (hr : spectralAmpEnhance addr q t = .ok r) :
    ∀ l : Fin 57, 1 ≤ l.val → l.val ≤ 9 → r.1.Ml l = FP.nan := by
  rw [setAmbeErasureParms_eq] at hq
  cases hq
  intro l h1 h2
  exact enhance_erase hm (cur := ambeErasure c p) ⟨false, rfl⟩ (by show (9 : Int) ≤ 9; decide) (by show (9 : Int) ≤ 56; decide)
    (fun _ _ _ => one_val) r hr l h1 (by show (l.val : Int) ≤ 9; omega)

/-! ## The hypotheses can be met -/

/-- Libraries of that accuracy exist. -/
theorem C65_finite_hypothesis_satisfiable : ∃ m : Libm, TrigAcc m ∧ Exp2Acc m := by
  classical
  have key : ∀ x e : ℝ, 0 < e → ∃ r : ℚ, |(r : ℝ) - x| ≤ e := by
    intro x e he
    obtain ⟨r, h1, h2⟩ := exists_rat_btwn (show x < x + e by linarith)
    exact ⟨r, by rw [abs_le]; constructor <;> linarith⟩
  have pos : ∀ y : ℚ, 0 < (2 : ℝ) ^ (y : ℝ) / 1000 := fun y => div_pos (Real.rpow_pos_of_pos (by norm_num) _) (by norm_num)
  let ex : FP → FP := fun x => match x with
    | .fin _ y => .fin false (key ((2 : ℝ) ^ (y : ℝ)) _ (pos y)).choose
    | x => x
  let co : FP → FP := fun x => match x with
    | .fin _ y => .fin false (if y = 0 then 1 else (key (Real.cos y) (1 / 1048576) (by norm_num)).choose)
    | x => x
  let si : FP → FP := fun x => match x with
    | .fin _ y => .fin false (if y = 0 then 0 else (key (Real.sin y) (1 / 1048576) (by norm_num)).choose)
    | x => x
  refine ⟨⟨co, si, ex, id, id⟩, ⟨?_, ?_, ?_, ?_⟩, ?_⟩
  · rintro x y ⟨s, rfl⟩ _
    refine ⟨_, ⟨false, rfl⟩, ?_⟩
    split
    · next h => rw [h]; norm_num
    · exact (key (Real.cos y) (1 / 1048576) (by norm_num)).choose_spec
  · rintro x y ⟨s, rfl⟩ _
    refine ⟨_, ⟨false, rfl⟩, ?_⟩
    split
    · next h => rw [h]; norm_num
    · exact (key (Real.sin y) (1 / 1048576) (by norm_num)).choose_spec
  · rintro x ⟨s, rfl⟩
    exact ⟨false, congrArg (FP.fin false) (if_pos rfl)⟩
  · rintro x ⟨s, rfl⟩
    exact ⟨false, congrArg (FP.fin false) (if_pos rfl)⟩
  · rintro x y ⟨s, rfl⟩ _ _
    exact ⟨_, ⟨false, rfl⟩, (key ((2 : ℝ) ^ (y : ℝ)) _ (pos y)).choose_spec⟩

theorem erasure_amps (c p : Parms (IEEE m)) : AmpsOk (ambeErasure c p) :=
  ⟨fun _ => 1, fun _ _ _ => ⟨one_val, by norm_num, by norm_num⟩, .inr ⟨1, le_refl _, by show ((1 : Nat) : Int) ≤ 9; decide, by norm_num⟩⟩

/-- An erasure payload. -/
def erased (i : Nat) : Int := if i < 4 then 1 else 0

theorem erased_bits : Bits 49 erased := fun i _ => by unfold erased; split <;> simp

theorem erased_amps {E : Env (IEEE m)} {C : Call (IEEE m)} {s s' : St (IEEE m)} (h : (Api.ambe2450Data C 0 0 erased).run E s = .ok s') :
    AmpsOk s'.prev := by
  obtain ⟨o, ho, h⟩ := bind_ok (show (processAmbe2450 E C none 0 erased s >>= fun o => Except.ok o.st) = .ok s' from h)
  cases h
  obtain ⟨s1, r, v, p, P⟩ := processAmbe2450_parts ho
  have hd := P.decode
  rw [((decodeAmbe2450_eq erased_bits _ _ _ _ _).2 (by decide)).1 (by decide)] at hd
  cases hd
  have hV := P.verdict
  have hR := P.render
  unfold ambe2450Verdict at hV
  unfold ambe2450Render at hR
  rw [if_pos rfl, setAmbeErasureParms_eq, ok_bind] at hV
  cases hV
  rw [if_neg (show (2 : Int) ≠ 0 by decide), if_neg (show (2 : Int) ≠ 7 by decide), if_pos rfl] at hR
  obtain ⟨q, e, hR⟩ := bind_ok hR
  cases hR
  rw [P.st]
  exact erasure_amps _ _

theorem fresh_amps {s : St (IEEE m)} (h : Fresh s) : AmpsOk s.prev := by
  rcases (fresh_cases h).2 with e | e
  · rw [e]
    exact ⟨fun _ => 1, fun _ _ _ => ⟨one_val, by norm_num, by norm_num⟩, .inr ⟨1, le_refl _, by show ((1 : Nat) : Int) ≤ 39; decide, by norm_num⟩⟩
  · rw [e]
    exact ⟨fun _ => 1, fun _ _ _ => ⟨one_val, by norm_num, by norm_num⟩, .inr ⟨1, le_refl _, by show ((1 : Nat) : Int) ≤ 15; decide, by norm_num⟩⟩

/-- Any number of erasures meets the hypothesis on the amplitudes: 160 finite samples each. -/
example (n : Nat) (E : Env (IEEE m)) (C : Call (IEEE m)) (s : St (IEEE m)) (hs : Fresh s) :
    ∀ bs, bs <+: List.replicate n (Api.ambe2450Data C 0 0 erased) → ∀ s', runApi E bs s = .ok s' → AmpsOk s'.prev := by
  intro bs hb s' h
  have hb' : ∀ b ∈ bs, b = Api.ambe2450Data C 0 0 erased := fun b k => List.eq_of_mem_replicate (hb.subset k)
  clear hb
  have h0 := fresh_amps hs
  clear hs
  induction bs generalizing s with
  | nil => cases h; exact h0
  | cons b bs ih =>
    obtain ⟨t, h1, h2⟩ := bind_ok (show (b.run E s >>= fun s => runApi E bs s) = .ok s' from h)
    rw [hb' b (.head _)] at h1
    exact ih t h2 (fun b k => hb' b (.tail _ k)) (erased_amps h1)

end Verif.Props
