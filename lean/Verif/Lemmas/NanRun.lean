import Verif.Lemmas.IvlRun
import Verif.Lemmas.Exec
import Verif.Model.Synth

/-!
# How a NaN gets into the samples

An energy `Rm0` whose square overflows turns the weight of the spectral enhancement into a NaN; a NaN amplitude of a voiced
harmonic turns every sample into a NaN.
-/

namespace Verif.Model
open Verif Verif.Gen Verif.Num Arith

variable {m : Libm}

/-! ## Operations -/

/-- The NaN of the carrier `IEEE m`. -/
def qnan : IEEE m := FP.nan

/-- An infinity or a NaN. -/
def Huge (x : FP) : Prop := x = FP.nan ∨ ∃ s, x = FP.inf s

theorem qnan_mul (x : IEEE m) : ((qnan : IEEE m) *ᶠ x : IEEE m) = qnan := by cases x <;> rfl
theorem qmul_nan (x : IEEE m) : (x *ᶠ (qnan : IEEE m) : IEEE m) = qnan := by cases x <;> rfl
theorem qnan_add (x : IEEE m) : ((qnan : IEEE m) +ᶠ x : IEEE m) = qnan := by cases x <;> rfl
theorem qadd_nan (x : IEEE m) : (x +ᶠ (qnan : IEEE m) : IEEE m) = qnan := by cases x <;> rfl
theorem qnan_sub (x : IEEE m) : ((qnan : IEEE m) -ᶠ x : IEEE m) = qnan := by cases x <;> rfl
theorem qsub_nan (x : IEEE m) : (x -ᶠ (qnan : IEEE m) : IEEE m) = qnan := by cases x <;> rfl
theorem qdiv_nan (x : IEEE m) : (x /ᶠ (qnan : IEEE m) : IEEE m) = qnan := by cases x <;> rfl
theorem qsqrt_nan : (Arith.sqrt (qnan : IEEE m) : IEEE m) = qnan := rfl
theorem qlt_nan (x : IEEE m) : Arith.lt x (qnan : IEEE m) = false := by cases x <;> rfl
theorem qnan_lt (x : IEEE m) : Arith.lt (qnan : IEEE m) x = false := by cases x <;> rfl
theorem qnan_eq (x : IEEE m) : Arith.eq (qnan : IEEE m) x = false := by cases x <;> rfl

theorem Huge.add {x y : FP} (hx : Huge x) : Huge (FP.addR F32 x y) := by
  rcases hx with rfl | ⟨s, rfl⟩
  · cases y <;> exact .inl rfl
  · cases y with
    | nan => exact .inl rfl
    | inf t => rw [FP.addR]; split <;> [exact .inr ⟨_, rfl⟩; exact .inl rfl]
    | fin t b => exact .inr ⟨_, rfl⟩

theorem Huge.sub {x y : FP} (hx : Huge x) : Huge (FP.subR F32 x y) := hx.add

theorem Huge.mulL {x y : FP} (hx : Huge x) : Huge (FP.mulR F32 x y) := by
  rcases hx with rfl | ⟨s, rfl⟩
  · cases y <;> exact .inl rfl
  · cases y with
    | nan => exact .inl rfl
    | inf t => exact .inr ⟨_, rfl⟩
    | fin t b => rw [FP.mulR]; split <;> [exact .inl rfl; exact .inr ⟨_, rfl⟩]

theorem Huge.mulR {x y : FP} (hy : Huge y) : Huge (FP.mulR F32 x y) := by
  rcases hy with rfl | ⟨s, rfl⟩
  · cases x <;> exact .inl rfl
  · cases x with
    | nan => exact .inl rfl
    | inf t => exact .inr ⟨_, rfl⟩
    | fin t b => rw [FP.mulR]; split <;> [exact .inl rfl; exact .inr ⟨_, rfl⟩]

theorem Huge.div {x y : FP} (hx : Huge x) (hy : Huge y) : FP.divR F32 x y = FP.nan := by
  rcases hx with rfl | ⟨s, rfl⟩
  · cases y <;> rfl
  · rcases hy with rfl | ⟨t, rfl⟩ <;> rfl

/-- The square of `2^65` or more overflows. -/
theorem square_huge {x : FP} {q : ℚ} (h : Val x q) (hq : pow2 64 ≤ q) : Huge (FP.mulR F32 x x) := by
  obtain ⟨s, rfl⟩ := h
  rw [FP.mulR, FP.round]
  have h0 : 0 < q := lt_of_lt_of_le (pow2_pos _) hq
  have h2 : pow2 128 ≤ q * q := by
    rw [show (128 : Int) = 64 + 64 from rfl, pow2_add]
    exact mul_le_mul hq hq (pow2_pos _).le h0.le
  rw [if_neg (mul_pos h0 h0).ne']
  have h3 : pow2 128 ≤ rnd F32 (q * q) := le_rnd_of_repr F32_p (repr_pow2 (by decide)) h2
  dsimp only
  rw [if_pos (le_trans (pow2_le (by decide)) (h3.trans (le_abs_self _)))]
  exact .inr ⟨_, rfl⟩

/-! ## Enhancement -/

theorem enhWeight_nan {w0 rm0 rm1 a c : IEEE m} (h : Huge (rm0 *ᶠ rm0 : IEEE m)) : enhWeight w0 rm0 rm1 a c = (qnan : IEEE m) := by
  unfold enhWeight
  have hn : Huge (((toF (dlit 96 100) *ᶠ fpi) *ᶠ (((rm0 *ᶠ rm0) +ᶠ (rm1 *ᶠ rm1)) -ᶠ (((ofInt 2 *ᶠ rm0) *ᶠ rm1) *ᶠ c))) : IEEE m) :=
    Huge.mulR (Huge.sub (Huge.add h))
  have hd : Huge (((w0 *ᶠ rm0) *ᶠ ((rm0 *ᶠ rm0) -ᶠ (rm1 *ᶠ rm1))) : IEEE m) := Huge.mulR (Huge.sub h)
  have e : ((((toF (dlit 96 100) *ᶠ fpi) *ᶠ (((rm0 *ᶠ rm0) +ᶠ (rm1 *ᶠ rm1)) -ᶠ (((ofInt 2 *ᶠ rm0) *ᶠ rm1) *ᶠ c)))
    /ᶠ ((w0 *ᶠ rm0) *ᶠ ((rm0 *ᶠ rm0) -ᶠ (rm1 *ᶠ rm1))) : IEEE m)) = (qnan : IEEE m) := Huge.div hn hd
  dsimp only
  rw [e, qsqrt_nan, qsqrt_nan, qmul_nan]

theorem enhApply_nan {l : Nat} {L : Int} (h : L < 8 * l) (a : IEEE m) : enhApply l L (qnan : IEEE m) a = (qnan : IEEE m) := by
  unfold enhApply
  rw [if_neg (by omega), qlt_nan, qnan_lt]
  exact qnan_mul a

/-- A harmonic in the upper part whose amplitude is not zero becomes a NaN. -/
theorem enhWeights_nan {w0 rm0 rm1 : IEEE m} {L : Int} {ct : Loc 57 (IEEE m)} {Ml : Arr 57 (IEEE m)}
    (h : Huge (rm0 *ᶠ rm0 : IEEE m)) {k : Fin 57} (h1 : 1 ≤ k.val) (h2 : (k.val : Int) ≤ L) (h3 : L < 8 * (k.val : Int))
    (h0 : eq (Ml k) (lit 0 1) = false) :
    Post (enhWeights w0 L rm0 rm1 ct Ml) fun Ml' => Ml' k = (qnan : IEEE m) := by
  unfold enhWeights loopTo
  have := loopFT_post (lo := 1) (hi := L.toNat) (f := fun l (Ml : Arr 57 (IEEE m)) => do
    let a ← Ml.rd l
    if eq a (lit 0 1) then .ok Ml
    else Ml.wr l (enhApply l L (enhWeight w0 rm0 rm1 a (← ct.rd l)) a)) (s := Ml)
    (fun i (M : Arr 57 (IEEE m)) => (k.val < i → M k = (qnan : IEEE m)) ∧ (i ≤ k.val → M k = Ml k)) (by omega)
    ⟨fun h => by omega, fun _ => rfl⟩ (fun i hi1 hi2 M hM => by
      refine Post.bind Arr.rd_post fun a ha => ?_
      obtain ⟨hb, rfl⟩ := ha
      by_cases e : i = k.val
      · subst e
        have : M ⟨((k.val : Nat) : Int).toNat, hb⟩ = Ml k := by rw [← hM.2 le_rfl]; rfl
        rw [this, h0, if_neg (by simp)]
        refine Post.bind Post.true fun c _ => ?_
        rw [enhWeight_nan h, enhApply_nan h3]
        refine Arr.wr_post.mono fun N hN => ⟨fun _ => ?_, fun h => by omega⟩
        rw [hN.2.2, Arr.set_same (by simp)]
      · have keep : ∀ N : Arr 57 (IEEE m), N k = M k → (k.val < i + 1 → N k = (qnan : IEEE m)) ∧ (i + 1 ≤ k.val → N k = Ml k) := by
          intro N hN
          rw [hN]
          exact ⟨fun h => hM.1 (by omega), fun h => hM.2 (by omega)⟩
        refine Post.ite (fun _ => Post.pure (keep _ rfl)) fun _ => Post.bind Post.true fun c _ => Arr.wr_post.mono fun N hN => ?_
        refine keep _ ?_
        rw [hN.2.2, Arr.set_ne (by simp; omega)])
  exact this.mono fun M hM => hM.1 (by omega)

theorem enhSum_nan {L : Int} {Ml : Arr 57 (IEEE m)} {k : Fin 57} (h1 : 1 ≤ k.val) (h2 : (k.val : Int) ≤ L)
    (h : Ml k = (qnan : IEEE m)) : Post (enhSum L Ml) fun s => s = (qnan : IEEE m) := by
  unfold enhSum loopTo
  refine (loopFT_post (fun i (s : IEEE m) => k.val < i → s = (qnan : IEEE m)) (by omega) (by omega) fun i hi1 hi2 s hs => ?_).mono
    fun s hs => hs (by omega)
  refine Post.bind Arr.rd_post fun a ha => Post.pure fun hk => ?_
  obtain ⟨hb, rfl⟩ := ha
  by_cases e : i = k.val
  · subst e
    have : Ml ⟨((k.val : Nat) : Int).toNat, hb⟩ = (qnan : IEEE m) := h
    rw [this, qnan_lt]
    exact qadd_nan s
  · rw [hs (by omega)]
    exact qnan_add _

/-- All amplitudes are NaN after the enhancement of a frame whose `Rm0` is too large. -/
theorem enhScale_nan {L : Int} {Ml : Arr 57 (IEEE m)} {k : Fin 57} (h1 : 1 ≤ k.val) (h2 : (k.val : Int) ≤ L) :
    Post (enhScale L (qnan : IEEE m) Ml) fun M => M k = (qnan : IEEE m) := by
  unfold enhScale loopTo
  refine (loopFT_post (fun i (M : Arr 57 (IEEE m)) => k.val < i → M k = (qnan : IEEE m)) (by omega) (by omega)
    fun i hi1 hi2 M hM => ?_).mono fun s hs => hs (by omega)
  refine Post.bind Arr.rd_post fun a ha => Arr.wr_post.mono fun N hN hk => ?_
  rw [hN.2.2]
  by_cases e : k.val = ((i : Nat) : Int).toNat
  · rw [Arr.set_same e]; exact qnan_mul _
  · rw [Arr.set_ne e]; exact hM (by simp at e; omega)

/-! ## Samples -/

/-- Every sample is a NaN. -/
def AllNan (out : Arr 160 (IEEE m)) : Prop := ∀ i, out i = (qnan : IEEE m)

/-- Adding something to sample `n`. -/
theorem bump_keep {out : Arr 160 (IEEE m)} (h : AllNan out) (n : Nat) {x : IEEE m} :
    Post (do out.wr (n : Int) ((← out.rd (n : Int)) +ᶠ x)) AllNan := by
  refine Post.bind Arr.rd_post fun a ha => Arr.wr_post.mono fun N hN j => ?_
  obtain ⟨hb, rfl⟩ := ha
  rw [hN.2.2]
  by_cases e : j.val = ((n : Nat) : Int).toNat
  · rw [Arr.set_same e, h]; exact qnan_add x
  · rw [Arr.set_ne e]; exact h j

/-- The samples below `n` are NaN. -/
def NanTo (n : Nat) (out : Arr 160 (IEEE m)) : Prop := ∀ i : Fin 160, i.val < n → out i = (qnan : IEEE m)

theorem bump_nan {out : Arr 160 (IEEE m)} {n : Nat} (h : NanTo n out) {x : IEEE m} (hx : x = (qnan : IEEE m)) :
    Post (do out.wr (n : Int) ((← out.rd (n : Int)) +ᶠ x)) (NanTo (n + 1)) := by
  refine Post.bind Arr.rd_post fun a ha => Arr.wr_post.mono fun N hN j hj => ?_
  rw [hN.2.2]
  by_cases e : j.val = ((n : Nat) : Int).toNat
  · rw [Arr.set_same e, hx]; exact qadd_nan _
  · rw [Arr.set_ne e]; exact h j (by simp at e; omega)

theorem windowedOsc_keep (off : Nat) (amp sd cd s0 c0 : IEEE m) {out : Arr 160 (IEEE m)} (h : AllNan out) :
    Post (windowedOsc off amp sd cd s0 c0 out) AllNan := by
  unfold windowedOsc
  refine Post.bind (loop_post' (fun s : Arr 160 (IEEE m) × IEEE m × IEEE m => AllNan s.1) h fun n s hs => ?_) fun r hr => Post.pure hr
  refine Post.bind Post.true fun w _ => ?_
  have hb := bump_keep hs n (x := ((lit 2 1 *ᶠ ftab w Ws_den) *ᶠ amp) *ᶠ s.2.1)
  intro o e
  obtain ⟨a, ha, e⟩ := bind_ok e
  obtain ⟨b, hb', e⟩ := bind_ok e
  have e := ok_inj e
  subst e
  rw [ha, ok_bind] at hb
  exact hb _ hb'

theorem windowedOsc_nan (off : Nat) (sd cd s0 c0 : IEEE m) (out : Arr 160 (IEEE m)) :
    Post (windowedOsc off (qnan : IEEE m) sd cd s0 c0 out) AllNan := by
  unfold windowedOsc
  refine Post.bind (loop_post (fun n (s : Arr 160 (IEEE m) × IEEE m × IEEE m) => NanTo n s.1) (fun i h => absurd h (by omega))
    fun n hn s hs => ?_) fun r hr => Post.pure fun i => hr i i.isLt
  refine Post.bind Post.true fun w _ => ?_
  have hb := bump_nan hs (x := ((lit 2 1 *ᶠ ftab w Ws_den) *ᶠ (qnan : IEEE m)) *ᶠ s.2.1) (by rw [qmul_nan, qnan_mul])
  intro o e
  obtain ⟨a, ha, e⟩ := bind_ok e
  obtain ⟨b, hb', e⟩ := bind_ok e
  have e := ok_inj e
  subst e
  rw [ha, ok_bind] at hb
  exact hb _ hb'

theorem interpBand_keep (l : Nat) (cw0 pw0 : IEEE m) (cur prev : Parms (IEEE m)) {out : Arr 160 (IEEE m)} (h : AllNan out) :
    Post (interpBand l cw0 pw0 cur prev out) AllNan := by
  unfold interpBand
  refine Post.bind Post.true fun a _ => Post.bind Post.true fun b _ => ?_
  refine loop_post' AllNan h fun n out ho => ?_
  refine Post.bind Post.true fun c _ => Post.bind Post.true fun d _ => ?_
  exact bump_keep ho n

theorem interpBand_nan {l : Nat} (cw0 pw0 : IEEE m) {cur prev : Parms (IEEE m)} (out : Arr 160 (IEEE m)) {k : Fin 57} (hk : k.val = l)
    (h : cur.Ml k = (qnan : IEEE m)) : Post (interpBand l cw0 pw0 cur prev out) AllNan := by
  unfold interpBand
  refine Post.bind Post.true fun a _ => Post.bind Post.true fun b _ => ?_
  refine (loop_post (fun n (s : Arr 160 (IEEE m)) => NanTo n s) (fun i h => absurd h (by omega)) fun n hn s hs => ?_).mono
    fun r hr i => hr i i.isLt
  refine Post.bind Arr.rd_post fun c hc => Post.bind Post.true fun d _ => ?_
  obtain ⟨hb, rfl⟩ := hc
  refine bump_nan hs ?_
  have : cur.Ml ⟨((l : Nat) : Int).toNat, hb⟩ = (qnan : IEEE m) := by
    rw [← h]; congr 1; exact Fin.ext hk.symm
  rw [this]
  unfold ampLn
  rw [qnan_sub, qmul_nan, qadd_nan, qmul_nan, qnan_mul]

theorem voicedBand_keep (cw0 pw0 : IEEE m) (cur prev : Parms (IEEE m)) (l : Nat) {out : Arr 160 (IEEE m)} (h : AllNan out) :
    Post (voicedBand cw0 pw0 cur prev l out) AllNan := by
  unfold voicedBand
  refine Post.bind Post.true fun a _ => Post.bind Post.true fun b _ => ?_
  dsimp only
  refine Post.ite (fun _ => Post.ite (fun _ => interpBand_keep l _ _ _ _ h) fun _ => ?_) fun _ => Post.pure h
  refine Post.bind (P := AllNan) (Post.ite (fun _ => ?_) fun _ => Post.pure h) fun out h => Post.ite (fun _ => ?_) fun _ => Post.pure h
  · exact Post.bind Post.true fun _ _ => Post.bind Post.true fun _ _ => windowedOsc_keep _ _ _ _ _ _ h
  · exact Post.bind Post.true fun _ _ => Post.bind Post.true fun _ _ => windowedOsc_keep _ _ _ _ _ _ h

theorem voicedBand_nan (cw0 pw0 : IEEE m) {cur prev : Parms (IEEE m)} {l : Nat} (out : Arr 160 (IEEE m)) {k : Fin 57} (hk : k.val = l)
    (h : cur.Ml k = (qnan : IEEE m)) (hv : cur.Vl k = 1) : Post (voicedBand cw0 pw0 cur prev l out) AllNan := by
  unfold voicedBand
  refine Post.bind Arr.rd_post fun a ha => Post.bind Post.true fun b _ => ?_
  obtain ⟨hb, rfl⟩ := ha
  have e1 : cur.Vl ⟨((l : Nat) : Int).toNat, hb⟩ = 1 := by
    rw [← hv]; congr 1; exact Fin.ext hk.symm
  dsimp only
  rw [e1]
  refine Post.ite (fun _ => Post.ite (fun _ => interpBand_nan _ _ _ hk h) fun _ => ?_) fun c => absurd c (by simp)
  refine Post.bind Post.true fun out _ => Post.ite (fun _ => ?_) fun c => absurd c (by simp)
  refine Post.bind Post.true fun _ _ => Post.bind Arr.rd_post fun a ha => ?_
  obtain ⟨hb', rfl⟩ := ha
  have : cur.Ml ⟨((l : Nat) : Int).toNat, hb'⟩ = (qnan : IEEE m) := by
    rw [← h]; congr 1; exact Fin.ext hk.symm
  rw [this]
  exact windowedOsc_nan _ _ _ _ _ _

theorem voicedLoop_nan (cw0 pw0 : IEEE m) {cur prev : Parms (IEEE m)} {L : Int} (out : Arr 160 (IEEE m)) {k : Fin 57} (h1 : 1 ≤ k.val)
    (h2 : (k.val : Int) ≤ L) (h : cur.Ml k = (qnan : IEEE m)) (hv : cur.Vl k = 1) :
    Post (loopTo 1 L (voicedBand cw0 pw0 cur prev) out) AllNan := by
  unfold loopTo
  refine (loopFT_post (fun i (s : Arr 160 (IEEE m)) => k.val < i → AllNan s) (by omega) (by omega) fun i hi1 hi2 s hs => ?_).mono
    fun s hs => hs (by omega)
  by_cases e : k.val = i
  · exact (voicedBand_nan cw0 pw0 s e h hv).mono fun _ h _ => h
  · by_cases e' : k.val < i
    · exact (voicedBand_keep cw0 pw0 cur prev i (hs e')).mono fun _ h _ => h
    · exact Post.true.mono fun _ _ c => by omega

theorem wolaFast_keep (P : Plan (IEEE m)) (a b : Arr 256 (IEEE m)) {out : Arr 160 (IEEE m)} (h : AllNan out) :
    Post (wolaFast P a b out) AllNan := by
  unfold wolaFast
  refine loop_post' AllNan h fun n out ho => ?_
  iterate 5 refine Post.bind Post.true fun _ _ => ?_
  refine Post.ite (fun _ => ?_) fun _ => Post.pure ho
  refine Post.bind Post.true fun _ _ => Post.bind Post.true fun _ _ => ?_
  exact bump_keep ho n

theorem unvoiced_keep (E : Env (IEEE m)) (P : Plan (IEEE m)) (noise : Arr 256 (IEEE m)) (cur prev : Parms (IEEE m))
    {out : Arr 160 (IEEE m)} (h : AllNan out) : Post (unvoiced E P noise cur prev out) fun r => AllNan r.1 := by
  unfold unvoiced
  iterate 5 refine Post.bind Post.true fun _ _ => ?_
  exact Post.bind (wolaFast_keep P _ _ h) fun _ h => Post.pure h

theorem clipBuffer_keep {out : Arr 160 (IEEE m)} (h : AllNan out) : Post (clipBuffer out) AllNan := by
  unfold clipBuffer
  refine loop_post' AllNan h fun n out ho => ?_
  refine Post.bind Arr.rd_post fun a ha => Arr.wr_post.mono fun N hN j => ?_
  obtain ⟨hb, rfl⟩ := ha
  rw [hN.2.2]
  by_cases e : j.val = ((n : Nat) : Int).toNat
  · rw [Arr.set_same e, ho]
    unfold clipSample
    rw [qlt_nan, qnan_lt]
    rfl
  · rw [Arr.set_ne e]; exact ho j

/-- A NaN sample makes the conversion to 16 bits undefined. -/
theorem floatToShort_nan {inp : Arr 160 (IEEE m)} (h : AllNan inp) (out : Arr 160 Int) : floatToShort inp out = .error .floatToInt := by
  unfold floatToShort
  have key : ∀ n, Verif.loop (n + 1) (fun i (out : Arr 160 Int) => do out.wr i (← shortSample (← inp.rd i))) out = .error .floatToInt := by
    intro n
    induction n with
    | zero =>
      rw [loop_succ, loop_zero, ok_bind, Arr.rd_nat (show 0 < 160 by decide), ok_bind, h]
      unfold shortSample
      dsimp only
      rw [qmul_nan, qlt_nan, qnan_lt]
      rfl
    | succ n ih => rw [loop_succ, ih]; rfl
  exact key 159

end Verif.Model
