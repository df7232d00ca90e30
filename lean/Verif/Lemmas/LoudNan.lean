import Verif.Lemmas.Loud
import Verif.Lemmas.NanRun
import Verif.Lemmas.Energy
import Verif.Lemmas.Cache
import Verif.Lemmas.Steps
import Verif.Lemmas.History
import Verif.Lemmas.PredictBound

/-!
# Eight receptions of the loud payload
-/

namespace Verif.Model
open Verif Verif.Spec Verif.Gen Verif.Num Arith

variable {m : Libm}

/-! ## Synthesis of a frame with a NaN amplitude -/

theorem extendBands_keep {lo hi : Int} {p : Parms (IEEE m)} {k : Fin 57} (hk : (k.val : Int) ≤ lo) (h0 : 0 ≤ lo) :
    Post (extendBands lo hi p) fun q => q.Ml k = p.Ml k ∧ q.Vl k = p.Vl k := by
  unfold extendBands
  refine loop_post' (fun q : Parms (IEEE m) => q.Ml k = p.Ml k ∧ q.Vl k = p.Vl k) ⟨rfl, rfl⟩ fun i q hq => ?_
  refine Post.bind Arr.wr_post fun M hM => Post.bind Arr.wr_post fun V hV => Post.pure ?_
  dsimp only at hV ⊢
  rw [hM.2.2, hV.2.2, Arr.set_ne (by omega), Arr.set_ne (by omega)]
  exact hq

theorem synthUnmuted_nan {E : Env (IEEE m)} {cur prev : Parms (IEEE m)} {t : Tls (IEEE m)} {k : Fin 57} (h1 : 1 ≤ k.val)
    (h2 : (k.val : Int) ≤ cur.L) (h : cur.Ml k = (qnan : IEEE m)) (hv : cur.Vl k = 1) :
    Post (synthUnmuted E cur prev t) fun r => AllNan r.out := by
  unfold synthUnmuted
  refine Post.bind Post.true fun nr _ => ?_
  refine Post.bind Post.true fun nuv _ => ?_
  refine Post.bind (P := fun q : Parms (IEEE m) × Parms (IEEE m) × Int => q.1.Ml k = (qnan : IEEE m) ∧ q.1.Vl k = 1 ∧ cur.L ≤ q.2.2) ?_
    fun q hq => ?_
  · refine Post.ite (fun _ => ?_) fun c => ?_
    · exact Post.bind Post.true fun p hp => Post.pure ⟨h, hv, le_rfl⟩
    · refine Post.bind (extendBands_keep (k := k) (by exact h2) (by dsimp only; omega)) fun p hp => Post.pure ⟨?_, ?_, ?_⟩
      · exact hp.1.trans h
      · exact hp.2.trans hv
      · dsimp only at c ⊢; omega
  obtain ⟨c, p, ml⟩ := q
  dsimp only at hq ⊢
  refine Post.bind (phaseUpdate_frame _ _ _ _ _ _) fun q hq' => ?_
  obtain ⟨c', p'⟩ := q
  dsimp only at hq' ⊢
  have e1 : c'.Ml k = (qnan : IEEE m) := by rw [hq'.1]; exact hq.1
  have e2 : c'.Vl k = 1 := by rw [hq'.1]; exact hq.2.1
  refine Post.bind (voicedLoop_nan _ _ _ h1 (by omega) e1 e2) fun out ho => ?_
  refine Post.bind Post.true fun q _ => ?_
  obtain ⟨pl, t'⟩ := q
  dsimp only
  cases pl with
  | some P =>
    exact Post.bind (unvoiced_keep E P _ _ _ ho) fun u hu => Post.bind (clipBuffer_keep hu) fun _ hc => Post.pure hc
  | none => exact Post.bind (clipBuffer_keep ho) fun _ hc => Post.pure hc

theorem enhance_nan {addr : Nat} {cur : Parms (IEEE m)} {t : Tls (IEEE m)} {q : ℚ} (hL : cur.L ≤ 56)
    (hq : Val (sqSum cur.Ml cur.L : IEEE m) q) (hq' : pow2 64 ≤ q) {k : Fin 57} (h1 : 1 ≤ k.val) (h2 : (k.val : Int) ≤ cur.L)
    (h3 : cur.L < 8 * (k.val : Int)) (h0 : eq (cur.Ml k) (lit 0 1) = false) :
    Post (spectralAmpEnhance addr cur t) fun r => r.1.Ml k = (qnan : IEEE m) ∧ r.1 = { cur with Ml := r.1.Ml } := by
  unfold spectralAmpEnhance
  refine Post.bind Post.true fun ct _ => Post.bind (rm01_fst hL _ _) fun r hr => ?_
  have hb : Huge (r.1 *ᶠ r.1 : IEEE m) := by rw [hr]; exact square_huge hq hq'
  refine Post.bind (enhWeights_nan hb h1 h2 h3 h0) fun Ml hM => Post.bind (enhSum_nan h1 h2 hM) fun s hs => ?_
  have hg : enhGamma r.1 s = (qnan : IEEE m) := by
    rw [hs]
    unfold enhGamma
    rw [qnan_eq, if_neg (by simp), qdiv_nan, qsqrt_nan]
  rw [hg]
  exact Post.bind (enhScale_nan h1 h2) fun M hM => Post.pure ⟨hM, rfl⟩

theorem applySmoothing_nan {addr : Nat} {cur prev : Parms (IEEE m)} {t : Tls (IEEE m)} (hL : cur.L ≤ 56) {k : Fin 57}
    (h : cur.Ml k = (qnan : IEEE m)) (hv : cur.Vl k = 1) :
    Post (applySmoothing addr cur prev t) fun r => r.1.Ml k = (qnan : IEEE m) ∧ r.1.Vl k = 1 ∧ r.1.L = cur.L := by
  unfold applySmoothing
  refine Post.bind Post.true fun q _ => ?_
  dsimp only
  rw [smoothVoicing_eq hL, ok_bind]
  refine Post.bind Post.true fun am _ => Post.bind Post.true fun tm _ => ?_
  rw [smoothScale_eq hL, ok_bind]
  refine Post.pure ⟨?_, ?_, rfl⟩
  · dsimp only
    rw [h]
    split
    · exact qnan_mul _
    · rfl
  · dsimp only
    rw [hv]
    split <;> simp

/-- A frame whose amplitudes are too large for the enhancement, with harmonic `k` voiced: every sample is a NaN. -/
theorem speak_nan {E : Env (IEEE m)} {C : Call (IEEE m)} {s : St (IEEE m)} {q : ℚ} (hL : s.cur.L ≤ 56)
    (hq : Val (sqSum s.cur.Ml s.cur.L : IEEE m) q) (hq' : pow2 64 ≤ q) {k : Fin 57} (h1 : 1 ≤ k.val) (h2 : (k.val : Int) ≤ s.cur.L)
    (h3 : s.cur.L < 8 * (k.val : Int)) (h0 : eq (s.cur.Ml k) (lit 0 1) = false) (hv : s.cur.Vl k = 1)
    (hm : synthMuted s.cur = false) : Post (speak E C s) fun o => AllNan o.1 := by
  unfold speak
  refine Post.bind (enhance_nan hL hq hq' h1 h2 h3 h0) fun r hr => ?_
  obtain ⟨c, t⟩ := r
  obtain ⟨hn, hc⟩ := hr
  dsimp only at hn hc ⊢
  refine Post.bind (P := fun r => AllNan r.out) ?_ fun r hr => Post.pure hr
  unfold synthesizeSpeechf
  have hf := applySmoothing_frame C.pc c s.enh t
  have hn' := applySmoothing_nan (addr := C.pc) (cur := c) (prev := s.enh) (t := t) (by rw [hc]; exact hL) hn (by rw [hc]; exact hv)
  refine Post.bind (P := fun r : Parms (IEEE m) × Tls (IEEE m) => r.1.Ml k = (qnan : IEEE m) ∧ r.1.Vl k = 1 ∧ r.1.L = s.cur.L ∧
    synthMuted r.1 = false) (fun r e => ?_) fun r hr => ?_
  · have g := hf r e
    have g' := hn' r e
    refine ⟨g'.1, g'.2.1, by rw [g'.2.2, hc], ?_⟩
    rw [g.1, hc]
    exact hm
  · obtain ⟨c', t'⟩ := r
    dsimp only at hr ⊢
    rw [hr.2.2.2, if_neg (by simp)]
    exact synthUnmuted_nan h1 (by rw [hr.2.2.1]; exact h2) hr.1 hr.2.1

/-! ## Interval run of the decoder -/

theorem sqSum_rel {M : Arr 57 (IEEE m)} {M' : Arr 57 Ivl} (h : RArr RI M M') (L : Int) : RI (sqSum M L : IEEE m) (sqSum M' L) := by
  unfold sqSum
  generalize L.toNat = n
  induction n with
  | zero => exact .lit 0 1
  | succ n ih =>
    rw [List.range_succ, List.foldl_append, List.foldl_append]
    have hg : RI (M.getD (n + 1) (lit 0 1)) (M'.getD (n + 1) (lit 0 1)) := by
      unfold Arr.getD
      split
      · exact h _
      · exact .lit 0 1
    exact ih.add (hg.mul hg)

/-- The amplitudes of the eighth reception are large, but finite. -/
def energyChk : Bool :=
  match imbePredict false 25 (milliParms 25 loud7) (milliArr loudT) (milliParms 25 loud7) with
  | .ok p => within (sqSum p.Ml 25) (.mk (pow2 64) (pow2 100)) && within (p.Ml 4) (.mk 1 (pow2 100))
  | .error _ => false

set_option maxRecDepth 10000 in
theorem energy_ok : energyChk = true := by decide +kernel

/-- All voicing bits of the payload are set. -/
def voicingChk : Bool :=
  match imbeReadBits 16 loud with
  | .ok bb => (List.finRange 12).all fun c => bb 1 c == none || bb 1 c == some 1
  | .error _ => false

set_option maxRecDepth 10000 in
theorem voicing_ok : voicingChk = true := by decide +kernel

theorem loud_voiced {bb : Arr 58 (Loc 12 Int)} (h : imbeReadBits 16 loud = .ok bb) {K : Int} {Vl : Arr 57 Int} :
    Post (imbeVoicing bb 25 K Vl) fun V => V 4 = 1 := by
  have h1 := voicing_ok
  unfold voicingChk at h1
  rw [h] at h1
  dsimp only at h1
  have h2 : ∀ (r : Fin 58), r.val = 1 → ∀ (c : Fin 12) v, bb r c = some v → v = 1 := by
    intro r hr c v hv
    have := List.all_eq_true.mp h1 c (List.mem_finRange c)
    have er : r = 1 := Fin.ext hr
    rw [← er, hv] at this
    simpa using this
  unfold imbeVoicing
  refine Post.bind (loopFT_post (fun i (s : Arr 57 Int × Int × Int) => 4 < i → s.1 4 = 1) (by decide) (by omega) fun i hi1 hi2 s hs => ?_)
    fun s hs => Post.pure (hs (by decide))
  refine Post.bind Loc.rd2_post fun v hv => ?_
  obtain ⟨g1, g2, hv⟩ := hv
  have hv := h2 _ rfl _ _ hv
  subst hv
  refine Post.bind Arr.wr_post fun V hV => ?_
  have : 4 < i + 1 → V 4 = 1 := by
    intro hi
    rw [hV.2.2]
    by_cases e : (4 : Fin 57).val = ((i : Nat) : Int).toNat
    · rw [Arr.set_same e]; rfl
    · rw [Arr.set_ne e]
      refine hs ?_
      simp at e
      change 4 ≠ i at e
      omega
  exact Post.ite (fun _ => Post.pure this) fun _ => Post.pure this

/-! ## The receptions -/

/-- Eighty-eight bits, of which the fundamental is 72 and hence `L` 25 and the number of voicing bits 9. -/
theorem loud_bits : Bits 88 loud := by
  have : ∀ i < 88, loud i = 0 ∨ loud i = 1 := by decide
  exact this

theorem loud_fund : imbeFund loud = 72 := by decide
theorem loud_L : imbeLTab 72 = 25 := by decide
theorem loud_K : imbeBands 25 = 9 := by decide

/-- What matters of the decoder state between receptions: the last spectrum had `L` harmonics with the log amplitudes `l`. -/
structure LoudSt (E : Env (IEEE m)) (L : Int) (l : List (Int × Int)) (s : St (IEEE m)) : Prop where
  cache : CacheOk E s.tls
  L : s.prev.L = L
  prev : RArr RI s.prev.log2Ml (milliArr l)
  cur : RArr RI s.cur.log2Ml (milliArr l)
  rate : Val s.prev.errorRate 0

/-- Whether a float is a zero. -/
def isZero : FP → Bool
  | FP.fin _ q => decide (q = 0)
  | _ => false

theorem rate_zero0 : ∀ s : Bool, isZero (imbeRate (F := IEEE libm0) (FP.fin s 0) 0) = true := by decide +kernel

theorem rate_zero {x : IEEE m} (h : Val x 0) : Val (imbeRate x 0 : IEEE m) 0 := by
  obtain ⟨s, rfl⟩ := h
  have h0 := rate_zero0 s
  have e : (imbeRate (F := IEEE m) (FP.fin s 0) 0) = (imbeRate (F := IEEE libm0) (FP.fin s 0) 0) := rfl
  generalize hx : (imbeRate (F := IEEE libm0) (FP.fin s 0) 0) = x at h0 e
  match x, h0 with
  | FP.fin t q, h0 =>
    unfold isZero at h0
    rw [decide_eq_true_eq] at h0
    subst h0
    exact ⟨t, e⟩

theorem imbePredict_vl {F : Type} [Arith F] {lax : Bool} {L : Int} {prev cur c : Parms F} {T : Arr 57 F}
    (h : imbePredict lax L prev T cur = .ok c) : c.Vl = cur.Vl := by
  obtain ⟨p, _, h⟩ := bind_ok h
  rw [imbePredict2_post _ _ _ _ _ _ _ _ _ _ h]

/-- The decoded parameters. -/
structure LoudDec (s : St (IEEE m)) (c : Parms (IEEE m)) (p : Parms Ivl) : Prop where
  amps : RAmps c p
  L : c.L = 25
  voiced : c.Vl 4 = 1
  rate : Val c.errorRate 0
  thr : c.mutingThreshold = mutingImbe
  rep : c.repeatCount = 0

theorem loud_decode (hm : LibmAcc m) {E : Env (IEEE m)} {C : Call (IEEE m)} {c0 : Option Int} (h0 : ∀ c, c0 = some c → c < 2) {L : Int} (hL : 25 ≤ L)
    {l : List (Int × Int)} {s : St (IEEE m)} (hs : LoudSt E L l s) {o : Out (IEEE m)} (h : processImbe4400 E C c0 0 loud s = .ok o)
    {p : Parms Ivl} (hp : imbePredict false 25 (milliParms L l) (milliArr loudT) (milliParms 25 l) = .ok p) :
    ∃ c r sp, LoudDec s c p ∧ speak E C ⟨c, r, s.enh, sp⟩ = .ok (o.pcm, o.st) := by
  obtain ⟨r, cur, sp, H⟩ := processImbe4400_parts h
  have hd := H.decode
  rw [decodeImbe4400_good loud_bits (by rw [loud_fund]; decide), loud_fund, loud_L, loud_K] at hd
  obtain ⟨_, V, hV⟩ := imbeDecodeBody_post _ _ _ _ _ _ _ _ hd
  obtain ⟨bb, V', T, hbb, hV', hT, hc, hbad⟩ := imbeDecodeBody_predict (by rw [hs.L]; exact hL) hd
  have hcf : (imbeGetCache s.tls).1 = fillCache 7 11 := by
    unfold imbeGetCache
    cases h1 : s.tls.imbeCache with
    | some c => exact hs.cache.1 c h1
    | none => rfl
  have hb16 : ((25 : Nat) : Int) - 9 = 16 := by decide
  rw [hb16] at hbb hT
  -- the residual
  have h1 := residual_ok
  unfold residualChk at h1
  generalize hT' : imbeResidual (fillCache 7 11 : DctCache Ivl 7 11) 16 loud = x at h1
  cases x with
  | error e => exact absurd h1 (by simp)
  | ok T' =>
  dsimp only at h1
  obtain ⟨T2, e2, hTT⟩ := imbeResidual_rel hm (fillCache_rel hm 7 11) 16 loud T' hT'
  rw [hcf, e2] at hT
  have := ok_inj hT
  subst this
  have hTm : RArr RI T2 (milliArr loudT) := fun i => (hTT i).within (withinArr_get h1 i)
  -- the prediction
  have hprev : RPrev s.prev (milliParms L l) := ⟨hs.L, hs.prev⟩
  have hcl : (imbePrepare c0 0 s).cur.log2Ml = s.cur.log2Ml := by
    unfold imbePrepare
    cases c0 <;> rfl
  obtain ⟨c, hc1, hc2⟩ := imbePredict_rel hm (lax := E.lax) hprev hTm (cur := { imbePrepare c0 0 s |>.cur with
    repeat_ := s.prev.repeat_, w0 := imbeW0 72, L := ((25 : Nat) : Int), K := ((9 : Nat) : Int), Vl := V' }) (cur' := milliParms 25 l)
    ⟨by dsimp only; rw [hcl]; exact hs.cur, fun i => trivial⟩ p hp
  have e := hc.symm.trans hc1
  have e := ok_inj e
  have hvo := loud_voiced hbb V' hV'
  -- the frame is not repeated
  have hrate : r.cur.errorRate = imbeRate s.prev.errorRate 0 := by
    rw [hV]
    unfold imbePrepare
    cases c0 <;> rfl
  have hrep : imbeRepeatRequired r.bad c0 0 r.cur.errorRate = false := by
    unfold imbeRepeatRequired
    rw [hbad, if_neg (by decide)]
    cases c0 with
    | none => rfl
    | some c => simp; intro h; have := h0 c rfl; omega
  have hre := H.repeated
  rw [hrep] at hre
  have hre : { r.cur with repeat_ := 0, repeatCount := 0 } = cur := ok_inj hre
  refine ⟨cur, r.prev, r.tls, ?_, ?_⟩
  · subst hre
    refine ⟨?_, ?_, ?_, ?_, ?_, rfl⟩
    · rw [e]; exact ⟨hc2.lg, hc2.ml⟩
    · dsimp only; rw [hV]; rfl
    · dsimp only
      have : r.cur.Vl = V' := by
        rw [e]
        have := imbePredict_vl hc1
        exact this
      rw [this]; exact hvo
    · dsimp only; rw [hrate]; exact rate_zero hs.rate
    · dsimp only
      rw [hV]
      unfold imbePrepare
      cases c0 <;> rfl
  · rw [H.spoken, H.pcm, H.st]

/-- A reception of the payload without bit errors, through any entry point. -/
def LoudRx (op : ImbeOp (IEEE m)) : Prop := op.d = loud ∧ op.errs2 = 0 ∧ ∀ c, op.counts = some c → c.1 = 0

theorem LoudRx.run {op : ImbeOp (IEEE m)} (h : LoudRx op) {E : Env (IEEE m)} {L : Int} {l : List (Int × Int)} {s : St (IEEE m)}
    (hs : LoudSt E L l s) : ∃ s' c0, LoudSt E L l s' ∧ s'.enh = s.enh ∧ (∀ c, c0 = some c → c < 2) ∧
      op.run E s = processImbe4400 E op.call c0 0 loud s' := by
  obtain ⟨C, cs, e, d⟩ := op
  obtain ⟨rfl, rfl, hc⟩ := h
  cases cs with
  | none => exact ⟨s, none, hs, rfl, fun c h => (by simp at h), rfl⟩
  | some c =>
    refine ⟨{ s with cur := { s.cur with errorCount4 := c.2 } }, some c.1, ⟨hs.cache, hs.L, hs.prev, hs.cur, hs.rate⟩, rfl, ?_, rfl⟩
    intro c' h
    cases h
    have := hc c rfl
    omega

theorem loud_next (hm : LibmAcc m) {E : Env (IEEE m)} {op : ImbeOp (IEEE m)} (hop : LoudRx op) {L : Int} (hL : 25 ≤ L)
    {l l' : List (Int × Int)} (hchk : stepChk L l l' = true) {s : St (IEEE m)} (hs : LoudSt E L l s) {o : Out (IEEE m)}
    (h : op.run E s = .ok o) : LoudSt E 25 l' o.st := by
  obtain ⟨s', c0, hs', _, h0, e⟩ := hop.run hs
  rw [e] at h
  unfold stepChk at hchk
  generalize hp : imbePredict false 25 (milliParms L l) (milliArr loudT) (milliParms 25 l) = x at hchk
  cases x with
  | error e => exact absurd hchk (by simp)
  | ok p =>
  dsimp only at hchk
  obtain ⟨c, r, t, hd, hsp⟩ := loud_decode hm h0 hL hs' h hp
  have f := speak_frame _ _ _ _ hsp
  have hpr : o.st.prev = c := f.prev_eq
  have hlg : RArr RI c.log2Ml (milliArr l') := fun i => (hd.amps.lg i).within (withinArr_get hchk i)
  obtain ⟨b, hb, hst⟩ := (processImbe4400_sim op.call c0 0 loud (s := s') (s' := s') ⟨rfl, rfl, rfl, Sim.refl hs'.cache⟩).of_ok h
  refine ⟨hst.st.tls.l, by rw [hpr]; exact hd.L, by rw [hpr]; exact hlg, ?_, by rw [hpr]; exact hd.rate⟩
  have : o.st.cur.log2Ml = c.log2Ml := by
    have := f.cur_eq
    dsimp only at this
    rw [this]
  rw [this]
  exact hlg

theorem loud_eighth (hm : LibmAcc m) {E : Env (IEEE m)} {op : ImbeOp (IEEE m)} (hop : LoudRx op) {s : St (IEEE m)}
    (hs : LoudSt E 25 loud7 s) {o : Out (IEEE m)} (h : op.run E s = .ok o) : AllNan o.pcm := by
  obtain ⟨s', c0, hs', _, h0, e⟩ := hop.run hs
  rw [e] at h
  have hchk := energy_ok
  unfold energyChk at hchk
  generalize hp : imbePredict false 25 (milliParms 25 loud7) (milliArr loudT) (milliParms 25 loud7) = x at hchk
  cases x with
  | error e => exact absurd hchk (by simp)
  | ok p =>
  dsimp only at hchk
  rw [Bool.and_eq_true] at hchk
  obtain ⟨c, r, t, hd, hsp⟩ := loud_decode hm h0 (le_refl 25) hs' h hp
  obtain ⟨q, hq, h1, h2⟩ := (sqSum_rel hd.amps.ml 25).within hchk.1
  obtain ⟨q4, hq4, h3, h4⟩ := (hd.amps.ml 4).within hchk.2
  have hq : Val (sqSum c.Ml c.L : IEEE m) q := by rw [hd.L]; exact hq
  have hmu : synthMuted c = false := by
    rw [synthMuted_imbe hd.thr]
    unfold isMaxFrameRepeat requiresMuting
    rw [hd.rep, hd.thr]
    obtain ⟨b, hb⟩ := hd.rate
    rw [hb]
    have e : ∀ b : Bool, lt (mutingImbe : IEEE libm0) (FP.fin b 0 : FP) = false := by decide +kernel
    have e' : lt (mutingImbe : IEEE m) (FP.fin b 0 : FP) = false := e b
    rw [e']
    rfl
  have hne : eq (c.Ml 4) (lit 0 1) = false := by
    obtain ⟨b, hb⟩ := hq4
    rw [hb]
    show FP.eqB (FP.fin b q4) (lit 0 1 : IEEE m) = false
    have : (lit 0 1 : IEEE m) = FP.fin false 0 := rfl
    rw [this]
    unfold FP.eqB
    simp
    linarith
  exact speak_nan (k := 4) (by rw [hd.L]; decide) hq h1 (by decide) (by rw [hd.L]; decide) (by rw [hd.L]; decide) hne hd.voiced hmu _ hsp

theorem loud_init (E : Env (IEEE m)) {t : Tls (IEEE m)} (ht : CacheOk E t) :
    LoudSt E 39 [] ⟨imbeInit 39, imbeInit 39, imbeInit 39, t⟩ := by
  have h : RArr RI (imbeInit 39 : Parms (IEEE m)).log2Ml (milliArr []) := by
    intro i
    have : RI (fi 0 : IEEE m) (fi 0) := .fi 0
    refine this.within ?_
    unfold milliArr
    split
    · decide +kernel
    · rw [List.getD_nil]
      decide +kernel
  exact ⟨ht, rfl, h, h, ⟨false, rfl⟩⟩

theorem runHist_loud {E : Env (IEEE m)} {op : ImbeOp (IEEE m)} {ops : List (Op (IEEE m))} {s s' : St (IEEE m)}
    (h : runHist E (.imbe op :: ops) s = .ok s') : ∃ o, op.run E s = .ok o ∧ runHist E ops o.st = .ok s' := by
  obtain ⟨s1, h1, h⟩ := bind_ok h
  obtain ⟨o, h2, h1⟩ := bind_ok h1
  have := ok_inj h1
  subst this
  exact ⟨o, h2, h⟩

/-- The state before the eighth reception. -/
theorem loud_seven (hm : LibmAcc m) {E : Env (IEEE m)} {op1 op2 op3 op4 op5 op6 op7 : ImbeOp (IEEE m)}
    (h1 : LoudRx op1) (h2 : LoudRx op2) (h3 : LoudRx op3) (h4 : LoudRx op4) (h5 : LoudRx op5) (h6 : LoudRx op6) (h7 : LoudRx op7)
    {s s' : St (IEEE m)} (hs : LoudSt E 39 [] s)
    (h : runHist E [.imbe op1, .imbe op2, .imbe op3, .imbe op4, .imbe op5, .imbe op6, .imbe op7] s = .ok s') :
    LoudSt E 25 loud7 s' := by
  obtain ⟨o1, e1, h⟩ := runHist_loud h
  obtain ⟨o2, e2, h⟩ := runHist_loud h
  obtain ⟨o3, e3, h⟩ := runHist_loud h
  obtain ⟨o4, e4, h⟩ := runHist_loud h
  obtain ⟨o5, e5, h⟩ := runHist_loud h
  obtain ⟨o6, e6, h⟩ := runHist_loud h
  obtain ⟨o7, e7, h⟩ := runHist_loud h
  have := ok_inj h
  subst this
  have k1 := loud_next hm h1 (by decide) step1_ok hs e1
  have k2 := loud_next hm h2 (by decide) step2_ok k1 e2
  have k3 := loud_next hm h3 (by decide) step3_ok k2 e3
  have k4 := loud_next hm h4 (by decide) step4_ok k3 e4
  have k5 := loud_next hm h5 (by decide) step5_ok k4 e5
  have k6 := loud_next hm h6 (by decide) step6_ok k5 e6
  exact loud_next hm h7 (by decide) step7_ok k6 e7

end Verif.Model
