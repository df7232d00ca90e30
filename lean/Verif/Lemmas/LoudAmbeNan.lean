import Verif.Lemmas.LoudAmbe
import Verif.Lemmas.LoudNan
import Verif.Lemmas.AmbeDecode

/-!
# Eleven receptions of the loud AMBE 2450 payload
-/

namespace Verif.Model
open Verif Verif.Spec Verif.Gen Verif.Num Arith

variable {m : Libm}

/-- The accuracy assumed of `log2f` at the numbers of harmonics: `2^-16`. -/
def Log2Acc (m : Libm) : Prop := ∀ (x : FP) (q : ℚ), Val x q → 1 ≤ q → q ≤ 56 →
  ∃ r : ℚ, Val (m.log2 x) r ∧ |(r : ℝ) - Real.logb 2 q| ≤ 1 / 65536

theorem lg42_lo : Nat.ble (Nat.pow 2 353390) (Nat.pow 42 65536) = true := by decide +kernel
theorem lg42_hi : Nat.ble (Nat.pow 42 65536) (Nat.pow 2 353391) = true := by decide +kernel

theorem lg42_logb : (353390 : ℝ) / 65536 ≤ Real.logb 2 42 ∧ Real.logb 2 42 ≤ 353391 / 65536 := by
  have key : ∀ {a b c d : ℕ}, Nat.ble (Nat.pow a b) (Nat.pow c d) = true → 0 < a → 0 < c →
      (b : ℝ) * Real.logb 2 a ≤ d * Real.logb 2 c := by
    intro a b c d h ha hc
    have h : a ^ b ≤ c ^ d := Nat.le_of_ble_eq_true h
    rw [← Real.logb_pow, ← Real.logb_pow]
    have ha' : (0 : ℝ) < a := by exact_mod_cast ha
    refine Real.logb_le_logb_of_le (by norm_num) (by positivity) ?_
    exact_mod_cast h
  have k1 := key lg42_lo (by norm_num) (by norm_num)
  have k2 := key lg42_hi (by norm_num) (by norm_num)
  have e : Real.logb 2 ((2 : ℕ) : ℝ) = 1 := by
    push_cast; exact Real.logb_self_eq_one (by norm_num)
  rw [e] at k1 k2
  generalize hx : Real.logb 2 ((42 : ℕ) : ℝ) = x at k1 k2
  push_cast at k1 k2
  constructor <;> linarith

theorem lg42_rel (hl : Log2Acc m) : RI (log2 (ofInt 42) : IEEE m) lg42 := by
  have h42 : Val (ofInt 42 : IEEE m) 42 := by
    have := Val.ofInt (m := m) (n := 42) (by decide)
    simpa using this
  obtain ⟨r, hr, e⟩ := hl _ _ h42 (by norm_num) (by norm_num)
  have h := lg42_logb
  rw [abs_le] at e
  push_cast at e
  refine ⟨r, hr, ?_, ?_⟩
  · have : (((353389 : ℚ) / 65536 : ℚ) : ℝ) ≤ r := by push_cast; linarith
    have : (353389 : ℚ) / 65536 ≤ r := by exact_mod_cast this
    refine le_trans (le_of_eq ?_) this
    rw [Rat.mkRat_eq_div]; norm_num
  · have : (r : ℝ) ≤ (((353392 : ℚ) / 65536 : ℚ) : ℝ) := by push_cast; linarith
    have : r ≤ (353392 : ℚ) / 65536 := by exact_mod_cast this
    refine le_trans this (le_of_eq ?_)
    rw [Rat.mkRat_eq_div]; norm_num

/-! ## The payload -/

theorem loudA_bits : Bits 49 loudA := by
  have : ∀ i < 49, loudA i = 0 ∨ loudA i = 1 := by decide
  exact this

theorem loudA_fund : ambeFund2450 loudA = 99 := by decide
theorem loudA_L : ambeHarmonics2450 99 = 42 := by decide
theorem loudA_tone : ¬ ToneSig loudA := by
  rintro ⟨h, _⟩
  exact absurd (h 2 (by decide)) (by decide)

theorem loudA_fields : fields2450 loudA = .ok loudAF := by
  unfold fields2450
  rw [orField_eq loudA_bits (by decide), ok_bind, orField_eq loudA_bits (by decide), ok_bind, orField_eq loudA_bits (by decide), ok_bind,
    orField_eq loudA_bits (by decide), ok_bind, orField_eq loudA_bits (by decide), ok_bind, orField_eq loudA_bits (by decide), ok_bind,
    orField_eq loudA_bits (by decide), ok_bind]
  rfl

theorem loudA_row : ∀ c < 8, ((AmbeVuv.getD 0 []).getD c 0 : Nat) = 1 := by decide

/-- The decoder on the payload: all harmonics are voiced and the amplitudes come from the common part. -/
theorem loudA_voice {lax : Bool} {cur prev : Parms (IEEE m)} {t : Tls (IEEE m)} {r : DecodeRes (IEEE m)}
    (h : ambe2450Voice lax loudA 99 cur prev t = .ok r) :
    ∃ (w0 : IEEE m) (V : Arr 57 Int) (b : Parms (IEEE m) × Parms (IEEE m)), (∀ l : Fin 57, 1 ≤ l.val → l.val ≤ 42 → V l = 1) ∧
      ambeBody lax tabs2450 loudAF 42 (ambeUnvc w0) (ambe2450GetCache t).1 { cur with w0 := w0, L := 42, Vl := V } prev = .ok b ∧
      r = ⟨0, b.1, b.2, (ambe2450GetCache t).2⟩ := by
  unfold ambe2450Voice at h
  obtain ⟨hh, e, L, q, hL1, hL2, h9, h56, hcL, hq, hq0, hq1, hq2, hg, hV, hsame⟩ := ambe2450Header_ok (b0 := 99) (.inl (by decide)) cur
  rw [e, ok_bind, orField_eq loudA_bits (by decide), ok_bind] at h
  dsimp only at h
  rw [hL1] at h
  have hL42 : L = 42 := by
    rw [loudA_L] at hL2
    omega
  subst hL42
  have hcol := hq2 (by decide)
  obtain ⟨V, e, hVo⟩ := ambeVoicing_ok (t := AmbeVuv) (b1 := fieldVal loudA [4, 5, 6, 7, 35]) (f0 := hh.1) (silence := 99 == 124 || 99 == 125)
    (col := colQ q) h56 vuv_shape (by decide)
    (fun l _ h2 => (col_eval hq hq0 h56 hq1 h2).1) (fun _ l _ h2 => (col_eval hq hq0 h56 hq1 h2).2 hcol.2) hh.2.1.Vl
  rw [e, ok_bind, loudA_fields, ok_bind] at h
  obtain ⟨b, hb, h⟩ := bind_ok h
  refine ⟨hh.2.1.w0, V, b, fun l h1 h2 => ?_, ?_, (ok_inj h).symm⟩
  · rw [hVo l, if_pos ⟨by decide, h1, h2⟩]
    have : fieldVal loudA [4, 5, 6, 7, 35] = 0 := by decide
    rw [this, loudA_row _ ((col_eval hq hq0 h56 hq1 h2).2 hcol.2)]
    rfl
  · rw [hsame] at hb
    dsimp only at hb
    rw [hcL] at hb
    exact hb

/-! ## One reception -/

/-- What matters of the decoder state between receptions. -/
structure LoudASt (E : Env (IEEE m)) (L : Int) (l : List (Int × Int)) (g : Ivl) (s : St (IEEE m)) : Prop where
  cache : CacheOk E s.tls
  L : s.prev.L = L
  prev : RArr RI s.prev.log2Ml (microArr .top l)
  cur : RArr RI s.cur.log2Ml (microArr .top l)
  gamma : RI s.prev.gamma g
  thr : s.prev.mutingThreshold = mutingAmbe

theorem ambe_same0 : lt (lit 1 1000000) (abs ((mutingAmbe : IEEE libm0) -ᶠ mutingAmbe)) = false := by decide +kernel
theorem ambe_same : lt (lit 1 1000000) (abs ((mutingAmbe : IEEE m) -ᶠ mutingAmbe)) = false := ambe_same0

theorem extendPrev_same {F : Type} [Arith F] {L : Int} {p : Parms F} (h : L ≤ p.L) : extendPrev L p = .ok p := by
  unfold extendPrev
  rw [if_neg (by omega)]

/-- Extending a previous frame with zero log amplitudes. -/
theorem extendPrev_zeroA {L : Int} {p : Parms (IEEE m)} (h1 : 1 ≤ p.L) (h : RArr RI p.log2Ml (microArr .top [])) :
    Post (extendPrev L p) fun q => q.L = p.L ∧ RArr RI q.log2Ml (microArr .top []) := by
  unfold extendPrev
  refine Post.ite (fun _ => ?_) fun _ => Post.pure ⟨rfl, h⟩
  refine loop_post' (fun q : Parms (IEEE m) => q.L = p.L ∧ RArr RI q.log2Ml (microArr .top [])) ⟨rfl, h⟩ fun n q hq => ?_
  dsimp only
  refine Post.bind Post.true fun a _ => Post.bind Post.true fun M _ => Post.bind Arr.rd_post fun x hx => Post.bind Arr.wr_post fun lg hlg => ?_
  refine Post.pure ⟨hq.1, fun i => ?_⟩
  obtain ⟨g1, rfl⟩ := hx
  have hz : RI (q.log2Ml ⟨q.L.toNat, by omega⟩) (micro (0, 0)) := by
    have := hq.2 ⟨q.L.toNat, by omega⟩
    unfold microArr at this
    rw [if_neg (by have := hq.1; dsimp only; omega), List.getD_nil] at this
    exact this
  dsimp only
  rw [hlg.2.2]
  by_cases e : i.val = (q.L + 1 + (n : Int)).toNat
  · rw [Arr.set_same e]
    unfold microArr
    split
    · trivial
    · rw [List.getD_nil]; exact hz
  · rw [Arr.set_ne e]; exact hq.2 i

/-- The decoded parameters. -/
structure LoudADec (c : Parms (IEEE m)) (p : Parms Ivl) (g : Ivl) : Prop where
  amps : RAmps c p
  L : c.L = 42
  voiced : ∀ l : Fin 57, 1 ≤ l.val → l.val ≤ 42 → c.Vl l = 1
  gamma : RI c.gamma g
  thr : c.mutingThreshold = mutingAmbe
  rep : c.repeatCount = 0

theorem ambeRun_frame {F : Type} [Arith F] {lax : Bool} {L : Int} {prev cur c : Parms F} {T : Arr 57 F} {lg g u : F}
    (h : ambeRun lax L prev T lg g u cur = .ok c) : SameButAmps cur c := by
  obtain ⟨p, _, h⟩ := bind_ok h
  obtain ⟨s, _, h⟩ := bind_ok h
  exact ambePredict3_post _ _ _ _ _ _ _ _ _ _ _ h

theorem loudA_decode (hm : LibmAcc m) (hl : Log2Acc m) {E : Env (IEEE m)} {C : Call (IEEE m)} {c0 : Option Int} {errs2 : Int}
    (h0 : ambeTooManyErrors c0 errs2 = false) {L : Int} {n : Nat} {l : List (Int × Int)} (hL : 42 ≤ L ∨ l = [] ∧ 1 ≤ L)
    {s : St (IEEE m)} (hs : LoudASt E L l (gam n) s) {o : Out (IEEE m)} (h : processAmbe2450 E C c0 errs2 loudA s = .ok o)
    {p : Parms Ivl} (hp : stepA L (n + 1) l = .ok p) :
    ∃ c r sp, LoudADec c p (gam (n + 1)) ∧ speak E C ⟨c, r, s.enh, sp⟩ = .ok (o.pcm, o.st) := by
  obtain ⟨s1, r, v, q, H⟩ := processAmbe2450_parts h
  have hp1 := H.prepare
  unfold ambePrepare ensureAmbeDefaults at hp1
  rw [hs.thr, ambe_same, if_neg (by simp), ok_bind] at hp1
  have hp1 := ok_inj hp1
  have hd := H.decode
  rw [((decodeAmbe2450_eq loudA_bits _ _ _ _ _).2 (fun x => loudA_tone x.1)).2 (.inl (by rw [loudA_fund]; decide)), loudA_fund] at hd
  obtain ⟨w0, V, b, hV, hb, hr⟩ := loudA_voice hd
  obtain ⟨dg, R, pe, x, y, e1, e2, e3, e4, e5, ⟨M, e6⟩, e7⟩ := ambeBody_run hb
  have hprev : s1.prev = s.prev := by rw [← hp1]
  have hcf : (ambe2450GetCache s1.tls).1 = fillCache 9 18 := by
    have ht : s1.tls = s.tls := by rw [← hp1]
    rw [ht]
    unfold ambe2450GetCache
    cases h1 : s.tls.ambe2450Cache with
    | some c => exact hs.cache.2.1 c h1
    | none => rfl
  -- the gain
  have edg : tab tabs2450.dg 31 = .ok (tabs2450.dg.getD 31 0) := tab_getD (by decide)
  have := ok_inj (edg.symm.trans e1)
  subst this
  have hg : RI (ftab (tabs2450.dg.getD 31 0) tabs2450.dgDen +ᶠ (toF (dlit 5 10) *ᶠ s1.prev.gamma) : IEEE m) (gam (n + 1)) := by
    rw [hprev]
    exact .add (.ftab _ _) (.mul (.toF (.dlit _ _)) hs.gamma)
  -- the residual
  have h1 := residualA_ok
  unfold residualAChk at h1
  generalize hT' : ambeResidual (fillCache 9 18 : DctCache Ivl 9 18) tabs2450 loudAF 42 = z at h1
  cases z with
  | error e => exact absurd h1 (by simp)
  | ok T' =>
  dsimp only at h1
  obtain ⟨T2, k2, hTT⟩ := ambeResidual_rel (fillCache_rel hm 9 18) tabs2450 loudAF 42 T' hT'
  rw [hcf, k2] at e2
  have := ok_inj e2
  subst this
  have hTm : RArr RI T2 (microArr (.mk 0 0) loudAT) := fun i => (hTT i).within (withinArr_get h1 i)
  -- the previous frame
  have hpe : pe.L = L ∧ RArr RI pe.log2Ml (microArr .top l) := by
    rw [hprev] at e3
    rcases hL with hL | ⟨rfl, hL⟩
    · rw [extendPrev_same (by rw [hs.L]; exact hL)] at e3
      have := ok_inj e3
      subst this
      exact ⟨hs.L, hs.prev⟩
    · have := extendPrev_zeroA (by rw [hs.L]; exact hL) hs.prev _ e3
      exact ⟨this.1.trans hs.L, this.2⟩
  have hrp : RPrev b.2 (microPrev L l) := by
    rw [e6]
    refine ⟨hpe.1, fun i => ?_⟩
    obtain ⟨_, hx⟩ := Arr.rd_post _ e4
    obtain ⟨_, _, hy⟩ := Arr.wr_post _ e5
    show RI (y i) (microArr (micro (l.getD 0 (0, 0))) l i)
    rw [hy]
    by_cases c : i.val = (0 : Int).toNat
    · rw [Arr.set_same c]
      unfold microArr
      rw [if_pos (by simpa using c), hx]
      have := hpe.2 ⟨(1 : Int).toNat, by decide⟩
      exact this
    · rw [Arr.set_ne c]
      have := hpe.2 i
      unfold microArr at this ⊢
      rw [if_neg (by simpa using c)] at this ⊢
      exact this
  -- the prediction
  have hcur : s1.cur.log2Ml = s.cur.log2Ml := by rw [← hp1]
  have hcm : s1.cur.mutingThreshold = mutingAmbe := by rw [← hp1]
  obtain ⟨c1, hc⟩ : ∃ c1 : Parms (IEEE m), c1 =
      { s1.cur with
        repeat_ := s1.prev.repeat_, w0 := w0, L := 42, Vl := V,
        gamma := ftab (tabs2450.dg.getD 31 0) tabs2450.dgDen +ᶠ (toF (dlit 5 10) *ᶠ s1.prev.gamma) } := ⟨_, rfl⟩
  have e7 : ambeRun E.lax 42 b.2 T2 (log2 (ofInt 42)) (ftab (tabs2450.dg.getD 31 0) tabs2450.dgDen +ᶠ (toF (dlit 5 10) *ᶠ s1.prev.gamma))
    (ambeUnvc w0) c1 = .ok b.1 := by rw [hc]; exact e7
  obtain ⟨c, hc1, hc2⟩ := ambeRun_rel hm (lax := E.lax) (unvc := ambeUnvc w0) hrp hTm (lg42_rel hl) hg (cur := c1) (cur' := microCur l)
    ⟨⟨by rw [hc]; dsimp only; rw [hcur]; exact hs.cur, fun i => trivial⟩, fun i hi => by
      rw [hc]
      dsimp only [microCur] at hi
      split at hi
      · rename_i k; exact hV i k.1 k.2
      · exact absurd hi (by decide)⟩ p hp
  have e := ok_inj (e7.symm.trans hc1)
  subst e
  have hf := ambeRun_frame e7
  -- the frame is not repeated
  have hv := H.verdict
  rw [hr] at hv
  dsimp only at hv
  unfold ambe2450Verdict at hv
  rw [if_neg (by decide), if_neg (by decide), ambe2450Repeat_spec, h0, if_neg (by simp)] at hv
  have hv := ok_inj hv
  have hrn := H.render
  rw [hr, ← hv] at hrn
  dsimp only at hrn
  unfold ambe2450Render at hrn
  rw [if_pos rfl, if_pos (by dsimp only; decide)] at hrn
  obtain ⟨w, hw, hrn⟩ := bind_ok hrn
  have hrn := ok_inj hrn
  refine ⟨{ b.1 with repeat_ := 0, repeatCount := 0 }, b.2, (ambe2450GetCache s1.tls).2, ?_, ?_⟩
  · refine ⟨⟨hc2.amps.lg, hc2.amps.ml⟩, ?_, ?_, ?_, ?_, rfl⟩
    · show b.1.L = 42
      rw [hf, hc]
    · intro l h1 h2
      show b.1.Vl l = 1
      rw [hf, hc]
      exact hV l h1 h2
    · show RI b.1.gamma _
      rw [hf, hc]
      exact hg
    · show b.1.mutingThreshold = _
      rw [hf, hc]
      exact hcm
  · rw [H.pcm, H.st, ← hrn]
    have he : s1.enh = s.enh := by rw [← hp1]
    rw [← he]
    exact hw

/-! ## The receptions -/

/-- A reception of the payload that the repeat rule lets through. -/
def LoudARx (op : AmbeOp (IEEE m)) : Prop := ∃ C c0 e, op = .v2450 C c0 e loudA ∧ ambeTooManyErrors c0 e = false

theorem loudA_next (hm : LibmAcc m) (hl : Log2Acc m) {E : Env (IEEE m)} {op : AmbeOp (IEEE m)} (hop : LoudARx op) {L : Int} {n : Nat}
    {l l' : List (Int × Int)} (hL : 42 ≤ L ∨ l = [] ∧ 1 ≤ L) (hchk : stepAChk L (n + 1) l l' = true) {s : St (IEEE m)}
    (hs : LoudASt E L l (gam n) s) {o : Out (IEEE m)} (h : op.run E s = .ok o) : LoudASt E 42 l' (gam (n + 1)) o.st := by
  obtain ⟨C, c0, e, rfl, h0⟩ := hop
  have h : processAmbe2450 E C c0 e loudA s = .ok o := h
  unfold stepAChk at hchk
  generalize hp : stepA L (n + 1) l = x at hchk
  cases x with
  | error e => exact absurd hchk (by simp)
  | ok p =>
  dsimp only at hchk
  obtain ⟨c, r, t, hd, hsp⟩ := loudA_decode hm hl h0 hL hs h hp
  have f := speak_frame _ _ _ _ hsp
  have hpr : o.st.prev = c := f.prev_eq
  have hlg : RArr RI c.log2Ml (microArr .top l') := fun i => (hd.amps.lg i).within (withinArr_get hchk i)
  obtain ⟨b, hb, hst⟩ := (processAmbe2450_sim C c0 e loudA (s := s) (s' := s) ⟨rfl, rfl, rfl, Sim.refl hs.cache⟩).of_ok h
  refine ⟨hst.st.tls.l, by rw [hpr]; exact hd.L, by rw [hpr]; exact hlg, ?_, by rw [hpr]; exact hd.gamma, by rw [hpr]; exact hd.thr⟩
  have : o.st.cur.log2Ml = c.log2Ml := by
    have := f.cur_eq
    dsimp only at this
    rw [this]
  rw [this]
  exact hlg

/-- The tables of the receptions. -/
def loudATab : Nat → List (Int × Int)
  | 0 => []
  | 1 => loudA1
  | 2 => loudA2
  | 3 => loudA3
  | 4 => loudA4
  | 5 => loudA5
  | 6 => loudA6
  | 7 => loudA7
  | 8 => loudA8
  | 9 => loudA9
  | _ => loudA10

/-- Harmonics of the frame before reception `n + 1`. -/
def loudAL (n : Nat) : Int := if n = 0 then 15 else 42

theorem stepA_all (n : Nat) (hn : n < 10) : stepAChk (loudAL n) (n + 1) (loudATab n) (loudATab (n + 1)) = true := by
  match n, hn with
  | 0, _ => exact stepA1_ok
  | 1, _ => exact stepA2_ok
  | 2, _ => exact stepA3_ok
  | 3, _ => exact stepA4_ok
  | 4, _ => exact stepA5_ok
  | 5, _ => exact stepA6_ok
  | 6, _ => exact stepA7_ok
  | 7, _ => exact stepA8_ok
  | 8, _ => exact stepA9_ok
  | 9, _ => exact stepA10_ok

theorem runHist_loudA {E : Env (IEEE m)} {op : AmbeOp (IEEE m)} {ops : List (Op (IEEE m))} {s s' : St (IEEE m)}
    (h : runHist E (.ambe op :: ops) s = .ok s') : ∃ o, op.run E s = .ok o ∧ runHist E ops o.st = .ok s' := by
  obtain ⟨s1, h1, h⟩ := bind_ok h
  obtain ⟨o, h2, h1⟩ := bind_ok h1
  have := ok_inj h1
  subst this
  exact ⟨o, h2, h⟩

/-- The state before reception `n + 1`. -/
theorem loudA_run (hm : LibmAcc m) (hl : Log2Acc m) {E : Env (IEEE m)} {ops : List (AmbeOp (IEEE m))} :
    ∀ {n : Nat}, (∀ op ∈ ops, LoudARx op) → n + ops.length ≤ 10 → ∀ {s s' : St (IEEE m)},
      LoudASt E (loudAL n) (loudATab n) (gam n) s → runHist E (ops.map .ambe) s = .ok s' →
      LoudASt E (loudAL (n + ops.length)) (loudATab (n + ops.length)) (gam (n + ops.length)) s' := by
  induction ops with
  | nil =>
    intro n _ _ s s' hs h
    have := ok_inj h
    subst this
    exact hs
  | cons op ops ih =>
    intro n hop hn s s' hs h
    rw [List.length_cons] at hn
    obtain ⟨o, e1, h⟩ := runHist_loudA h
    have h42 : 42 ≤ loudAL n ∨ loudATab n = [] ∧ 1 ≤ loudAL n := by
      by_cases c : n = 0
      · subst c; exact .inr ⟨rfl, by decide⟩
      · left; unfold loudAL; rw [if_neg c]
    have k := loudA_next hm hl (hop op (.head _)) h42 (stepA_all n (by omega)) hs e1
    have hL : loudAL (n + 1) = 42 := by unfold loudAL; rw [if_neg (by omega)]
    rw [← hL] at k
    have := ih (n := n + 1) (fun x hx => hop x (.tail _ hx)) (by omega) k h
    rw [List.length_cons, show n + (ops.length + 1) = n + 1 + ops.length by omega]
    exact this

theorem loudA_init (E : Env (IEEE m)) {t : Tls (IEEE m)} (ht : CacheOk E t) :
    LoudASt E 15 [] (gam 0) ⟨ambeInit, ambeInit, ambeInit, t⟩ := by
  have h : RArr RI (ambeInit : Parms (IEEE m)).log2Ml (microArr .top []) := by
    intro i
    have : RI (lit 0 1 : IEEE m) (lit 0 1) := .lit 0 1
    refine this.within ?_
    unfold microArr
    split
    · rfl
    · rw [List.getD_nil]
      decide +kernel
  exact ⟨ht, rfl, h, h, .lit 0 1, rfl⟩

/-- The amplitudes of the eleventh reception are large, but finite. -/
def energyAChk : Bool :=
  match stepA 42 11 loudA10 with
  | .ok p => within (sqSum p.Ml 42) (.mk (pow2 64) (pow2 100)) && within (p.Ml 6) (.mk 1 (pow2 100))
  | .error _ => false

set_option maxRecDepth 10000 in
theorem energyA_ok : energyAChk = true := by decide +kernel

theorem loudA_eleventh (hm : LibmAcc m) (hl : Log2Acc m) {E : Env (IEEE m)} {op : AmbeOp (IEEE m)} (hop : LoudARx op) {s : St (IEEE m)}
    (hs : LoudASt E 42 loudA10 (gam 10) s) {o : Out (IEEE m)} (h : op.run E s = .ok o) : AllNan o.pcm := by
  obtain ⟨C, c0, e, rfl, h0⟩ := hop
  have h : processAmbe2450 E C c0 e loudA s = .ok o := h
  have hchk := energyA_ok
  unfold energyAChk at hchk
  generalize hp : stepA 42 11 loudA10 = x at hchk
  cases x with
  | error e => exact absurd hchk (by simp)
  | ok p =>
  dsimp only at hchk
  rw [Bool.and_eq_true] at hchk
  obtain ⟨c, r, t, hd, hsp⟩ := loudA_decode hm hl h0 (.inl (le_refl 42)) hs h hp
  obtain ⟨q, hq, h1, h2⟩ := (sqSum_rel hd.amps.ml 42).within hchk.1
  obtain ⟨q6, hq6, h3, h4⟩ := (hd.amps.ml 6).within hchk.2
  have hq : Val (sqSum c.Ml c.L : IEEE m) q := by rw [hd.L]; exact hq
  have hmu : synthMuted c = false := by
    unfold synthMuted
    rw [hd.thr, ambe_same]
    unfold isMaxFrameRepeat
    rw [hd.rep]
    rfl
  have hne : eq (c.Ml 6) (lit 0 1) = false := by
    obtain ⟨b, hb⟩ := hq6
    rw [hb]
    show FP.eqB (FP.fin b q6) (lit 0 1 : IEEE m) = false
    have : (lit 0 1 : IEEE m) = FP.fin false 0 := rfl
    rw [this]
    unfold FP.eqB
    simp
    linarith
  exact speak_nan (k := 6) (by rw [hd.L]; decide) hq h1 (by decide) (by rw [hd.L]; decide) (by rw [hd.L]; decide) hne
    (hd.voiced 6 (by decide) (by decide)) hmu _ hsp

end Verif.Model
