import Verif.Lemmas.AmbeVoicing
import Verif.Lemmas.TrackAmp
import Verif.Spec.AmbeTrack

/-!
# The AMBE log amplitudes in binary32 against exact arithmetic: histories
-/

namespace Verif.Model
open Verif Verif.Gen Verif.Spec Verif.Num Arith
variable {m : Libm}

theorem cacheNear_2450 (hm : LibmAcc m) {E : Env (IEEE m)} {t : Tls (IEEE m)} (h : CacheOk E t) :
    CacheNear (ambe2450GetCache t).1 (ambe2450GetCache (Tls.start : Tls ℝ)).1 := by
  have h1 : (ambe2450GetCache t).1 = fillCache 9 18 := by
    unfold ambe2450GetCache
    cases h1 : t.ambe2450Cache with
    | some c => exact h.2.1 c h1
    | none => rfl
  rw [h1]
  exact fillCache_near hm (by decide) (by decide) (by decide)

theorem cacheNear_2400 (hm : LibmAcc m) {E : Env (IEEE m)} {t : Tls (IEEE m)} (h : CacheOk E t) :
    CacheNear (ambe2400GetCache t).1 (ambe2400GetCache (Tls.start : Tls ℝ)).1 := by
  have h1 : (ambe2400GetCache t).1 = fillCache 9 18 := by
    unfold ambe2400GetCache
    cases h1 : t.ambe2400Cache with
    | some c => exact h.2.2.1 c h1
    | none => rfl
  rw [h1]
  exact fillCache_near hm (by decide) (by decide) (by decide)

/-- The parts of the voice decoders. -/
theorem ambe2450Voice_inv {F : Type} [Arith F] {lax : Bool} {d : Nat → Int} {b0 : Nat} {cur prev : Parms F} {t : Tls F} {r : DecodeRes F}
    (h : ambe2450Voice lax d b0 cur prev t = .ok r) :
    ∃ hd f b1 V, ambe2450Header b0 cur = .ok hd ∧ fields2450 d = .ok f ∧
      (orField d [4, 5, 6, 7, 35] = .ok b1 ∧ ambeVoicing AmbeVuv b1 hd.1 (b0 == 124 || b0 == 125) hd.2.2 hd.2.1.Vl = .ok V) ∧
      ambeBody lax tabs2450 f hd.2.2 (ambeUnvc hd.2.1.w0) (ambe2450GetCache t).1 { hd.2.1 with Vl := V } prev = .ok (r.cur, r.prev) := by
  unfold ambe2450Voice at h
  obtain ⟨hd, h0, h⟩ := bind_ok h
  obtain ⟨b1, h1, h⟩ := bind_ok h
  obtain ⟨V, h2, h⟩ := bind_ok h
  obtain ⟨f, h3, h⟩ := bind_ok h
  obtain ⟨q, h4, h⟩ := bind_ok h
  cases h
  exact ⟨hd, f, b1, V, h0, h3, ⟨h1, h2⟩, h4⟩

theorem ambe2400Voice_inv {F : Type} [Arith F] {lax : Bool} {d : Nat → Int} {b0 : Nat} {cur prev : Parms F} {t : Tls F} {r : DecodeRes F}
    (h : ambe2400Voice lax d b0 cur prev t = .ok r) :
    ∃ x L f b1 V, tab AmbePlusLtable b0 = .ok x ∧ toI32 (ofInt x : F) = .ok L ∧ fields2400 d = .ok f ∧
      (orField d [38, 39, 40, 41] = .ok b1 ∧ ambeVoicing AmbePlusVuv b1 (f0Of2400 b0 : F) false L cur.Vl = .ok V) ∧
      ambeBody lax tabs2400 f L (ambeUnvc (ambeW0 (f0Of2400 b0))) (ambe2400GetCache t).1
        { cur with w0 := ambeW0 (f0Of2400 b0), L := L, Vl := V } prev = .ok (r.cur, r.prev) := by
  unfold ambe2400Voice at h
  obtain ⟨x, h0, h⟩ := bind_ok h
  obtain ⟨L, h5, h⟩ := bind_ok h
  obtain ⟨b1, h1, h⟩ := bind_ok h
  obtain ⟨V, h2, h⟩ := bind_ok h
  obtain ⟨f, h3, h⟩ := bind_ok h
  obtain ⟨q, h4, h⟩ := bind_ok h
  cases h
  exact ⟨x, L, f, b1, V, h0, h5, h3, ⟨h1, h2⟩, h4⟩

/-- The fundamental is close to the exact one and the voicing decisions are the same. The amplitudes of the voiced bands are the powers of two of the log amplitudes and
those of the unvoiced ones are also multiplied by the factor of the fundamental, here and in exact arithmetic, or all are 1. -/
structure AmpA (p : Parms (IEEE m)) (x : Parms ℝ) : Prop where
  fund : ∃ q : ℚ, Val p.w0 q ∧ |(q : ℝ) - x.w0| ≤ 1 / 25000
  vl : ∀ l : Fin 57, 1 ≤ l.val → (l.val : Int) ≤ p.L → p.Vl l = x.Vl l
  band : (FundNear p.w0 x.w0 ∧ ∀ l : Fin 57, 1 ≤ l.val → (l.val : Int) ≤ p.L →
      p.Ml l = (if p.Vl l = 1 then exp2 (p.log2Ml l) else ambeUnvc p.w0 *ᶠ exp2 (p.log2Ml l)) ∧
      x.Ml l = (if x.Vl l = 1 then 1 else 0.2046 / Real.sqrt x.w0) * (2 : ℝ) ^ x.log2Ml l) ∨
    ∀ l : Fin 57, 1 ≤ l.val → (l.val : Int) ≤ p.L → (p.Vl l = 0 ∧ Val (p.Ml l) 1 ∧ Val (p.log2Ml l) 0) ∧ x.Vl l = 0 ∧ x.Ml l = 1 ∧ x.log2Ml l = 0

theorem AmpA.keep {p q : Parms (IEEE m)} {x : Parms ℝ} (h : AmpA p x) (eL : q.L = p.L) (ew : q.w0 = p.w0) (eV : q.Vl = p.Vl)
    (hk : ∀ l : Fin 57, 1 ≤ l.val → (l.val : Int) ≤ p.L → q.Ml l = p.Ml l ∧ q.log2Ml l = p.log2Ml l) : AmpA q x := by
  refine ⟨by rw [ew]; exact h.fund, fun l l1 l2 => by rw [eV]; exact h.vl l l1 (by rw [← eL]; exact l2), ?_⟩
  rcases h.band with ⟨hf, hb⟩ | hb
  · refine .inl ⟨by rw [ew]; exact hf, fun l l1 l2 => ?_⟩
    rw [eL] at l2
    obtain ⟨k1, k2⟩ := hk l l1 l2
    rw [k1, k2, eV, ew]
    exact hb l l1 l2
  · refine .inr fun l l1 l2 => ?_
    rw [eL] at l2
    obtain ⟨k1, k2⟩ := hk l l1 l2
    rw [k1, k2, eV]
    exact hb l l1 l2

theorem header_fund {b0 : Nat} (hb : b0 < 120 ∨ b0 = 124 ∨ b0 = 125) (cur : Parms (IEEE m)) :
    Post (ambe2450Header b0 cur) fun h => FundNear h.2.1.w0 (2 * Real.pi * ambeF0_2450 b0) := by
  unfold ambe2450Header
  refine Post.ite (fun h => ?_) fun h => ?_
  · have e : ambeF0_2450 b0 = Real.pi / 32 := by
      unfold ambeF0_2450
      exact if_pos (by simpa using h)
    rw [e]
    exact Post.bind Post.true fun _ _ => Post.pure sil_fund
  · have e : ambeF0_2450 b0 = (AmbeW0table.getD b0 0 : ℝ) / AmbeW0table_den := by
      unfold ambeF0_2450
      exact if_neg (by simpa using h)
    rw [e]
    refine Post.bind tab_post fun y hy => Post.bind Post.true fun _ _ => Post.bind Post.true fun _ _ => Post.pure ?_
    have hy' : AmbeW0table.getD b0 0 = y := getD_of_some hy
    rw [← hy']
    exact tab_fund (by
      simp only [Bool.or_eq_true, beq_iff_eq, not_or] at h
      omega)

theorem body_close (hl : Log2Acc m) {lax : Bool} {T : AmbeTabs} (hT : T.Bnd) {f : AmbeFields} {L : Nat} (hL : 9 ≤ L) (hL' : L ≤ 56)
    {u' : ℝ} {c : DctCache (IEEE m) 9 18} {c' : DctCache ℝ 9 18} (hc : CacheNear c c')
    {cur prev : Parms (IEEE m)} {cur' prev' : Parms ℝ} (hp : AClose prev prev') (ho : ALogOk cur) (hcL : cur.L = (L : Int))
    {r : Parms (IEEE m) × Parms (IEEE m)} {r' : Parms ℝ × Parms ℝ} (hrL : r'.1.L = (L : Int)) (hset : ASet (athr r'.1))
    (hvl : ∀ l : Fin 57, 1 ≤ l.val → l.val ≤ L → cur.Vl l = cur'.Vl l)
    (hfn : FundNear cur.w0 r'.1.w0) (hamp : ∀ l, 1 ≤ l → l ≤ r'.1.L.toNat → r'.1.Ml.getD l 0 =
      (if r'.1.Vl.getD l 0 = 1 then 1 else 0.2046 / Real.sqrt r'.1.w0) * (2 : ℝ) ^ logAmp r'.1 l)
    (h : ambeBody lax T f (L : Int) (ambeUnvc cur.w0) c cur prev = .ok r) (h' : ambeBody true T f (L : Int) u' c' cur' prev' = .ok r') :
    AClose r.1 r'.1 ∧ AmpA r.1 r'.1 ∧ AClose r.2 prev' := by
  obtain ⟨k1, k2, k3, k4, k5, k6, k7, k8⟩ := ambeBody_close hl hT hL hL' hc hp r r' h h'
  have eL : r.1.L = (L : Int) := by rw [k3]; exact hcL
  have eV : r.1.Vl = cur.Vl := by rw [k3]
  have ew : r.1.w0 = cur.w0 := by rw [k3]
  refine ⟨⟨by rw [eL, hrL], ⟨fun i => ?_, by rw [k3]; exact ho.phi⟩, hset, k4, fun i j a b c d => ?_, fun i a b => ?_⟩, ⟨?_, fun l a b => ?_, .inl ⟨by rw [ew]; exact hfn, fun l a b => ⟨?_, ?_⟩⟩⟩, ?_⟩
  · by_cases c : 1 ≤ i.val ∧ i.val ≤ L
    · refine ⟨k5 i c.1 c.2, ?_⟩
      have u1 := k7 i c.1 c.2
      have u2 : |r'.1.log2Ml i| ≤ 264 := hset.band i c.1 (by show (i.val : Int) ≤ r'.1.L; omega)
      unfold lerr at u1
      rw [abs_le] at u1 u2 ⊢
      constructor <;> linarith [u1.1, u1.2, u2.1, u2.2]
    · rw [k2 i (by omega)]
      exact ho.num i
  · rw [hrL] at b d
    exact k6 i j a (by omega) c (by omega)
  · rw [hrL] at b
    exact k7 i a (by omega)
  · obtain ⟨q, v, _, _, e⟩ := hfn
    rw [ew]
    exact ⟨q, v, e⟩
  · rw [eL] at b
    rw [eV, (ambeBody_post _ _ _ _ _ _ _ _ _ h').1]
    exact hvl l a (by omega)
  · rw [eL] at b
    rw [eV, ew]
    exact k8 l a (by omega)
  · rw [eL] at b
    have := hamp l.val a (by rw [hrL]; omega)
    unfold logAmp at this
    rw [Arr.getD_lt l.isLt, Arr.getD_lt l.isLt, Arr.getD_lt l.isLt] at this
    exact this
  · obtain ⟨dg, R, pe, x, y, _, _, e3, e4, e5, ⟨M, e6⟩, _⟩ := ambeBody_run h
    have plo : 9 ≤ prev'.L := hp.set.lo
    have phi : prev'.L ≤ 56 := hp.set.hi
    have := hp.L_eq
    obtain ⟨a1, a2, a3, a4, a5⟩ := prevCopy (by omega) (by omega) e3 e4 e5 e6
    have eg : r.2.gamma = prev.gamma := by
      have : pe = _ := extendPrev_post _ _ _ e3
      rw [e6]
      dsimp only
      rw [this]
    exact hp.same k1 a1 eg a2

theorem aset_real {T : AmbeTabs} {c : Prop} (hc : c) {p : Parms ℝ} {r : DecodeRes ℝ} {g : Int} (hp : ASet (athr p))
    (h : AmbeVoiceR true T c (p.log2Ml 0) p r g) (hL : r.prev.L = p.L) (hk : KeepAmps p r.prev) : ASet (athr r.cur) :=
  (aset_voice (p := athr p) (r := { r with cur := athr r.cur }) hc
    ⟨h.L_lo, h.L_hi, h.gamma, h.form, h.zero, h.zero_cur, h.dg⟩ hp.zero hp hL hk rfl).1

theorem exact2450 {d : Nat → Int} (hd : Bits 49 d) {e : Int} (ht : ¬ (ToneSig d ∧ e < 6))
    (hb : ambeFund2450 d < 120 ∨ ambeFund2450 d = 124 ∨ ambeFund2450 d = 125) {p : Parms ℝ} (hp : ASet (athr p)) :
    ∃ r', decodeAmbe2450 true d e p p Tls.start = .ok r' ∧ ambe2450Voice true d (ambeFund2450 d) p p Tls.start = .ok r' ∧ r'.bad = 0 ∧
      r'.cur.L = ambeHarmonics2450 (ambeFund2450 d) ∧ ASet (athr r'.cur) := by
  have plo : 9 ≤ p.L := hp.lo
  have phi : p.L ≤ 56 := hp.hi
  obtain ⟨P, hP⟩ := Int.eq_ofNat_of_zero_le (show 0 ≤ p.L by omega)
  obtain ⟨r', h1, h2, h3, h4⟩ := ambe2450Voice_ok_r hd hb p p Tls.start hP (by omega)
  have hdec : decodeAmbe2450 true d e p p Tls.start = .ok r' := (((decodeAmbe2450_eq hd true e p p Tls.start).2 ht).2 hb).trans h1
  obtain ⟨g, b2, _, _, hv⟩ := ambe2450Voice_r _ _ _ _ _ _ _ h1
  refine ⟨r', hdec, h1, h2, h3, aset_real ?_ hp hv (by rw [h4]) (decodeAmbe2450_keep _ _ _ _ _ _ _ hdec)⟩
  exact fillCache_bnd 9 18

theorem exact2400 {d : Nat → Int} (hd : Bits 49 d) (hb : ambeFund2400 d < 126) {p : Parms ℝ} (hp : ASet (athr p)) :
    ∃ r', decodeAmbe2400 true d p p Tls.start = .ok r' ∧ ambe2400Voice true d (ambeFund2400 d) p p Tls.start = .ok r' ∧ r'.bad = 0 ∧
      r'.cur.L = AmbePlusLtable.getD (ambeFund2400 d) 0 ∧ ASet (athr r'.cur) := by
  have plo : 9 ≤ p.L := hp.lo
  have phi : p.L ≤ 56 := hp.hi
  obtain ⟨P, hP⟩ := Int.eq_ofNat_of_zero_le (show 0 ≤ p.L by omega)
  obtain ⟨r', h1, h2, h3, h4⟩ := ambe2400Voice_ok_r hd hb p p Tls.start hP (by omega)
  have hdec : decodeAmbe2400 true d p p Tls.start = .ok r' := ((decodeAmbe2400_eq hd true p p Tls.start).1 hb).trans h1
  obtain ⟨g, b2, _, _, hv⟩ := ambe2400Voice_r _ _ _ _ _ _ _ h1
  refine ⟨r', hdec, h1, h2, h3, aset_real ?_ hp hv (by rw [h4]) (decodeAmbe2400_keep _ _ _ _ _ _ hdec)⟩
  exact fillCache_bnd 9 18

theorem ALogOk.keep {p q : Parms (IEEE m)} (h : ALogOk p) (e1 : q.log2Ml = p.log2Ml) (e2 : q.PHIl 0 = p.PHIl 0) : ALogOk q :=
  ⟨by rw [e1]; exact h.num, by rw [e2]; exact h.phi⟩

theorem voice2450_close (hm : LibmAcc m) (hl : Log2Acc m) {lax : Bool} {d : Nat → Int} (hd : Bits 49 d) {e : Int} (ht : ¬ (ToneSig d ∧ e < 6))
    (hb : ambeFund2450 d < 120 ∨ ambeFund2450 d = 124 ∨ ambeFund2450 d = 125) {E : Env (IEEE m)} {cur prev : Parms (IEEE m)} {p : Parms ℝ}
    {t : Tls (IEEE m)} (hc : CacheOk E t) (hp : AClose prev p) (ho : ALogOk cur) {r : DecodeRes (IEEE m)}
    (h : decodeAmbe2450 lax d e cur prev t = .ok r) {F : Type} [Arith F] (C : Call F) (c0 : Option Int) :
    AClose r.cur (exactAmbe (.v2450 C c0 e d) p) ∧ AmpA r.cur (exactAmbe (.v2450 C c0 e d) p) ∧ AClose r.prev p := by
  obtain ⟨r', e1, e2, e3, e4, e5⟩ := exact2450 hd ht hb hp.set
  have hx : exactAmbe (.v2450 C c0 e d) p = r'.cur := by
    show (match decodeAmbe2450 true d e p p Tls.start with | .ok r => r.cur | .error _ => p) = _
    rw [e1]
  have plo : 9 ≤ p.L := hp.set.lo
  have phi : p.L ≤ 56 := hp.set.hi
  obtain ⟨M, hM⟩ := Int.eq_ofNat_of_zero_le (show 0 ≤ p.L by omega)
  have sp := ambe2450Voice_spectrum hd (E := ⟨id, id, true, true⟩) (CacheOk.start _) hM (by omega) (by omega) _ e2
  rw [hx]
  rw [((decodeAmbe2450_eq hd lax e cur prev t).2 ht).2 hb] at h
  obtain ⟨hh, f, i1, V, a1, a2, ⟨av, aw⟩, a3⟩ := ambe2450Voice_inv h
  obtain ⟨hh', f', i1', V', b1, b2, ⟨bv, bw⟩, b3⟩ := ambe2450Voice_inv e2
  have hf : f' = f := ok_inj (b2.symm.trans a2)
  subst hf
  obtain ⟨L, q, c1, c2, c3, c4, c5, _, _, _, _, _, _, c6⟩ := (ambe2450Header_ok hb _).of_eq a1
  obtain ⟨_, _, d3, _⟩ := ambe2450Header_r _ _ _ b1
  have hL' : hh'.2.2 = (L : Int) := by
    have := ambeBody_r true tabs2450 f' (L := hh'.2.2) (by omega) _ _ _ _ _ b3
    obtain ⟨_, _, _, _, y, _⟩ := this
    dsimp only at y
    rw [c2, ← e4, ← d3, y]
  rw [c1] at a3
  rw [hL'] at b3
  exact body_close hl bnd2450 c3 c4 (cacheNear_2450 hm hc) hp (cur := { hh.2.1 with Vl := V })
    (ho.keep (by dsimp only; rw [c6]) (by dsimp only; rw [c6])) c5 (e4.trans c2.symm) e5
    (by
      have hi : i1' = i1 := ok_inj (bv.symm.trans av)
      subst hi
      exact voicing2450_eq hb c4 c2 c1 hL' a1 b1 aw bw) (by
      have := header_fund hb _ _ a1
      rw [sp.w0]
      exact this) sp.amp a3 b3

theorem voice2400_close (hm : LibmAcc m) (hl : Log2Acc m) {lax : Bool} {d : Nat → Int} (hd : Bits 49 d) (hb : ambeFund2400 d < 126)
    {E : Env (IEEE m)} {cur prev : Parms (IEEE m)} {p : Parms ℝ}
    {t : Tls (IEEE m)} (hc : CacheOk E t) (hp : AClose prev p) (ho : ALogOk cur) {r : DecodeRes (IEEE m)}
    (h : decodeAmbe2400 lax d cur prev t = .ok r) {F : Type} [Arith F] (C : Call F) (e e2' : Int) :
    AClose r.cur (exactAmbe (.v2400 C e e2' d) p) ∧ AmpA r.cur (exactAmbe (.v2400 C e e2' d) p) ∧ AClose r.prev p := by
  obtain ⟨r', e1, e2, e3, e4, e5⟩ := exact2400 hd hb hp.set
  have hx : exactAmbe (.v2400 C e e2' d) p = r'.cur := by
    show (match decodeAmbe2400 true d p p Tls.start with | .ok r => r.cur | .error _ => p) = _
    rw [e1]
  have plo : 9 ≤ p.L := hp.set.lo
  have phi : p.L ≤ 56 := hp.set.hi
  obtain ⟨M, hM⟩ := Int.eq_ofNat_of_zero_le (show 0 ≤ p.L by omega)
  have sp := ambe2400Voice_spectrum hd (E := ⟨id, id, true, true⟩) (CacheOk.start _) hM (by omega) (by omega) _ e2
  rw [hx]
  rw [(decodeAmbe2400_eq hd lax cur prev t).1 hb] at h
  have l2 : AmbePlusLtable.length = 126 := by decide +kernel
  have hr := ltabPlus_check _ hb
  obtain ⟨x, L, f, i1, V, a0, a1, a2, ⟨av, aw⟩, a3⟩ := ambe2400Voice_inv h
  obtain ⟨x', L', f', i1', V', b0, b1, b2, ⟨bv, bw⟩, b3⟩ := ambe2400Voice_inv e2
  have hf : f' = f := ok_inj (b2.symm.trans a2)
  subst hf
  rw [tab_getD (x := 0) (by omega)] at a0 b0
  have hx1 := ok_inj a0
  have hx2 := ok_inj b0
  subst hx1
  subst hx2
  rw [toI32_ofInt_r (by omega) (by omega)] at b1
  have hL' := ok_inj b1
  obtain ⟨N, hN⟩ := Int.eq_ofNat_of_zero_le (show 0 ≤ AmbePlusLtable.getD (ambeFund2400 d) 0 by omega)
  replace hN : AmbePlusLtable.getD (ambeFund2400 d) 0 = (N : Int) := hN
  have hL : L = (N : Int) := by
    rw [hN] at a1
    rw [ofInt_toI32 (by omega) (by omega)] at a1
    exact (ok_inj a1).symm
  subst hL
  rw [hN] at hL'
  subst hL'
  exact body_close hl bnd2400 (by omega) (by omega) (cacheNear_2400 hm hc) hp
    (cur := { cur with repeat_ := prev.repeat_, w0 := ambeW0 (f0Of2400 (ambeFund2400 d)), L := (N : Int), Vl := V })
    (ho.keep rfl rfl) rfl (e4.trans hN) e5
    (by
      have hi : i1' = i1 := ok_inj (bv.symm.trans av)
      subst hi
      rw [orField_eq hd (by decide)] at bv
      have hlt : i1' < 16 := by rw [← ok_inj bv]; exact field_lt hd (by decide)
      exact voicing2400_eq hm hb hN hlt aw bw) (by
      have := exp_fund hm hb
      rw [sp.w0]
      exact this) sp.amp a3 b3

/-! ## One call -/

theorem close_flat {p : Parms (IEEE m)} (h : ∀ i, Val (p.log2Ml i) 0) (hp : Val (p.PHIl 0) 0) (hg : Val p.gamma 0) {L : Int} (hL : p.L = L)
    (h1 : 9 ≤ L) (h2 : L ≤ 56) (w : ℝ) (q : Parms ℝ) : AClose p (flat L w q) := by
  have z : ∀ i, lerr p (flat L w q) i = 0 := by
    intro i
    unfold lerr
    rw [Val.fq_eq (h i)]
    show ((0 : ℚ) : ℝ) - 0 = 0
    norm_num
  refine ⟨hL, ⟨fun i => ?_, hp⟩, ⟨h1, h2, rfl, ?_, fun i j _ _ _ _ => ?_, ?_, fun i _ _ => ?_⟩, ⟨0, hg, ?_, ?_⟩, fun i j _ _ _ _ => ?_, fun i _ _ => ?_⟩
  · rw [Val.fq_eq (h i)]
    exact ⟨h i, by norm_num⟩
  · show |(0 : ℝ)| ≤ _; norm_num
  · show (0 : ℝ) - 0 ≤ _; norm_num
  · show |(0 : ℝ)| ≤ _; norm_num
  · show |(0 : ℝ)| ≤ _; norm_num
  · show |((0 : ℚ) : ℝ) - 0| ≤ _; norm_num
  · show |(0 : ℝ)| ≤ _; norm_num
  · rw [z, z]; norm_num
  · rw [z]; norm_num

theorem close_init (q : Parms ℝ) : AClose (ambeInit : Parms (IEEE m)) (flat 15 (Real.pi ^ 2 / 16) q) :=
  close_flat (fun _ => lit0_val (m := m)) (lit0_val (m := m)) (lit0_val (m := m)) (L := 15) rfl (by decide) (by decide) _ q

theorem amp_one {p : Parms (IEEE m)} {w : ℝ} (hw : ∃ q : ℚ, Val p.w0 q ∧ |(q : ℝ) - w| ≤ 1 / 25000) (hV : ∀ l, p.Vl l = 0)
    (hM : ∀ l, Val (p.Ml l) 1) (hl : ∀ l, Val (p.log2Ml l) 0) (L : Int) (q : Parms ℝ) : AmpA p (flat L w q) :=
  ⟨hw, fun l _ _ => hV l, .inr fun l _ _ => ⟨⟨hV l, hM l, hl l⟩, rfl, rfl, rfl⟩⟩

theorem ampA_init (q : Parms ℝ) : AmpA (ambeInit : Parms (IEEE m)) (flat 15 (Real.pi ^ 2 / 16) q) :=
  amp_one (by obtain ⟨q, v, _, _, e⟩ := init_fund (m := m); exact ⟨q, v, e⟩) (fun _ => rfl) (fun _ => lit1_val (m := m)) (fun _ => lit0_val (m := m)) 15 q

/-- The invariant of a history. -/
structure ATrack (E : Env (IEEE m)) (s : St (IEEE m)) (n : Nat) (p : Parms ℝ) : Prop where
  cache : CacheOk E s.tls
  close : AClose s.prev p
  ok : ALogOk s.cur
  inv : AmbeInv n s
  amp : AmpA s.prev p

/-- What remains of it after a call. -/
def After (o : St (IEEE m)) (x : Parms ℝ) : Prop := AClose o.prev x ∧ ALogOk o.cur ∧ AmpA o.prev x

theorem after_init {o : St (IEEE m)} (h1 : o.cur = ambeInit) (h2 : o.prev = ambeInit) (q : Parms ℝ) : After o (flat 15 (Real.pi ^ 2 / 16) q) :=
  ⟨by rw [h2]; exact close_init q, by rw [h1]; exact (close_init q).ok, by rw [h2]; exact ampA_init q⟩

theorem ambeAfter {E : Env (IEEE m)} {C : Call (IEEE m)} {s : St (IEEE m)} {enh : Parms (IEEE m)} {r : DecodeRes (IEEE m)} {v : Parms (IEEE m)}
    {p : Arr 160 (IEEE m) × Option Char × St (IEEE m)} {n : Nat} {rep : Bool} (hI : AmbeInv n s) (hfr : SameButAmps s.prev r.prev)
    (hkeep : KeepAmps s.prev r.prev) {x y : Parms ℝ} (hc : AClose r.cur x) (hca : AmpA r.cur x) (hp : AClose r.prev y) (hpa : AmpA s.prev y)
    (hv : if rep then repeatLast r.prev = .ok v else v = { r.cur with repeat_ := 0, repeatCount := 0 })
    (hr : (if v.repeat_ ≤ 3 then do
        let o ← speak E C ⟨v, r.prev, enh, r.tls⟩
        Except.ok (o.1, none, o.2)
      else do
        let o ← noiseAndReset C ⟨v, r.prev, enh, r.tls⟩
        Except.ok (o.1, some 'M', o.2) : Exec (Arr 160 (IEEE m) × Option Char × St (IEEE m))) = .ok p) :
    After p.2.2 (if rep then (if n = 3 then flat 15 (Real.pi ^ 2 / 16) y else y) else x) := by
  have said : ∀ {z : Parms ℝ} {o : Arr 160 (IEEE m) × St (IEEE m)}, speak E C ⟨v, r.prev, enh, r.tls⟩ = .ok o → AClose v z → AmpA v z → After o.2 z := by
    intro z o h hz ha
    have hf := speak_frame E C _ _ h
    have hφ := speak_phi0 E C _ _ h
    have e : o.2.prev = v := hf.prev_eq
    refine ⟨by rw [e]; exact hz, hz.ok.keep (by rw [hf.cur_eq]) hφ, by rw [e]; exact ha⟩
  cases rep with
  | false =>
    simp only [Bool.false_eq_true, if_false] at hv ⊢
    have h0 : v.repeat_ = 0 := by rw [hv]
    rw [if_pos (by rw [h0]; decide)] at hr
    obtain ⟨o, h1, h2⟩ := bind_ok hr
    cases h2
    refine said h1 ?_ ?_
    · rw [hv]
      exact hc.same (hc.ok.keep rfl rfl) rfl rfl fun _ _ _ => rfl
    · rw [hv]; exact hca.keep rfl rfl rfl fun _ _ _ => ⟨rfl, rfl⟩
  | true =>
    simp only [if_true] at hv ⊢
    have e := repeatLast_inv hv
    have hc' : v.repeat_ = n + 1 := by
      rw [e]; dsimp only; rw [hfr]; dsimp only; rw [hI.prev.rep, hI.count]
    have hn : n ≤ 3 := by have := hI.prev.hi; have := hI.count; omega
    by_cases h3 : n = 3
    · rw [if_neg (by omega)] at hr
      rw [if_pos h3]
      obtain ⟨o, h1, h2⟩ := bind_ok hr
      cases h2
      unfold noiseAndReset at h1
      obtain ⟨_, _, h1⟩ := bind_ok h1
      rw [initAmbeState_eq, ok_bind] at h1
      cases h1
      exact after_init rfl rfl y
    · rw [if_pos (by omega)] at hr
      rw [if_neg h3]
      obtain ⟨o, h1, h2⟩ := bind_ok hr
      cases h2
      refine said h1 ?_ ?_
      · rw [e]
        exact hp.same (hp.ok.keep rfl rfl) rfl rfl fun _ _ _ => rfl
      · rw [e]
        refine hpa.keep (by dsimp only; rw [hfr]) (by dsimp only; rw [hfr]) (by dsimp only; rw [hfr]) fun l l1 l2 => ?_
        exact hkeep l l1 l2

theorem process2450_after (hm : LibmAcc m) (hl : Log2Acc m) {E : Env (IEEE m)} {C : Call (IEEE m)} {c0 : Option Int} {errs2 : Int} {d : Nat → Int}
    (hd : Bits 49 d) {s : St (IEEE m)} {o : Out (IEEE m)} {n : Nat} {p : Parms ℝ} (hT : ATrack E s n p)
    (h : processAmbe2450 E C c0 errs2 d s = .ok o) : After o.st (ambeTrackNext (n, p) (AmbeOp.v2450 C c0 errs2 d)).2 := by
  have hI := hT.inv
  have S := processAmbe2450_step hd hI h
  obtain ⟨s1, r, v, q, P⟩ := processAmbe2450_parts h
  have hs1 : s1 = { s with cur := ambePreparedCur errs2 s } := ok_inj (P.prepare.symm.trans (ambePrepare_same hI.prev.thr))
  obtain ⟨k1, k2⟩ := decodeAmbe2450_eq hd E.lax errs2 s1.cur s1.prev s1.tls
  have hprev : s1.prev = s.prev := by rw [hs1]
  have htls : s1.tls = s.tls := by rw [hs1]
  have hcur : ALogOk s1.cur := by rw [hs1]; exact hT.ok.keep rfl rfl
  unfold ambeTrackNext
  dsimp only
  by_cases c1 : ToneSig d ∧ errs2 < 6
  · have hk : (AmbeOp.v2450 C c0 errs2 d).kind = .tone := by
      unfold AmbeOp.kind
      dsimp only
      rw [if_pos c1]
    rw [hk] at S ⊢
    have e := S.tone rfl
    have hr := ok_inj (P.decode.symm.trans (k1 c1))
    have hv := P.verdict
    have hp := P.render
    rw [hr] at hv hp
    dsimp only at hv hp
    rw [ambe2450Verdict, if_neg (by decide), if_pos (by decide)] at hv
    have hv' := (ok_inj hv).symm
    rw [hv'] at hp
    rw [ambe2450Render, if_neg (by decide), if_pos rfl] at hp
    dsimp only at hp
    refine ⟨by rw [e]; exact hT.close, ?_, by rw [e]; exact hT.amp⟩
    rw [P.st]
    obtain ⟨b, _, hp⟩ := bind_ok hp
    split at hp
    · obtain ⟨q, h1, h2⟩ := bind_ok hp
      have := synthesizeTonef_frame _ _ _ _ h1
      cases h2
      dsimp only
      rw [this]
      exact hcur.keep rfl rfl
    · split at hp
      · obtain ⟨q, h1, h2⟩ := bind_ok hp
        cases h2
        unfold noiseAndReset at h1
        obtain ⟨_, _, h1⟩ := bind_ok h1
        rw [initAmbeState_eq, ok_bind] at h1
        cases h1
        exact (close_init p).ok
      · obtain ⟨q, h1, h2⟩ := bind_ok hp
        cases h2
        unfold replayEnhanced at h1
        obtain ⟨w, h3, h4⟩ := bind_ok h1
        cases h4
        exact hcur.keep rfl rfl
  · obtain ⟨k3, k4⟩ := k2 c1
    by_cases c2 : 120 ≤ ambeFund2450 d ∧ ambeFund2450 d ≠ 124 ∧ ambeFund2450 d ≠ 125
    · have hk : (AmbeOp.v2450 C c0 errs2 d).kind = .erasure := by
        unfold AmbeOp.kind
        dsimp only
        rw [if_neg c1, if_pos c2]
      rw [hk]
      have hr := ok_inj (P.decode.symm.trans (k3 c2))
      have hv := P.verdict
      have hp := P.render
      rw [hr] at hv hp
      dsimp only at hv hp
      rw [ambe2450Verdict, if_pos (by rfl), setAmbeErasureParms_eq, ok_bind] at hv
      have hv' := (ok_inj hv).symm
      rw [hv'] at hp
      rw [ambe2450Render, if_neg (by decide), if_neg (by decide), if_pos rfl] at hp
      dsimp only at hp
      obtain ⟨⟨a, t⟩, h1, h2⟩ := bind_ok hp
      cases h2
      have hφ : Val (s1.prev.PHIl 0) 0 := by rw [hprev]; exact hT.close.ok.phi
      have key := close_flat (p := ambeErasure { s1.cur with repeat_ := 0, repeatCount := 0 } s1.prev) (fun _ => lit0_val (m := m)) hφ
        (lit0_val (m := m)) (L := 9) rfl (by decide) (by decide) 0 p
      rw [P.st]
      exact ⟨key, key.ok, amp_one ⟨0, lit0_val (m := m), by norm_num⟩ (fun _ => rfl) (fun _ => lit1_val (m := m)) (fun _ => lit0_val (m := m)) 9 p⟩
    · have hb : ambeFund2450 d < 120 ∨ ambeFund2450 d = 124 ∨ ambeFund2450 d = 125 := by omega
      have hk : (AmbeOp.v2450 C c0 errs2 d).kind = if ambeTooManyErrors c0 errs2 then .repeat_ else .voice := by
        unfold AmbeOp.kind
        dsimp only
        rw [if_neg c1, if_neg c2]
      obtain ⟨hfr, -, -⟩ := decodeAmbe2450_frame _ _ _ _ _ _ _ P.decode
      have hkeep := decodeAmbe2450_keep _ _ _ _ _ _ _ P.decode
      have hbad : r.bad = 0 := by
        have := P.decode
        rw [k4 hb] at this
        exact (ambe2450Voice_frame _ _ _ _ _ _ _ this).2.2.1
      have hv := P.verdict
      have hp := P.render
      rw [hbad] at hv hp
      rw [ambe2450Verdict, if_neg (by decide), if_neg (by decide), ambe2450Repeat_spec] at hv
      rw [ambe2450Render, if_pos rfl] at hp
      have hv2 : (if ambeTooManyErrors c0 errs2 then repeatLast r.prev = .ok v.1 else
          v.1 = { r.cur with repeat_ := 0, repeatCount := 0 }) := by
        split at hv
        · rename_i hc
          rw [if_pos hc]
          obtain ⟨x, h1, h2⟩ := bind_ok hv
          cases h2
          exact h1
        · rename_i hc
          rw [if_neg hc]
          cases hv
          rfl
      obtain ⟨g1, g2, g3⟩ := voice2450_close hm hl hd c1 hb (E := E) (by rw [htls]; exact hT.cache) (by rw [hprev]; exact hT.close) hcur P.decode C c0
      have fr := hfr.prev_eq
      rw [hprev] at fr hkeep
      have := ambeAfter hI fr hkeep g1 g2 g3 hT.amp hv2 hp
      rw [P.st, hk]
      cases hx : ambeTooManyErrors c0 errs2 <;> rw [hx] at this <;> simpa using this

theorem process2400_after (hm : LibmAcc m) (hl : Log2Acc m) {E : Env (IEEE m)} {C : Call (IEEE m)} {errs errs2 : Int} {d : Nat → Int}
    (hd : Bits 49 d) {s : St (IEEE m)} {o : Out (IEEE m)} {n : Nat} {p : Parms ℝ} (hT : ATrack E s n p)
    (h : processAmbe2400 E C errs errs2 d s = .ok o) : After o.st (ambeTrackNext (n, p) (AmbeOp.v2400 C errs errs2 d)).2 := by
  have hI := hT.inv
  have S := processAmbe2400_step hd hI h
  obtain ⟨s1, r, v, q, P⟩ := processAmbe2400_parts h
  have hs1 : s1 = { s with cur := ambePreparedCur errs2 s } := ok_inj (P.prepare.symm.trans (ambePrepare_same hI.prev.thr))
  obtain ⟨k1, k2⟩ := decodeAmbe2400_eq hd E.lax s1.cur s1.prev s1.tls
  have hprev : s1.prev = s.prev := by rw [hs1]
  have htls : s1.tls = s.tls := by rw [hs1]
  have hcur : ALogOk s1.cur := by rw [hs1]; exact hT.ok.keep rfl rfl
  unfold ambeTrackNext
  dsimp only
  by_cases c : 126 ≤ ambeFund2400 d
  · have hk : (AmbeOp.v2400 C errs errs2 d).kind = .noise := by
      unfold AmbeOp.kind
      dsimp only
      rw [if_pos c]
    rw [hk] at S ⊢
    obtain ⟨_, a1, a2, _⟩ := S.noise rfl
    exact after_init a1 a2 p
  · have hb : ambeFund2400 d < 126 := by omega
    have hk : (AmbeOp.v2400 C errs errs2 d).kind = if errs2 > 3 then .repeat_ else .voice := by
      unfold AmbeOp.kind
      dsimp only
      rw [if_neg c]
    obtain ⟨hfr, -, -⟩ := decodeAmbe2400_frame _ _ _ _ _ _ P.decode
    have hkeep := decodeAmbe2400_keep _ _ _ _ _ _ P.decode
    have hbad : r.bad = 0 := by
      have := P.decode
      rw [k1 hb] at this
      exact (ambe2400Voice_frame _ _ _ _ _ _ _ this).2.2.1
    have hv := P.verdict
    have hp := P.render
    rw [hbad] at hv hp
    rw [ambe2400Verdict, if_neg (by decide), if_neg (by decide), if_neg (by omega)] at hv
    rw [ambe2400Render, if_pos rfl] at hp
    have hv2 : (if decide (errs2 > 3) = true then repeatLast r.prev = .ok v.cur else
        v.cur = { r.cur with repeat_ := 0, repeatCount := 0 }) ∧ v.prev = r.prev := by
      simp only [decide_eq_true_eq]
      split at hv
      · rename_i hc
        rw [if_pos hc]
        obtain ⟨x, h1, h2⟩ := bind_ok hv
        cases h2
        exact ⟨h1, rfl⟩
      · rename_i hc
        rw [if_neg hc]
        cases hv
        exact ⟨rfl, rfl⟩
    rw [hv2.2] at hp
    obtain ⟨g1, g2, g3⟩ := voice2400_close hm hl hd hb (E := E) (by rw [htls]; exact hT.cache) (by rw [hprev]; exact hT.close) hcur P.decode C errs errs2
    have fr := hfr.prev_eq
    rw [hprev] at fr hkeep
    have := ambeAfter hI fr hkeep g1 g2 g3 hT.amp hv2.1 hp
    rw [P.st, hk]
    by_cases hx : errs2 > 3
    · rw [if_pos (decide_eq_true hx)] at this
      rw [if_pos hx]
      exact this
    · rw [if_neg (by simpa using hx)] at this
      rw [if_neg hx]
      exact this

theorem atrack_step (hm : LibmAcc m) (hl : Log2Acc m) {E : Env (IEEE m)} {op : AmbeOp (IEEE m)} (hd : Bits 49 op.payload) {s : St (IEEE m)}
    {o : Out (IEEE m)} {x : Nat × Parms ℝ} (hT : ATrack E s x.1 x.2) (h : op.run E s = .ok o) :
    ATrack E o.st (ambeTrackNext x op).1 (ambeTrackNext x op).2 := by
  obtain ⟨b, hb, hs⟩ := (ambeOp_sim op ⟨rfl, rfl, rfl, Sim.refl hT.cache⟩).of_ok h
  have key : After o.st (ambeTrackNext x op).2 := by
    cases op with
    | v2450 C c0 e d => exact process2450_after hm hl hd hT h
    | v2400 C e e2 d => exact process2400_after hm hl hd hT h
  exact ⟨hs.st.tls.l, key.1, key.2.1, (ambeOp_step hd hT.inv h).inv, key.2.2⟩

theorem atrack_run (hm : LibmAcc m) (hl : Log2Acc m) {E : Env (IEEE m)} {ops : List (AmbeOp (IEEE m))} (hd : ∀ op ∈ ops, Bits 49 op.payload)
    {s s' : St (IEEE m)} {x : Nat × Parms ℝ} (hT : ATrack E s x.1 x.2) (h : runOps (AmbeOp.run E) ops s = .ok s') :
    ATrack E s' (ops.foldl ambeTrackNext x).1 (ops.foldl ambeTrackNext x).2 := by
  induction ops generalizing s x with
  | nil => cases h; exact hT
  | cons op ops ih =>
    obtain ⟨o, h1, h2⟩ := bind_ok h
    exact ih (fun y hy => hd y (.tail _ hy)) (atrack_step hm hl (hd op (.head _)) hT h1) h2

theorem atrack_init {E : Env (IEEE m)} {t : Tls (IEEE m)} (h : CacheOk E t) (p : Parms ℝ) :
    ATrack E ⟨ambeInit, ambeInit, ambeInit, t⟩ 0 (flat 15 (Real.pi ^ 2 / 16) p) :=
  ⟨h, close_init p, (close_init p).ok, ambeInit_inv t, ampA_init p⟩

end Verif.Model
