import Verif.Spec.Builds
import Verif.Lemmas.SoundEqHist
import Verif.Lemmas.SimdSafeStep
import Verif.Lemmas.Phi0

/-!
# Two builds side by side: the decoders
-/

set_option linter.unusedSectionVars false

namespace Verif.Model
open Verif Verif.Gen Verif.Spec Arith
variable {F : Type} [Arith F]

theorem Both.same {α γ δ} {x : Exec α} {f : α → Exec γ} {g : α → Exec δ} {Q : γ → δ → Prop} (hf : ∀ a, Both (f a) (g a) Q) :
    Both (x >>= f) (x >>= g) Q :=
  Both.bind (fun a b => a = b) (fun a b ha hb => ok_inj (ha.symm.trans hb)) fun a b h => by rw [h]; exact hf b

/-- Facts about the two results on their own. -/
theorem Both.posts {α β} {x : Exec α} {y : Exec β} {P : α → Prop} {Q : β → Prop} (h : Post x P) (h' : Post y Q) :
    Both x y fun a b => P a ∧ Q b := fun a b ha hb => ⟨h a ha, h' b hb⟩

theorem loop_both {σ τ} {n : Nat} {f : Nat → σ → Exec σ} {g : Nat → τ → Exec τ} {s : σ} {t : τ} (P : Nat → σ → τ → Prop)
    (h0 : P 0 s t) (hs : ∀ i, i < n → ∀ s t, P i s t → Both (f i s) (g i t) (P (i + 1))) : Both (loop n f s) (loop n g t) (P n) := by
  induction n with
  | zero => exact Both.pure h0
  | succ n ih =>
    rw [loop_succ, loop_succ]
    exact Both.bind (P n) (ih fun i hi => hs i (Nat.lt_succ_of_lt hi)) fun a b h => hs n (Nat.lt_succ_self n) a b h

theorem loopFT_both {σ τ} {lo hi : Nat} {f : Nat → σ → Exec σ} {g : Nat → τ → Exec τ} {s : σ} {t : τ} (P : Nat → σ → τ → Prop)
    (hle : lo ≤ hi + 1) (h0 : P lo s t) (hs : ∀ i, lo ≤ i → i ≤ hi → ∀ s t, P i s t → Both (f i s) (g i t) (P (i + 1))) :
    Both (loopFT lo hi f s) (loopFT lo hi g t) (P (hi + 1)) := by
  have := loop_both (n := hi + 1 - lo) (f := fun k s => f (lo + k) s) (g := fun k s => g (lo + k) s) (s := s) (t := t) (fun k s t => P (lo + k) s t)
    (by simpa using h0) (fun i hi' s t hI => hs (lo + i) (by omega) (by omega) s t hI)
  have e : lo + (hi + 1 - lo) = hi + 1 := by omega
  rw [e] at this
  exact this

/-- The members that may differ. -/
structure Snd (F : Type) where
  Ml : Arr 57 F
  Vl : Arr 57 Int
  PHIl : Arr 57 F
  localEnergy : F
  previousUw : Arr 256 F

def Snd.put (x : Snd F) (p : Parms F) : Parms F :=
  { p with Ml := x.Ml, Vl := x.Vl, PHIl := x.PHIl, localEnergy := x.localEnergy, previousUw := x.previousUw }

theorem _root_.Verif.Spec.ParamEq.cases {p q : Parms F} (h : ParamEq p q) : ∃ x : Snd F, q = x.put p ∧ x.PHIl 0 = p.PHIl 0 :=
  ⟨⟨q.Ml, q.Vl, q.PHIl, q.localEnergy, q.previousUw⟩, h.rest, h.phi0⟩

theorem _root_.Verif.Spec.ParamEq.refl (p : Parms F) : ParamEq p p := ⟨rfl, rfl⟩
theorem _root_.Verif.Spec.DecodedEq.refl (p : Parms F) : DecodedEq p p := ⟨.refl p, fun _ _ _ => ⟨rfl, rfl⟩⟩
theorem _root_.Verif.Spec.ThreadEq.refl (t : Tls F) : ThreadEq t t := rfl
theorem _root_.Verif.Spec.StateEq.refl (s : St F) : StateEq s s := ⟨.refl _, .refl _, .refl _, rfl⟩

theorem rdLog2_b (lax : Bool) {p q : Parms F} (h : ParamEq p q) (i : Int) : rdLog2 lax q i = rdLog2 lax p i := by
  obtain ⟨x, rfl, h0⟩ := h.cases
  unfold rdLog2 Snd.put
  dsimp only
  by_cases c : i = 57 ∧ lax = true
  · rw [if_pos c, if_pos c]
    show Arr.rd x.PHIl ((0 : Nat) : Int) = Arr.rd p.PHIl ((0 : Nat) : Int)
    rw [Arr.rd_nat (by decide), Arr.rd_nat (by decide)]
    exact congrArg Except.ok h0
  · rw [if_neg c, if_neg c]

theorem extendPrev_b (L : Int) {p q : Parms F} (h : DecodedEq p q) : Both (extendPrev L p) (extendPrev L q) DecodedEq := by
  have hL : q.L = p.L := by rw [h.rest]
  unfold extendPrev
  rw [hL]
  refine Both.ite (fun _ => ?_) fun _ => Both.pure h
  refine (fun a b ha hb => (loop_both (fun _ s t => DecodedEq s t ∧ s.L = p.L) ⟨h, rfl⟩ (fun i _ s t hst => ?_) a b ha hb).1)
  obtain ⟨hd, hLs⟩ := hst
  have hb := hd.band
  obtain ⟨x, rfl, h0⟩ := hd.toParamEq.cases
  unfold Snd.put at hb ⊢
  dsimp only at hb ⊢
  refine Both.skip fun v v' => Both.bind _ (Both.posts Arr.wr_post Arr.wr_post) fun M M' hM => ?_
  refine Both.same fun w => Both.same fun lg => Both.pure ⟨⟨⟨rfl, h0⟩, fun l l1 l2 => ?_⟩, hLs⟩
  obtain ⟨⟨m0, m1, rfl⟩, ⟨_, _, rfl⟩⟩ := hM
  dsimp only at l2 ⊢
  rw [Arr.set_ne (by omega), Arr.set_ne (by omega)]
  exact hb l l1 l2

theorem imbePredict1_b (lax : Bool) (L : Int) {p q : Parms F} (h : ParamEq p q) : imbePredict1 lax L q = imbePredict1 lax L p := by
  have hL : q.L = p.L := by rw [h.rest]
  unfold imbePredict1
  rw [hL]
  simp only [rdLog2_b lax h]

theorem set_eq {n : Nat} {α : Type} {a b : Arr n α} {i : Nat} {v : α} {j : Fin n} (h : j.val ≠ i → b j = a j) : b.set i v j = a.set i v j := by
  by_cases e : j.val = i
  · rw [Arr.set_same e, Arr.set_same e]
  · rw [Arr.set_ne e, Arr.set_ne e]; exact h e

theorem imbePredict2_b (lax : Bool) (L : Int) {p q : Parms F} (h : ParamEq p q) (ik : Loc 57 Int) (dl : Loc 57 F) (rho s : F) (Tl : Arr 57 F)
    {c d : Parms F} (hc : ParamEq c d) (hL : c.L = L) (hV : ∀ l : Fin 57, 1 ≤ l.val → (l.val : Int) ≤ L → d.Vl l = c.Vl l) :
    Both (imbePredict2 lax L p ik dl rho s Tl c) (imbePredict2 lax L q ik dl rho s Tl d) DecodedEq := by
  unfold imbePredict2
  intro a b ha hb
  have := loopFT_both (fun k s t => ParamEq s t ∧ s.L = L ∧ (∀ l : Fin 57, 1 ≤ l.val → (l.val : Int) ≤ L → t.Vl l = s.Vl l) ∧
      ∀ l : Fin 57, 1 ≤ l.val → l.val < k → t.Ml l = s.Ml l) (by omega)
    ⟨hc, hL, hV, fun l l1 l2 => by omega⟩ (fun i i1 i2 s t hst => ?_) a b ha hb
  · obtain ⟨k1, k2, k3, k4⟩ := this
    exact ⟨k1, fun l l1 l2 => ⟨k4 l l1 (by omega), k3 l l1 (by omega)⟩⟩
  · obtain ⟨hs, hLs, hVs, hM⟩ := hst
    obtain ⟨x, rfl, h0⟩ := hs.cases
    unfold Snd.put at hVs hM ⊢
    dsimp only at hVs hM ⊢
    refine Both.same fun _ => Both.same fun ik => ?_
    rw [rdLog2_b lax h, rdLog2_b lax h]
    refine Both.same fun _ => Both.same fun _ => Both.same fun _ => Both.same fun lg => ?_
    refine Both.bind _ (Both.posts Arr.wr_post Arr.wr_post) fun M M' hMM => Both.pure ⟨⟨rfl, h0⟩, hLs, hVs, fun l l1 l2 => ?_⟩
    obtain ⟨⟨_, _, rfl⟩, ⟨_, _, rfl⟩⟩ := hMM
    exact set_eq fun e => hM l l1 (by omega)

theorem imbeVoicing_b (bb : Arr 58 (Loc 12 Int)) (L K : Int) (V V' : Arr 57 Int) : Both (imbeVoicing bb L K V) (imbeVoicing bb L K V')
    fun x y => ∀ l : Fin 57, 1 ≤ l.val → (l.val : Int) ≤ L → y l = x l := by
  unfold imbeVoicing
  refine Both.bind _ (loopFT_both (fun k (s t : Arr 57 Int × Int × Int) => t.2 = s.2 ∧ ∀ l : Fin 57, 1 ≤ l.val → l.val < k → t.1 l = s.1 l) (by omega)
    ⟨rfl, fun l l1 l2 => by omega⟩ fun i i1 i2 s t hst => ?_) fun s t hst => Both.pure fun l l1 l2 => hst.2 l l1 (by omega)
  obtain ⟨s, c, k⟩ := s
  obtain ⟨t, c', k'⟩ := t
  obtain ⟨e, hM⟩ := hst
  cases e
  dsimp only at hM ⊢
  refine Both.same fun v => Both.bind _ (Both.posts Arr.wr_post Arr.wr_post) fun M M' hMM => ?_
  obtain ⟨⟨_, _, rfl⟩, ⟨_, _, rfl⟩⟩ := hMM
  exact Both.ite (fun _ => Both.pure ⟨rfl, fun l l1 l2 => set_eq fun e => hM l l1 (by omega)⟩)
    fun _ => Both.pure ⟨rfl, fun l l1 l2 => set_eq fun e => hM l l1 (by omega)⟩

theorem ambeVoicing_b (t : List (List Nat)) (b1 : Nat) (f0 : F) (silence : Bool) (L : Int) {V V' : Arr 57 Int}
    (h : silence = true → ∀ l : Fin 57, 1 ≤ l.val → (l.val : Int) ≤ L → V' l = V l) :
    Both (ambeVoicing t b1 f0 silence L V) (ambeVoicing t b1 f0 silence L V')
    fun x y => ∀ l : Fin 57, 1 ≤ l.val → (l.val : Int) ≤ L → y l = x l := by
  unfold ambeVoicing
  intro a b ha hb l l1 l2
  refine loopFT_both (fun k (s t : Arr 57 Int) => ∀ l : Fin 57, 1 ≤ l.val → (l.val : Int) ≤ L → (silence = true ∨ l.val < k) → t l = s l) (by omega)
    (fun l l1 l2 hl => ?_) (fun i i1 i2 s t hM => ?_) a b ha hb l l1 l2 (.inr (by omega))
  · rcases hl with hl | hl
    · exact h hl l l1 l2
    · omega
  · refine Both.same fun jl => ?_
    cases silence with
    | true =>
      rw [if_pos rfl, if_pos rfl]
      exact Both.pure fun l l1 l2 _ => hM l l1 l2 (.inl rfl)
    | false =>
      rw [if_neg Bool.false_ne_true, if_neg Bool.false_ne_true]
      refine Both.same fun v => fun M M' h1 h2 l l1 l2 hl => ?_
      obtain ⟨_, _, rfl⟩ := Arr.wr_post _ h1
      obtain ⟨_, _, rfl⟩ := Arr.wr_post _ h2
      rcases hl with hl | hl
      · cases hl
      · exact set_eq fun e => hM l l1 l2 (.inr (by omega))

theorem clearVl_b (L : Nat) (V V' : Arr 57 Int) : Both (clearVl L V) (clearVl L V')
    fun x y => ∀ l : Fin 57, 1 ≤ l.val → l.val ≤ L → y l = x l := by
  unfold clearVl
  intro a b ha hb l l1 l2
  refine loopFT_both (fun k (s t : Arr 57 Int) => ∀ l : Fin 57, 1 ≤ l.val → l.val < k → t l = s l) (by omega)
    (fun l l1 l2 => by omega) (fun i i1 i2 s t hM M M' h1 h2 l l1 l2 => ?_) a b ha hb l l1 (by omega)
  obtain ⟨_, _, rfl⟩ := Arr.wr_post _ h1
  obtain ⟨_, _, rfl⟩ := Arr.wr_post _ h2
  exact set_eq fun e => hM l l1 (by omega)

theorem ambePredict3_b (lax : Bool) (L : Int) {p q : Parms F} (h : ParamEq p q) (ik : Loc 57 Int) (dl : Loc 57 F)
    (s g u : F) (Tl : Arr 57 F) {c d : Parms F} (hc : ParamEq c d) (hL : c.L = L) (hV : ∀ l : Fin 57, 1 ≤ l.val → (l.val : Int) ≤ L → d.Vl l = c.Vl l) :
    Both (ambePredict3 lax L p ik dl s g u Tl c) (ambePredict3 lax L q ik dl s g u Tl d) DecodedEq := by
  unfold ambePredict3
  intro a b ha hb
  have := loopFT_both (fun k s t => ParamEq s t ∧ s.L = L ∧ (∀ l : Fin 57, 1 ≤ l.val → (l.val : Int) ≤ L → t.Vl l = s.Vl l) ∧
      ∀ l : Fin 57, 1 ≤ l.val → l.val < k → t.Ml l = s.Ml l) (by omega)
    ⟨hc, hL, hV, fun l l1 l2 => by omega⟩ (fun i i1 i2 s t hst => ?_) a b ha hb
  · obtain ⟨k1, k2, k3, k4⟩ := this
    exact ⟨k1, fun l l1 l2 => ⟨k4 l l1 (by omega), k3 l l1 (by omega)⟩⟩
  · obtain ⟨hs, hLs, hVs, hM⟩ := hst
    obtain ⟨x, rfl, h0⟩ := hs.cases
    unfold Snd.put at hVs hM ⊢
    dsimp only at hVs hM ⊢
    refine Both.same fun _ => Both.same fun ik => ?_
    rw [rdLog2_b lax h, rdLog2_b lax h]
    refine Both.same fun _ => Both.same fun _ => Both.same fun _ => Both.same fun lg => ?_
    refine Both.bind (fun v w => w = v) (fun v w hv hw => ?_) fun v w hvw => ?_
    · obtain ⟨k1, rfl⟩ := Arr.rd_post _ hv
      obtain ⟨k2, rfl⟩ := Arr.rd_post _ hw
      exact hVs _ (by show 1 ≤ (i : Int).toNat; omega) (by show ((i : Int).toNat : Int) ≤ L; omega)
    · rw [hvw]
      refine Both.bind _ (Both.posts Arr.wr_post Arr.wr_post) fun M M' hMM => Both.pure ⟨⟨rfl, h0⟩, hLs, hVs, fun l l1 l2 => ?_⟩
      obtain ⟨⟨_, _, rfl⟩, ⟨_, _, rfl⟩⟩ := hMM
      exact set_eq fun e => hM l l1 (by omega)

theorem ambeBody_b (lax : Bool) (T : AmbeTabs) (f : AmbeFields) (L : Int) (unvc : F) (cache : DctCache F 9 18)
    {c d p q : Parms F} (hc : ParamEq c d) (hL : c.L = L) (hV : ∀ l : Fin 57, 1 ≤ l.val → (l.val : Int) ≤ L → d.Vl l = c.Vl l) (h : DecodedEq p q) :
    Both (ambeBody lax T f L unvc cache c p) (ambeBody lax T f L unvc cache d q) fun r r' => DecodedEq r.1 r'.1 ∧ DecodedEq r.2 r'.2 := by
  have hg : q.gamma = p.gamma := by rw [h.rest]
  obtain ⟨x, rfl, h0⟩ := hc.cases
  unfold Snd.put at hV
  dsimp only at hV
  unfold ambeBody
  rw [hg]
  unfold Snd.put
  dsimp only
  iterate 17 refine Both.same fun _ => ?_
  refine Both.bind DecodedEq (extendPrev_b L h) fun p q hpq => ?_
  have hb := hpq.band
  obtain ⟨y, rfl, h1⟩ := hpq.toParamEq.cases
  unfold Snd.put at hb ⊢
  dsimp only at hb ⊢
  refine Both.same fun _ => Both.same fun lg => Both.skip fun v v' => Both.bind _ (Both.posts Arr.wr_post Arr.wr_post) fun M M' hMM => ?_
  obtain ⟨⟨_, _, rfl⟩, ⟨_, _, rfl⟩⟩ := hMM
  have pq : DecodedEq { p with log2Ml := lg, Ml := p.Ml.set (Int.toNat 0) v }
      { p with log2Ml := lg, Ml := y.Ml.set (Int.toNat 0) v', Vl := y.Vl, PHIl := y.PHIl, localEnergy := y.localEnergy, previousUw := y.previousUw } := ⟨⟨rfl, h1⟩, fun l l1 l2 => by
    dsimp only at l2 ⊢
    rw [Arr.set_ne (by simp; omega), Arr.set_ne (by simp; omega)]
    exact hb l l1 l2⟩
  unfold ambePredict1
  rw [imbePredict1_b lax L pq.toParamEq]
  refine Both.same fun _ => Both.same fun _ => ?_
  exact Both.bind DecodedEq (ambePredict3_b lax L pq.toParamEq _ _ _ _ _ _ ⟨rfl, h0⟩ hL hV) fun c d hcd => Both.pure ⟨hcd, pq⟩

/-- Decoder results that agree. -/
structure BDec (r r' : DecodeRes F) : Prop where
  bad : r'.bad = r.bad
  cur : ParamEq r.cur r'.cur
  good : r.bad = 0 → DecodedEq r.cur r'.cur
  prev : DecodedEq r.prev r'.prev
  tls : ThreadEq r.tls r'.tls

theorem imbeGetCache_b {t u : Tls F} (h : ThreadEq t u) : (imbeGetCache u).1 = (imbeGetCache t).1 ∧ ThreadEq (imbeGetCache t).2 (imbeGetCache u).2 := by
  unfold ThreadEq at h
  rw [h]
  unfold imbeGetCache
  dsimp only
  obtain ⟨_, _, _, _, _, _, _, _, a, b, c, _⟩ := t
  dsimp only
  rcases a with _ | a <;> rcases b with _ | b <;> rcases c with _ | c <;> exact ⟨rfl, rfl⟩

theorem ambe2450GetCache_b {t u : Tls F} (h : ThreadEq t u) :
    (ambe2450GetCache u).1 = (ambe2450GetCache t).1 ∧ ThreadEq (ambe2450GetCache t).2 (ambe2450GetCache u).2 := by
  unfold ThreadEq at h
  rw [h]
  unfold ambe2450GetCache
  dsimp only
  obtain ⟨_, _, _, _, _, _, _, _, a, b, c, _⟩ := t
  dsimp only
  rcases a with _ | a <;> rcases b with _ | b <;> rcases c with _ | c <;> exact ⟨rfl, rfl⟩

theorem ambe2400GetCache_b {t u : Tls F} (h : ThreadEq t u) :
    (ambe2400GetCache u).1 = (ambe2400GetCache t).1 ∧ ThreadEq (ambe2400GetCache t).2 (ambe2400GetCache u).2 := by
  unfold ThreadEq at h
  rw [h]
  unfold ambe2400GetCache
  dsimp only
  obtain ⟨_, _, _, _, _, _, _, _, a, b, c, _⟩ := t
  dsimp only
  rcases a with _ | a <;> rcases b with _ | b <;> rcases c with _ | c <;> exact ⟨rfl, rfl⟩

theorem decodeImbe4400_b (lax : Bool) (d : Nat → Int) {c c' p p' : Parms F} {t t' : Tls F} (hc : ParamEq c c') (h : DecodedEq p p') (ht : ThreadEq t t') :
    Both (decodeImbe4400 lax d c p t) (decodeImbe4400 lax d c' p' t') BDec := by
  have hr : p'.repeat_ = p.repeat_ := by rw [h.rest]
  obtain ⟨x, rfl, h0⟩ := hc.cases
  unfold decodeImbe4400
  rw [hr]
  unfold Snd.put
  dsimp only
  refine Both.same fun b0 => Both.ite (fun _ => Both.pure ⟨rfl, ⟨rfl, h0⟩, (fun h => by cases h), h, ht⟩) fun _ => Both.same fun L =>
    Both.ite (fun _ => Both.pure ⟨rfl, ⟨rfl, h0⟩, (fun h => by cases h), h, ht⟩) fun _ => Both.same fun K => ?_
  unfold imbeDecodeBody
  dsimp only
  refine Both.same fun bb => Both.bind _ (imbeVoicing_b bb L K _ _) fun V V' hV => Both.same fun Gm => ?_
  obtain ⟨e, ht'⟩ := imbeGetCache_b ht
  revert e ht'
  generalize imbeGetCache t = y
  generalize imbeGetCache t' = y'
  intro e ht'
  obtain ⟨ca, t⟩ := y
  obtain ⟨ca', t'⟩ := y'
  cases e
  dsimp only at ht' ⊢
  refine Both.same fun _ => Both.same fun _ => Both.same fun _ => ?_
  refine Both.bind DecodedEq (extendPrev_b L h) fun p q hpq => ?_
  rw [imbePredict1_b lax L hpq.toParamEq]
  refine Both.same fun _ => ?_
  exact Both.bind DecodedEq (imbePredict2_b lax L hpq.toParamEq _ _ _ _ _ ⟨rfl, h0⟩ rfl hV) fun c d hcd =>
    Both.pure ⟨rfl, hcd.toParamEq, fun _ => hcd, hpq, ht'⟩

theorem ambe2450Header_b (b0 : Nat) {c c' : Parms F} (hc : ParamEq c c') : Both (ambe2450Header b0 c) (ambe2450Header b0 c') fun h h' =>
    h'.1 = h.1 ∧ h'.2.2 = h.2.2 ∧ ParamEq h.2.1 h'.2.1 ∧ h.2.1.L = h.2.2 ∧
    ((b0 == 124 || b0 == 125) = true → ∀ l : Fin 57, 1 ≤ l.val → (l.val : Int) ≤ h.2.2 → h'.2.1.Vl l = h.2.1.Vl l) := by
  obtain ⟨x, rfl, h0⟩ := hc.cases
  unfold ambe2450Header Snd.put
  dsimp only
  by_cases c : (b0 == 124 || b0 == 125) = true
  · rw [if_pos c, if_pos c]
    refine Both.bind _ (clearVl_b _ _ _) fun V V' hV => Both.pure ⟨rfl, rfl, ⟨rfl, h0⟩, rfl, fun _ l l1 l2 => hV l l1 ?_⟩
    dsimp only at l2 ⊢
    omega
  · rw [if_neg c, if_neg c]
    exact Both.same fun _ => Both.same fun _ => Both.same fun _ => Both.pure ⟨rfl, rfl, ⟨rfl, h0⟩, rfl, fun k => absurd k c⟩

theorem decodeAmbe2450_b (lax : Bool) (d : Nat → Int) (te : Int) {c c' p p' : Parms F} {t t' : Tls F} (hc : ParamEq c c') (h : DecodedEq p p')
    (ht : ThreadEq t t') : Both (decodeAmbe2450 lax d te c p t) (decodeAmbe2450 lax d te c' p' t') BDec := by
  have hr : p'.repeat_ = p.repeat_ := by rw [h.rest]
  have hc2 : ParamEq { c with repeat_ := p.repeat_ } { c' with repeat_ := p'.repeat_ } := by
    obtain ⟨x, rfl, h0⟩ := hc.cases
    rw [hr]
    exact ⟨rfl, h0⟩
  unfold decodeAmbe2450
  refine Both.same fun tone => Both.same fun b0 => Both.ite (fun _ => Both.pure ⟨rfl, hc2, (fun h => by cases h), h, ht⟩) fun _ =>
    Both.ite (fun _ => Both.pure ⟨rfl, hc2, (fun h => by cases h), h, ht⟩) fun _ =>
    Both.ite (fun _ => Both.pure ⟨rfl, hc2, (fun h => by cases h), h, ht⟩) fun _ => ?_
  unfold ambe2450Voice
  refine Both.bind _ (ambe2450Header_b b0 hc2) fun r r' hr => ?_
  obtain ⟨f, c, L⟩ := r
  obtain ⟨f', c', L'⟩ := r'
  obtain ⟨e1, e2, hc, hL, hV⟩ := hr
  dsimp only at e1 e2 hc hL hV ⊢
  cases e1
  cases e2
  obtain ⟨x, rfl, h0⟩ := hc.cases
  unfold Snd.put at hV ⊢
  dsimp only at hV ⊢
  refine Both.same fun b1 => Both.bind _ (ambeVoicing_b _ _ _ _ _ hV) fun V V' hV => Both.same fun fl => ?_
  obtain ⟨e, ht'⟩ := ambe2450GetCache_b ht
  revert e ht'
  generalize ambe2450GetCache t = y
  generalize ambe2450GetCache t' = y'
  intro e ht'
  obtain ⟨ca, t⟩ := y
  obtain ⟨ca', t'⟩ := y'
  cases e
  dsimp only at ht' ⊢
  exact Both.bind _ (ambeBody_b lax _ _ _ _ _ ⟨rfl, h0⟩ hL hV h) fun r r' hr => Both.pure ⟨rfl, hr.1.toParamEq, fun _ => hr.1, hr.2, ht'⟩

theorem decodeAmbe2400_b (lax : Bool) (d : Nat → Int) {c c' p p' : Parms F} {t t' : Tls F} (hc : ParamEq c c') (h : DecodedEq p p')
    (ht : ThreadEq t t') : Both (decodeAmbe2400 lax d c p t) (decodeAmbe2400 lax d c' p' t') BDec := by
  have hr : p'.repeat_ = p.repeat_ := by rw [h.rest]
  obtain ⟨x, rfl, h0⟩ := hc.cases
  unfold decodeAmbe2400
  rw [hr]
  unfold Snd.put
  dsimp only
  refine Both.same fun b0 => Both.ite (fun _ => Both.same fun b1 => ?_) fun _ => ?_
  · refine Both.ite (fun k => Both.pure ⟨rfl, ⟨rfl, h0⟩, fun k' => ?_, h, ht⟩) fun _ =>
      Both.ite (fun _ => Both.pure ⟨rfl, ⟨rfl, h0⟩, (fun h => by cases h), h, ht⟩) fun _ => ?_
    · dsimp only at k'
      omega
    · exact Both.skip fun _ _ => Both.pure ⟨rfl, ⟨rfl, h0⟩, (fun h => by cases h), h, ht⟩
  · unfold ambe2400Voice
    dsimp only
    refine Both.same fun _ => Both.same fun L => Both.same fun b1 => Both.bind _ (ambeVoicing_b _ _ _ false _ (by intro k; cases k)) fun V V' hV =>
      Both.same fun fl => ?_
    obtain ⟨e, ht'⟩ := ambe2400GetCache_b ht
    revert e ht'
    generalize ambe2400GetCache t = y
    generalize ambe2400GetCache t' = y'
    intro e ht'
    obtain ⟨ca, t⟩ := y
    obtain ⟨ca', t'⟩ := y'
    cases e
    dsimp only at ht' ⊢
    exact Both.bind _ (ambeBody_b lax _ _ _ _ _ ⟨rfl, h0⟩ rfl hV h) fun r r' hr => Both.pure ⟨rfl, hr.1.toParamEq, fun _ => hr.1, hr.2, ht'⟩

end Verif.Model
