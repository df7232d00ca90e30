import Verif.Lemmas.Exec
import Verif.Model.Ambe

/-!
# What the parameter decoders may change

For every arithmetic: whenever a decoder returns, only the listed members of the parameter sets differ.
-/

namespace Verif.Model
open Verif Verif.Gen Arith
variable {F : Type} [Arith F]
set_option linter.unusedSectionVars false

/-- `q` is `p` except for amplitudes. -/
def SameButAmps (p q : Parms F) : Prop := q = { p with Ml := q.Ml, log2Ml := q.log2Ml }

theorem SameButAmps.refl (p : Parms F) : SameButAmps p p := rfl
theorem SameButAmps.trans {p q r : Parms F} (h1 : SameButAmps p q) (h2 : SameButAmps q r) : SameButAmps p r := by
  unfold SameButAmps at *
  rw [h2, h1]

theorem extendPrev_post (L : Int) (prev : Parms F) : Post (extendPrev L prev) (SameButAmps prev) := by
  unfold extendPrev
  refine Post.ite (fun _ => ?_) (fun _ => Post.pure (SameButAmps.refl _))
  refine loop_post' _ (SameButAmps.refl _) fun i p hp => ?_
  refine Post.bind Post.true fun _ _ => Post.bind Post.true fun _ _ => Post.bind Post.true fun _ _ =>
    Post.bind Post.true fun _ _ => Post.pure (hp.trans ?_)
  exact rfl

theorem imbePredict2_post (lax : Bool) (L : Int) (prev : Parms F) (ik : Loc 57 Int) (dl : Loc 57 F) (rho s : F)
    (Tl : Arr 57 F) (cur : Parms F) : Post (imbePredict2 lax L prev ik dl rho s Tl cur) (SameButAmps cur) := by
  unfold imbePredict2
  refine loopFT_post' _ (SameButAmps.refl _) fun i p hp => ?_
  repeat refine Post.bind Post.true fun _ _ => ?_
  exact Post.pure (hp.trans rfl)

theorem ambePredict3_post (lax : Bool) (L : Int) (prev : Parms F) (ik : Loc 57 Int) (dl : Loc 57 F) (s g u : F)
    (Tl : Arr 57 F) (cur : Parms F) : Post (ambePredict3 lax L prev ik dl s g u Tl cur) (SameButAmps cur) := by
  unfold ambePredict3
  refine loopFT_post' _ (SameButAmps.refl _) fun i p hp => ?_
  repeat refine Post.bind Post.true fun _ _ => ?_
  exact Post.pure (hp.trans rfl)

theorem ambeBody_post (lax : Bool) (T : AmbeTabs) (f : AmbeFields) (L : Int) (unvc : F) (cache : DctCache F 9 18)
    (cur prev : Parms F) : Post (ambeBody lax T f L unvc cache cur prev) fun r =>
      r.1 = { cur with Ml := r.1.Ml, log2Ml := r.1.log2Ml, gamma := r.1.gamma } ∧ SameButAmps prev r.2 := by
  unfold ambeBody
  refine Post.bind Post.true fun dg _ => ?_
  iterate 16 refine Post.bind Post.true fun _ _ => ?_
  refine Post.bind (extendPrev_post _ _) fun p hp => ?_
  iterate 4 refine Post.bind Post.true fun _ _ => ?_
  iterate 2 refine Post.bind Post.true fun _ _ => ?_
  refine Post.bind (ambePredict3_post _ _ _ _ _ _ _ _ _ _) fun c hc => ?_
  refine Post.pure ⟨?_, hp.trans ?_⟩
  · show c = _
    unfold SameButAmps at hc
    rw [hc]
  · exact rfl

/-- The frame condition of all decoders. -/
structure DecodeFrame (cur prev : Parms F) (t : Tls F) (r : DecodeRes F) : Prop where
  cur_eq : r.cur = { cur with repeat_ := prev.repeat_, w0 := r.cur.w0, L := r.cur.L, K := r.cur.K, Vl := r.cur.Vl,
                              Ml := r.cur.Ml, log2Ml := r.cur.log2Ml, gamma := r.cur.gamma }
  prev_eq : r.prev = { prev with Ml := r.prev.Ml, log2Ml := r.prev.log2Ml }
  tls_eq : r.tls = { t with imbeCache := r.tls.imbeCache, ambe2450Cache := r.tls.ambe2450Cache,
                            ambe2400Cache := r.tls.ambe2400Cache }

theorem imbeGetCache_frame (t : Tls F) : (imbeGetCache t).2 = { t with
    imbeCache := (imbeGetCache t).2.imbeCache, ambe2450Cache := (imbeGetCache t).2.ambe2450Cache,
    ambe2400Cache := (imbeGetCache t).2.ambe2400Cache } := by
  unfold imbeGetCache
  split <;> rfl

theorem ambe2450GetCache_frame (t : Tls F) : (ambe2450GetCache t).2 = { t with
    imbeCache := (ambe2450GetCache t).2.imbeCache, ambe2450Cache := (ambe2450GetCache t).2.ambe2450Cache,
    ambe2400Cache := (ambe2450GetCache t).2.ambe2400Cache } := by
  unfold ambe2450GetCache
  split <;> rfl

theorem ambe2400GetCache_frame (t : Tls F) : (ambe2400GetCache t).2 = { t with
    imbeCache := (ambe2400GetCache t).2.imbeCache, ambe2450Cache := (ambe2400GetCache t).2.ambe2450Cache,
    ambe2400Cache := (ambe2400GetCache t).2.ambe2400Cache } := by
  unfold ambe2400GetCache
  split <;> rfl

theorem decodeImbe4400_frame (lax : Bool) (d : Nat → Int) (cur prev : Parms F) (t : Tls F) :
    Post (decodeImbe4400 lax d cur prev t) fun r => DecodeFrame cur prev t r ∧ r.cur.gamma = cur.gamma ∧
      (r.bad = 0 ∨ r.bad = 1) := by
  unfold decodeImbe4400
  refine Post.bind Post.true fun b0 _ => ?_
  refine Post.ite (fun _ => Post.pure ⟨⟨rfl, rfl, rfl⟩, rfl, .inr rfl⟩) fun _ => ?_
  refine Post.bind Post.true fun L _ => ?_
  refine Post.ite (fun _ => Post.pure ⟨⟨rfl, rfl, rfl⟩, rfl, .inr rfl⟩) fun _ => ?_
  refine Post.bind Post.true fun K _ => ?_
  unfold imbeDecodeBody
  iterate 6 refine Post.bind Post.true fun _ _ => ?_
  refine Post.bind (extendPrev_post _ _) fun p hp => ?_
  refine Post.bind Post.true fun _ _ => ?_
  refine Post.bind (imbePredict2_post _ _ _ _ _ _ _ _ _) fun c hc => Post.pure ?_
  unfold SameButAmps at hp hc
  refine ⟨⟨?_, hp, ?_⟩, ?_, .inl rfl⟩
  · show c = _
    rw [hc]
  · exact imbeGetCache_frame t
  · show c.gamma = _
    rw [hc]

theorem ambe2450Voice_frame (lax : Bool) (d : Nat → Int) (b0 : Nat) (cur prev : Parms F) (t : Tls F) :
    Post (ambe2450Voice lax d b0 cur prev t) fun r =>
      DecodeFrame { cur with repeat_ := prev.repeat_ } prev t { r with cur := { r.cur with repeat_ := prev.repeat_ } } ∧
      r.cur.repeat_ = cur.repeat_ ∧ r.bad = 0 ∧ r.cur.K = cur.K := by
  unfold ambe2450Voice
  refine Post.bind (P := fun (r : F × Parms F × Int) => r.2.1 = { cur with w0 := r.2.1.w0, L := r.2.1.L, Vl := r.2.1.Vl }) ?_ fun r hr => ?_
  · unfold ambe2450Header
    refine Post.ite (fun _ => ?_) (fun _ => ?_)
    · refine Post.bind Post.true fun _ _ => Post.pure rfl
    · refine Post.bind Post.true fun _ _ => ?_
      refine Post.bind Post.true fun _ _ => ?_
      refine Post.bind Post.true fun _ _ => Post.pure rfl
  · obtain ⟨f0, c, L⟩ := r
    dsimp only at hr ⊢
    iterate 3 refine Post.bind Post.true fun _ _ => ?_
    refine Post.bind (ambeBody_post _ _ _ _ _ _ _ _) fun q hq => Post.pure ?_
    obtain ⟨c', p'⟩ := q
    obtain ⟨h1, h2⟩ := hq
    unfold SameButAmps at h2
    dsimp only at h1 h2 ⊢
    refine ⟨⟨?_, h2, ?_⟩, ?_, rfl, ?_⟩
    · show Parms.mk .. = _
      rw [h1, hr]
    · exact ambe2450GetCache_frame t
    · rw [h1, hr]
    · rw [h1, hr]

theorem decodeAmbe2450_frame (lax : Bool) (d : Nat → Int) (e : Int) (cur prev : Parms F) (t : Tls F) :
    Post (decodeAmbe2450 lax d e cur prev t) fun r => DecodeFrame cur prev t r ∧
      (r.bad = 0 ∨ r.bad = 2 ∨ r.bad = 7) ∧
      (r.bad ≠ 0 → r.cur = { cur with repeat_ := prev.repeat_ } ∧ r.prev = prev ∧ r.tls = t) := by
  unfold decodeAmbe2450
  refine Post.bind Post.true fun tone _ => Post.bind Post.true fun b0 _ => ?_
  refine Post.ite (fun _ => Post.pure ⟨⟨rfl, rfl, rfl⟩, by simp, fun _ => ⟨rfl, rfl, rfl⟩⟩) fun _ => ?_
  refine Post.ite (fun _ => Post.pure ⟨⟨rfl, rfl, rfl⟩, by simp, fun _ => ⟨rfl, rfl, rfl⟩⟩) fun _ => ?_
  refine Post.ite (fun _ => Post.pure ⟨⟨rfl, rfl, rfl⟩, by simp, fun _ => ⟨rfl, rfl, rfl⟩⟩) fun _ => ?_
  refine (ambe2450Voice_frame _ _ _ _ _ _).mono fun r h => ?_
  obtain ⟨⟨h1, h2, h3⟩, h4, h5, _⟩ := h
  refine ⟨⟨?_, h2, h3⟩, .inl h5, fun h => absurd h5 h⟩
  have : r.cur = { r.cur with repeat_ := prev.repeat_ } := by
    have : prev.repeat_ = r.cur.repeat_ := h4.symm
    rw [this]
  rw [this]
  exact h1

theorem ambe2400Voice_frame (lax : Bool) (d : Nat → Int) (b0 : Nat) (cur prev : Parms F) (t : Tls F) :
    Post (ambe2400Voice lax d b0 cur prev t) fun r =>
      DecodeFrame { cur with repeat_ := prev.repeat_ } prev t { r with cur := { r.cur with repeat_ := prev.repeat_ } } ∧
      r.cur.repeat_ = cur.repeat_ ∧ r.bad = 0 ∧ r.cur.K = cur.K := by
  unfold ambe2400Voice
  iterate 5 refine Post.bind Post.true fun _ _ => ?_
  refine Post.bind (ambeBody_post _ _ _ _ _ _ _ _) fun q hq => Post.pure ?_
  obtain ⟨c', p'⟩ := q
  obtain ⟨h1, h2⟩ := hq
  unfold SameButAmps at h2
  dsimp only at h1 h2 ⊢
  refine ⟨⟨?_, h2, ?_⟩, ?_, rfl, ?_⟩
  · show Parms.mk .. = _
    rw [h1]
  · exact ambe2400GetCache_frame t
  · rw [h1]
  · rw [h1]

theorem decodeAmbe2400_frame (lax : Bool) (d : Nat → Int) (cur prev : Parms F) (t : Tls F) :
    Post (decodeAmbe2400 lax d cur prev t) fun r => DecodeFrame cur prev t r ∧
      (r.bad = 0 ∨ r.bad = 3 ∨ 5 ≤ r.bad ∧ r.bad ≤ 122) ∧
      (r.bad ≠ 0 → r.cur = { cur with repeat_ := prev.repeat_, w0 := r.cur.w0, L := r.cur.L, Vl := r.cur.Vl } ∧
        r.prev = prev ∧ r.tls = t) := by
  unfold decodeAmbe2400
  refine Post.bind Post.true fun b0 _ => ?_
  refine Post.ite (fun _ => Post.bind Post.true fun b1 _ => ?_) fun _ => ?_
  · refine Post.ite (fun h => Post.pure ⟨⟨rfl, rfl, rfl⟩, ?_, fun _ => ⟨rfl, rfl, rfl⟩⟩) fun _ => ?_
    · right; right; constructor
      · show (5 : Int) ≤ (b1 : Int); omega
      · show (b1 : Int) ≤ 122; omega
    refine Post.ite (fun _ => Post.pure ⟨⟨rfl, rfl, rfl⟩, by simp, fun _ => ⟨rfl, rfl, rfl⟩⟩) fun _ => ?_
    exact Post.bind Post.true fun _ _ => Post.pure ⟨⟨rfl, rfl, rfl⟩, by simp, fun _ => ⟨rfl, rfl, rfl⟩⟩
  refine (ambe2400Voice_frame _ _ _ _ _ _).mono fun r h => ?_
  obtain ⟨⟨h1, h2, h3⟩, h4, h5, _⟩ := h
  refine ⟨⟨?_, h2, h3⟩, .inl h5, fun h => absurd h5 h⟩
  have : r.cur = { r.cur with repeat_ := prev.repeat_ } := by
    have : prev.repeat_ = r.cur.repeat_ := h4.symm
    rw [this]
  rw [this]
  exact h1

end Verif.Model
