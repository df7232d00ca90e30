import Verif.Lemmas.Loud
import Verif.Model.Ambe

/-!
# The AMBE amplitude decoder on intervals
-/

namespace Verif.Model
open Verif Verif.Gen Verif.Num Arith

variable {m : Libm}

theorem ambeGm_rel (T : AmbeTabs) (f : AmbeFields) : RelE (RLoc RI) (ambeGm T f : Exec (Loc 9 (IEEE m))) (ambeGm T f) := by
  unfold ambeGm
  refine .bind (RLoc.wr (.fresh 9) _ (RI.fi 0)) fun G G' hG => .bind (R := RLoc RI) (RelE.loop hG fun c G G' hG => ?_) fun G G' hG =>
    RelE.loop hG fun c G G' hG => ?_
  · exact .bindSame fun v => hG.wr _ (.ftab _ _)
  · exact .bindSame fun v => hG.wr _ (.ftab _ _)

theorem ambeCik12_rel {R : Loc 9 (IEEE m)} {R' : Loc 9 Ivl} (hR : RLoc RI R R') : RelE (RLoc2 RI) (ambeCik12 R) (ambeCik12 R') := by
  unfold ambeCik12
  refine RelE.loopFT (fun i => .fresh 18) fun i C C' hC => ?_
  refine .bind (hR.rd _) fun a a' ha => .bind (hR.rd _) fun b b' hb => ?_
  refine .bind (hC.wr _ _ (.mul (.toF (.dlit _ _)) (ha.add hb))) fun C C' hC => ?_
  exact hC.wr _ _ (.mul (.toF (.ddiv (.ofInt _) (.dmul (.ofInt _) (.dlit _ _)))) (ha.sub hb))

theorem ambeHoc_rel (t : List (List Int)) (den b i Ji : Nat) {C : Arr 5 (Loc 18 (IEEE m))} {C' : Arr 5 (Loc 18 Ivl)}
    (hC : RLoc2 RI C C') : RelE (RLoc2 RI) (ambeHoc t den b i Ji C) (ambeHoc t den b i Ji C') := by
  unfold ambeHoc
  refine RelE.loopFT hC fun k C C' hC => ?_
  by_cases h : k > 6
  · rw [if_pos h, if_pos h]; exact hC.wr _ _ (.fi 0)
  · rw [if_neg h, if_neg h]; exact .bindSame fun v => hC.wr _ _ (.ftab _ _)

/-- The residual amplitudes: the part of the decoder between the gain and the prediction. -/
def ambeResidual {F : Type} [Arith F] (cache : DctCache F 9 18) (T : AmbeTabs) (f : AmbeFields) (L : Int) : Exec (Arr 57 F) := do
  let Gm ← ambeGm T f
  let Ri ← idctRi cache 8 Gm
  let C ← ambeCik12 Ri
  let J ← tabI T.lmprbl L
  let J1 ← tab J 0
  let J2 ← tab J 1
  let J3 ← tab J 2
  let J4 ← tab J 3
  let C ← ambeHoc T.hoc5 T.hoc5Den f.b5 1 J1 C
  let C ← ambeHoc T.hoc6 T.hoc6Den f.b6 2 J2 C
  let C ← ambeHoc T.hoc7 T.hoc7Den f.b7 3 J3 C
  let C ← ambeHoc T.hoc8 T.hoc8Den f.b8 4 J4 C
  let s ← idctBlock cache C 1 J1 (Arr.const 57 (fi 0), 1)
  let s ← idctBlock cache C 2 J2 s
  let s ← idctBlock cache C 3 J3 s
  let s ← idctBlock cache C 4 J4 s
  .ok s.1

theorem ambeResidual_rel {c : DctCache (IEEE m) 9 18} {c' : DctCache Ivl 9 18} (hc : RCache c c') (T : AmbeTabs) (f : AmbeFields)
    (L : Int) : RelE (RArr RI) (ambeResidual c T f L) (ambeResidual c' T f L) := by
  unfold ambeResidual
  refine .bind (ambeGm_rel T f) fun _ _ hG => .bind (idctRi_rel hc 8 hG) fun _ _ hR => .bind (ambeCik12_rel hR) fun _ _ hC => ?_
  refine .bindSame fun J => .bindSame fun J1 => .bindSame fun J2 => .bindSame fun J3 => .bindSame fun J4 => ?_
  refine .bind (ambeHoc_rel _ _ _ _ _ hC) fun _ _ hC => .bind (ambeHoc_rel _ _ _ _ _ hC) fun _ _ hC =>
    .bind (ambeHoc_rel _ _ _ _ _ hC) fun _ _ hC => .bind (ambeHoc_rel _ _ _ _ _ hC) fun _ _ hC => ?_
  refine .bind (idctBlock_rel hc hC 1 J1 ⟨fun _ => .fi 0, rfl⟩) fun _ _ hs => .bind (idctBlock_rel hc hC 2 J2 hs) fun _ _ hs =>
    .bind (idctBlock_rel hc hC 3 J3 hs) fun _ _ hs => .bind (idctBlock_rel hc hC 4 J4 hs) fun _ _ hs => .ok hs.1

/-- The prediction, with the logarithm of `L` as a parameter. -/
def ambeRun {F : Type} [Arith F] (lax : Bool) (L : Int) (prev : Parms F) (T : Arr 57 F) (lg gamma unvc : F) (cur : Parms F) :
    Exec (Parms F) := do
  let p ← ambePredict1 lax L prev
  let s42 ← ambeSum42 L T
  ambePredict3 lax L prev p.1 p.2.1 ((toF (dlit 65 100) /ᶠ ofInt L) *ᶠ p.2.2)
    ((gamma -ᶠ (lit 5 10 *ᶠ lg)) -ᶠ (s42 /ᶠ ofInt L)) unvc T cur

theorem ambeSum42_rel (L : Int) {T : Arr 57 (IEEE m)} {T' : Arr 57 Ivl} (hT : RArr RI T T') :
    RelE RI (ambeSum42 L T) (ambeSum42 L T') := by
  unfold ambeSum42
  refine RelE.loopFT (.fi 0) fun l s s' hs => ?_
  exact .bind (RArr.rd hT _) fun t t' ht => .ok (hs.add ht)

/-- What the prediction writes, and the voicing that it reads; nothing is known of a harmonic that is not voiced on the right. -/
structure RAmpsV (p : Parms (IEEE m)) (q : Parms Ivl) : Prop where
  amps : RAmps p q
  vl : RArr (fun a b : Int => b = 1 → a = 1) p.Vl q.Vl

theorem ambePredict3_rel (hm : LibmAcc m) {lax : Bool} {L : Int} {p : Parms (IEEE m)} {q : Parms Ivl} (h : RPrev p q)
    {ik ik' : Loc 57 Int} (hik : RLoc (· = ·) ik ik') {dl : Loc 57 (IEEE m)} {dl' : Loc 57 Ivl} (hdl : RLoc RI dl dl')
    {s43 bg unvc : IEEE m} {s43' bg' : Ivl} (hs : RI s43 s43') (hb : RI bg bg') {T : Arr 57 (IEEE m)} {T' : Arr 57 Ivl}
    (hT : RArr RI T T') {cur : Parms (IEEE m)} {cur' : Parms Ivl} (hc : RAmpsV cur cur') :
    RelE RAmpsV (ambePredict3 lax L p ik dl s43 bg unvc T cur) (ambePredict3 false L q ik' dl' s43' bg' .top T' cur') := by
  unfold ambePredict3
  refine RelE.loopFT hc fun l c c' hc => ?_
  have hr : RI (toF (dlit 65 100) : IEEE m) (toF (dlit 65 100)) := .toF (.dlit _ _)
  refine .bind (RLoc.rd hdl _) fun d d' hd => .bind (RLoc.rd hik _) fun n n' e => ?_
  subst e
  refine .bind (rdLog2_rel h _) fun x x' hx => .bind (rdLog2_rel h _) fun y y' hy => .bind (RArr.rd hT _) fun t t' ht => ?_
  have hv := RI.add (.sub (.add (.add ht (.mul (.mul hr (.sub (.ofInt 1) hd)) hx)) (.mul (.mul hr hd) hy)) hs) hb
  refine .bind (RArr.wr hc.amps.lg _ hv) fun a a' ha => .bind (RArr.rd hc.vl _) fun b b' hbb => ?_
  refine .bind (R := RArr RI) (RArr.wr hc.amps.ml _ ?_) fun b b' hb => .ok ⟨⟨ha, hb⟩, hc.vl⟩
  by_cases hb1 : b' = 1
  · rw [if_pos hb1, if_pos (hbb hb1)]; exact .exp2 hm hv
  · rw [if_neg hb1]; exact trivial

theorem ambeRun_rel (hm : LibmAcc m) {lax : Bool} {L : Int} {p : Parms (IEEE m)} {q : Parms Ivl} (h : RPrev p q)
    {T : Arr 57 (IEEE m)} {T' : Arr 57 Ivl} (hT : RArr RI T T') {lg g unvc : IEEE m} {lg' g' : Ivl} (hl : RI lg lg') (hg : RI g g')
    {cur : Parms (IEEE m)} {cur' : Parms Ivl} (hc : RAmpsV cur cur') :
    RelE RAmpsV (ambeRun lax L p T lg g unvc cur) (ambeRun false L q T' lg' g' .top cur') := by
  refine .bind (imbePredict1_rel h) fun a b hab => .bind (ambeSum42_rel L hT) fun s s' hs => ?_
  exact ambePredict3_rel hm h hab.1 hab.2.1 (.mul (.div (.toF (.dlit _ _)) (.ofInt _)) hab.2.2)
    (.sub (.sub hg (.mul (.lit _ _) hl)) (.div hs (.ofInt _))) hT hc

theorem ambeBody_run {F : Type} [Arith F] {lax : Bool} {T : AmbeTabs} {f : AmbeFields} {L : Int} {unvc : F} {cache : DctCache F 9 18}
    {cur prev : Parms F} {r : Parms F × Parms F} (h : ambeBody lax T f L unvc cache cur prev = .ok r) :
    ∃ dg R pe x y, tab T.dg f.b2 = .ok dg ∧ ambeResidual cache T f L = .ok R ∧ extendPrev L prev = .ok pe ∧
      pe.log2Ml.rd 1 = .ok x ∧ pe.log2Ml.wr 0 x = .ok y ∧ (∃ M, r.2 = { pe with log2Ml := y, Ml := M }) ∧
      ambeRun lax L r.2 R (log2 (ofInt L)) (ftab dg T.dgDen +ᶠ (toF (dlit 5 10) *ᶠ prev.gamma)) unvc
        { cur with gamma := ftab dg T.dgDen +ᶠ (toF (dlit 5 10) *ᶠ prev.gamma) } = .ok r.1 := by
  unfold ambeBody at h
  obtain ⟨dg, e0, h⟩ := bind_ok h
  dsimp only at h
  obtain ⟨G, e1, h⟩ := bind_ok h
  obtain ⟨Ri, e2, h⟩ := bind_ok h
  obtain ⟨C, e3, h⟩ := bind_ok h
  obtain ⟨J, e4, h⟩ := bind_ok h
  obtain ⟨J1, e5, h⟩ := bind_ok h
  obtain ⟨J2, e6, h⟩ := bind_ok h
  obtain ⟨J3, e7, h⟩ := bind_ok h
  obtain ⟨J4, e8, h⟩ := bind_ok h
  obtain ⟨C1, e9, h⟩ := bind_ok h
  obtain ⟨C2, e10, h⟩ := bind_ok h
  obtain ⟨C3, e11, h⟩ := bind_ok h
  obtain ⟨C4, e12, h⟩ := bind_ok h
  obtain ⟨s1, e13, h⟩ := bind_ok h
  obtain ⟨s2, e14, h⟩ := bind_ok h
  obtain ⟨s3, e15, h⟩ := bind_ok h
  obtain ⟨s4, e16, h⟩ := bind_ok h
  obtain ⟨pe, e17, h⟩ := bind_ok h
  obtain ⟨x, e18, h⟩ := bind_ok h
  obtain ⟨y, e19, h⟩ := bind_ok h
  obtain ⟨x', e20, h⟩ := bind_ok h
  obtain ⟨M, e21, h⟩ := bind_ok h
  obtain ⟨p, e22, h⟩ := bind_ok h
  obtain ⟨s42, e23, h⟩ := bind_ok h
  obtain ⟨c, e24, h⟩ := bind_ok h
  have := ok_inj h
  subst this
  refine ⟨dg, s4.1, pe, x, y, e0, ?_, e17, e18, e19, ⟨M, rfl⟩, ?_⟩
  · unfold ambeResidual
    rw [e1, ok_bind, e2, ok_bind, e3, ok_bind, e4, ok_bind, e5, ok_bind, e6, ok_bind, e7, ok_bind, e8, ok_bind, e9, ok_bind,
      e10, ok_bind, e11, ok_bind, e12, ok_bind, e13, ok_bind, e14, ok_bind, e15, ok_bind, e16, ok_bind]
  · unfold ambeRun
    dsimp only
    rw [e22, ok_bind, e23, ok_bind, e24]

end Verif.Model
