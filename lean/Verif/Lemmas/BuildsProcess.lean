import Verif.Lemmas.BuildsSpeak
import Verif.Lemmas.Decode

/-!
# Two builds side by side: the process functions
-/

set_option linter.unusedSectionVars false

namespace Verif.Model
open Verif Verif.Gen Verif.Spec Arith
variable {F : Type} [Arith F]

theorem Both.left {α β} {x : Exec α} {y : Exec β} {P : α → Prop} {Q : α → β → Prop} (h : Post x P) (h' : Both x y Q) : Both x y fun a b => P a ∧ Q a b :=
  fun a b ha hb => ⟨h a ha, h' a b ha hb⟩

/-- Outputs that agree; the samples too when `Q` holds. -/
structure BOut (Q : Out F → Prop) (o o' : Out F) : Prop where
  str : o'.str = o.str
  st : StateEq o.st o'.st
  pcm : Q o → o'.pcm = o.pcm

theorem processImbe4400_b (isa : Isa) (E E' : Env F) (hl : E'.lax = E.lax) (C : Call F) (c0 : Option Int) (e : Int) (d : Nat → Int) {s s' : St F}
    (h : StateEq s s') : Both (processImbe4400 E C c0 e d s) (processImbe4400Simd isa E' C c0 e d s')
      (BOut fun o => synthMuted o.st.prev = true) := by
  unfold processImbe4400 processImbe4400Simd
  have h := imbePrepare_b c0 e h
  revert h
  generalize imbePrepare c0 e s = s
  generalize imbePrepare c0 e s' = s'
  intro h
  dsimp only
  rw [hl]
  refine Both.same fun str => Both.bind _ (Both.left (decodeImbe4400_frame _ _ _ _ _) (decodeImbe4400_b E.lax d h.cur h.prev h.tls)) fun r r' hr => ?_
  obtain ⟨⟨_, _, hbad⟩, hr⟩ := hr
  have er : r'.cur.errorRate = r.cur.errorRate := by rw [hr.cur.rest]
  rw [hr.bad, er]
  refine Both.bind DecodedEq (imbeRepeat_b _ hr.cur (fun k => ?_) hr.prev) fun c d hcd => ?_
  · rcases hbad with hbad | hbad
    · exact hr.good hbad
    · unfold imbeRepeatRequired at k
      rw [if_pos hbad] at k
      cases k
  have em : (isMaxFrameRepeat d || requiresMuting d) = (isMaxFrameRepeat c || requiresMuting c) := by
    rw [hcd.rest]
    rfl
  rw [em]
  refine Both.same fun str => Both.bind _ (speak_b isa E E' C (s := ⟨c, r.prev, s.enh, r.tls⟩) (s' := ⟨d, r'.prev, s'.enh, r'.tls⟩) hcd h.enh hr.tls) fun o o' ho => ?_
  refine Both.same fun str => Both.same fun str => Both.pure ⟨rfl, ho.1, fun k => ho.2.2 ?_⟩
  have := ho.2.1
  dsimp only at k this ⊢
  rw [← this]
  exact k

theorem putOpt_post (cap : Nat) (s : List Char) (o : Option Char) : Post (putOpt cap s o) fun r => r = s ++ o.toList := by
  cases o with
  | none => exact Post.pure (by simp)
  | some c => exact fun r h => (putc_inv h).1

theorem ambe2450Verdict_b (bad : Int) (c0 : Option Int) (e : Int) {c d p q : Parms F} (hc : ParamEq c d) (hg : bad = 0 → DecodedEq c d)
    (hp : DecodedEq p q) : Both (ambe2450Verdict bad c0 e c p) (ambe2450Verdict bad c0 e d q) fun v v' =>
      v'.2 = v.2 ∧ ParamEq v.1 v'.1 ∧ (bad = 0 ∨ bad = 2 → DecodedEq v.1 v'.1) ∧
      ((v.2 = some 'E' ∧ bad = 2) ∨ (v.2 = some 'T' ∧ (bad = 3 ∨ bad = 7)) ∨ v.2 = some 'R' ∨ v.2 = none) := by
  unfold ambe2450Verdict
  refine Both.ite (fun k => ?_) fun k => Both.ite (fun k' => ?_) fun k' => Both.ite (fun _ => ?_) fun _ => ?_
  · exact Both.bind DecodedEq (setAmbeErasureParms_b (paramEq_cnt hc) hp.toParamEq) fun a b hab =>
      Both.pure ⟨rfl, hab.toParamEq, fun _ => hab, .inl ⟨rfl, k⟩⟩
  · exact Both.pure ⟨rfl, paramEq_cnt hc, fun k => by omega, .inr (.inl ⟨rfl, k'⟩)⟩
  · exact Both.bind DecodedEq (repeatLast_b hp) fun a b hab => Both.pure ⟨rfl, hab.toParamEq, fun _ => hab, .inr (.inr (.inl rfl))⟩
  · exact Both.pure ⟨rfl, paramEq_cnt hc, fun k => decodedEq_cnt (hg (by omega)), .inr (.inr (.inr rfl))⟩

theorem synthesizeTonef_b (out : Arr 160 F) (dd : Nat → Int) {c d : Parms F} (h : ParamEq c d) :
    Both (synthesizeTonef out dd c) (synthesizeTonef out dd d) fun r r' => r'.1 = r.1 ∧ ParamEq r.2 r'.2 := by
  unfold synthesizeTonef
  exact Both.same fun _ => Both.same fun _ => Both.same fun _ => Both.same fun _ => Both.ite (fun _ => renderTonef_b _ _ _ _ h) fun _ => Both.pure ⟨rfl, h⟩

theorem ambe2450Render_b (isa : Isa) (E E' : Env F) (C : Call F) (bad : Int) (d : Nat → Int) {s s' : St F} (h : StateEq s s')
    (hg : bad = 0 ∨ bad = 2 → DecodedEq s.cur s'.cur) : Both (ambe2450Render E C bad d s) (ambe2450RenderSimd isa E' C bad d s') fun o o' =>
      o'.2.1 = o.2.1 ∧ StateEq o.2.2 o'.2.2 ∧ (o.2.1 = none ∨ o.2.1 = some 'M') ∧
      ((bad ≠ 0 ∧ bad ≠ 7) ∨ o.2.1 ≠ none ∨ (bad ≠ 0 ∧ validToneId d = .ok true) → o'.1 = o.1) := by
  have er : s'.cur.repeat_ = s.cur.repeat_ := by rw [h.cur.rest]
  have em : isMaxFrameRepeat s'.prev = isMaxFrameRepeat s.prev := by rw [h.prev.rest]; rfl
  unfold ambe2450Render ambe2450RenderSimd
  rw [er]
  refine Both.ite (fun k => Both.ite (fun _ => ?_) fun _ => ?_) fun k => Both.ite (fun k' => ?_) fun k' => Both.ite (fun k2 => ?_) fun _ => ?_
  · exact Both.bind _ (speak_b isa E E' C (hg (.inl k)) h.enh h.tls) fun o o' ho => Both.pure ⟨rfl, ho.1, .inl rfl, fun j => by
      rcases j with j | j | j
      · exact absurd k j.1
      · exact absurd rfl j
      · exact absurd k j.1⟩
  · exact Both.bind _ (noiseAndReset_b C h.tls) fun o o' ho => Both.pure ⟨rfl, ho.2, .inr rfl, fun _ => ho.1⟩
  · rcases hv : validToneId d with u | b
    · intro a b ha
      cases ha
    · rw [ok_bind, ok_bind]
      cases b with
      | true =>
        rw [if_pos rfl, if_pos rfl]
        exact Both.bind _ (synthesizeTonef_b _ _ h.cur) fun r r' hr => Both.pure ⟨rfl, ⟨hr.2, h.prev, h.enh, h.tls⟩, .inl rfl, fun _ => hr.1⟩
      | false =>
        rw [if_neg Bool.false_ne_true, if_neg Bool.false_ne_true, em]
        refine Both.ite (fun _ => ?_) fun _ => ?_
        · exact Both.bind _ (noiseAndReset_b C h.tls) fun o o' ho => Both.pure ⟨rfl, ho.2, .inl rfl, fun _ => ho.1⟩
        · unfold replayEnhanced replayEnhancedSimd
          refine Both.bind (fun (o o' : Arr 160 F × St F) => StateEq o.2 o'.2) (Both.bind _ (synthesizeSpeechf_b isa E E' _ _ _ h.enh h.enh h.tls) fun r r' hr =>
            Both.pure ⟨h.cur, h.prev, hr.1, hr.2.1⟩) fun o o' ho => Both.pure ⟨rfl, ho, .inl rfl, fun j => ?_⟩
          rcases j with j | j | j
          · exact absurd k' j.2
          · exact absurd rfl j
          · cases j.2
  · have hc := hg (.inr k2)
    exact Both.bind _ (comfortNoisef_b C.buf h.tls) fun r r' hr => Both.pure ⟨rfl, ⟨hc.toParamEq, hc, hc.toParamEq, hr.2⟩, .inl rfl, fun _ => hr.1⟩
  · exact Both.bind _ (noiseAndReset_b C h.tls) fun o o' ho => Both.pure ⟨rfl, ho.2, .inl rfl, fun _ => ho.1⟩

theorem mem_letters {n : Nat} {a b : Option Char} {c : Char} (h : c ∈ ((List.replicate n '=' ++ a.toList) ++ b.toList) ++ ['\x00']) (h1 : c ≠ '=') (h2 : c ≠ '\x00') :
    a = some c ∨ b = some c := by
  simp only [List.mem_append, List.mem_replicate, List.mem_singleton, Option.mem_toList] at h
  rcases h with ((h | h) | h) | h
  · exact absurd h.2 h1
  · exact .inl h
  · exact .inr h
  · exact absurd h h2

theorem processAmbe2450_b (isa : Isa) (E E' : Env F) (hl : E'.lax = E.lax) (C : Call F) (c0 : Option Int) (e : Int) (d : Nat → Int) {s s' : St F}
    (h : StateEq s s') : Both (processAmbe2450 E C c0 e d s) (processAmbe2450Simd isa E' C c0 e d s')
      (BOut fun o => 'M' ∈ o.str ∨ 'E' ∈ o.str ∨ ('T' ∈ o.str ∧ validToneId d = .ok true)) := by
  unfold processAmbe2450 processAmbe2450Simd
  rw [hl]
  refine Both.bind _ (ambePrepare_b e h) fun s s' h => ?_
  refine Both.bind _ (Both.left (fun _ h => (putEq_inv h).1) fun a b ha hb => ok_inj (hb.symm.trans ha)) fun str str' hs => ?_
  obtain ⟨hstr, rfl⟩ := hs
  refine Both.bind _ (decodeAmbe2450_b E.lax d e h.cur h.prev h.tls) fun r r' hr => ?_
  rw [hr.bad]
  refine Both.bind _ (ambe2450Verdict_b r.bad c0 e hr.cur hr.good hr.prev) fun v v' hv => ?_
  obtain ⟨hv2, hv1, hvg, hvl⟩ := hv
  rw [hv2]
  refine Both.bind _ (Both.left (putOpt_post _ _ _) fun a b ha hb => ok_inj (hb.symm.trans ha)) fun s1 s1' hs1 => ?_
  obtain ⟨hs1, rfl⟩ := hs1
  refine Both.bind _ (ambe2450Render_b isa E E' C r.bad d (s := ⟨v.1, r.prev, s.enh, r.tls⟩) (s' := ⟨v'.1, r'.prev, s'.enh, r'.tls⟩)
    ⟨hv1, hr.prev, h.enh, hr.tls⟩ hvg) fun o o' ho => ?_
  obtain ⟨ho1, ho2, hol, hop⟩ := ho
  rw [ho1]
  refine Both.bind _ (Both.left (putOpt_post _ _ _) fun a b ha hb => ok_inj (hb.symm.trans ha)) fun s2 s2' hs2 => ?_
  obtain ⟨hs2, rfl⟩ := hs2
  refine Both.bind _ (Both.left (fun _ h => (putc_inv h).1) fun a b ha hb => ok_inj (hb.symm.trans ha)) fun s3 s3' hs3 => ?_
  obtain ⟨hs3, rfl⟩ := hs3
  refine Both.pure ⟨rfl, ho2, fun k => hop ?_⟩
  dsimp only at k
  rw [hs3, hs2, hs1, hstr] at k
  rcases k with k | k | k
  · rcases mem_letters k (by decide) (by decide) with k | k
    · rcases hvl with j | j | j | j
      · rw [j.1] at k; cases k
      · rw [j.1] at k; cases k
      · rw [j] at k; cases k
      · rw [j] at k; cases k
    · exact .inr (.inl (by rw [k]; exact fun h => by cases h))
  · rcases mem_letters k (by decide) (by decide) with k | k
    · rcases hvl with j | j | j | j
      · exact .inl (by omega)
      · rw [j.1] at k; cases k
      · rw [j] at k; cases k
      · rw [j] at k; cases k
    · rcases hol with j | j <;> rw [j] at k <;> cases k
  · rcases mem_letters k.1 (by decide) (by decide) with k' | k'
    · rcases hvl with j | j | j | j
      · rw [j.1] at k'; cases k'
      · exact .inr (.inr ⟨by omega, k.2⟩)
      · rw [j] at k'; cases k'
      · rw [j] at k'; cases k'
    · rcases hol with j | j <;> rw [j] at k' <;> cases k'

theorem ambe2400Verdict_b (C : Call F) (bad e e2 : Int) (dd : Nat → Int) {c d p q : Parms F} (hc : ParamEq c d) (hg : bad = 0 → DecodedEq c d)
    (hp : DecodedEq p q) : Both (ambe2400Verdict C bad e e2 dd c p) (ambe2400Verdict C bad e e2 dd d q) fun v v' =>
      v'.letter = v.letter ∧ v'.buf = v.buf ∧ (bad = 0 ∨ bad = 2 → DecodedEq v.cur v'.cur) ∧
      ((v.letter = some 'E' ∧ bad = 2) ∨ (v.letter = some 'T' ∧ bad = 3) ∨ v.letter = some 'R' ∨ v.letter = none) := by
  unfold ambe2400Verdict
  refine Both.ite (fun k => ?_) fun k => Both.ite (fun k' => ?_) fun k' => Both.ite (fun k2 => ?_) fun _ => Both.ite (fun _ => ?_) fun _ => ?_
  · exact Both.bind DecodedEq (setAmbeErasureParms_b (paramEq_cnt hc) hp.toParamEq) fun a b hab =>
      Both.pure ⟨rfl, rfl, fun _ => hab, .inl ⟨rfl, k⟩⟩
  · exact Both.pure ⟨rfl, rfl, fun k => by omega, .inr (.inl ⟨rfl, k'⟩)⟩
  · unfold synthesizeTonefdstar
    refine Both.bind (fun (r r' : Arr 160 F × Parms F) => r'.1 = r.1) (Both.ite (fun _ => Both.pure rfl) fun _ a b ha hb => (renderTonef_b _ _ _ _ hc a b ha hb).1)
      fun r r' hr => Both.pure ⟨rfl, hr, fun k => by omega, .inr (.inr (.inr rfl))⟩
  · exact Both.bind DecodedEq (repeatLast_b hp) fun a b hab => Both.pure ⟨rfl, rfl, fun _ => hab, .inr (.inr (.inl rfl))⟩
  · exact Both.pure ⟨rfl, rfl, fun k => decodedEq_cnt (hg (by omega)), .inr (.inr (.inr rfl))⟩

theorem ambe2400Render_b (isa : Isa) (E E' : Env F) (C : Call F) (bad : Int) {s s' : St F} (he : ParamEq s.enh s'.enh) (ht : ThreadEq s.tls s'.tls)
    (hg : bad = 0 ∨ bad = 2 → DecodedEq s.cur s'.cur) : Both (ambe2400Render E C bad s) (ambe2400RenderSimd isa E' C bad s') fun o o' =>
      o'.2.1 = o.2.1 ∧ StateEq o.2.2 o'.2.2 ∧ (o.2.1 = none ∨ o.2.1 = some 'M') ∧ (bad ≠ 0 ∨ o.2.1 ≠ none → o'.1 = o.1) := by
  unfold ambe2400Render ambe2400RenderSimd
  by_cases k : bad = 0
  · have er : s'.cur.repeat_ = s.cur.repeat_ := by rw [(hg (.inl k)).rest]
    rw [if_pos k, if_pos k, er]
    refine Both.ite (fun _ => ?_) fun _ => ?_
    · exact Both.bind _ (speak_b isa E E' C (hg (.inl k)) he ht) fun o o' ho => Both.pure ⟨rfl, ho.1, .inl rfl, fun j => by
        rcases j with j | j
        · exact absurd k j
        · exact absurd rfl j⟩
    · exact Both.bind _ (noiseAndReset_b C ht) fun o o' ho => Both.pure ⟨rfl, ho.2, .inr rfl, fun _ => ho.1⟩
  · rw [if_neg k, if_neg k]
    refine Both.ite (fun k2 => ?_) fun _ => ?_
    · have hc := hg (.inr k2)
      exact Both.bind _ (comfortNoisef_b C.buf ht) fun r r' hr => Both.pure ⟨rfl, ⟨hc.toParamEq, hc, hc.toParamEq, hr.2⟩, .inl rfl, fun _ => hr.1⟩
    · exact Both.bind _ (noiseAndReset_b C ht) fun o o' ho => Both.pure ⟨rfl, ho.2, .inl rfl, fun _ => ho.1⟩

theorem processAmbe2400_b (isa : Isa) (E E' : Env F) (hl : E'.lax = E.lax) (C : Call F) (e0 e : Int) (d : Nat → Int) {s s' : St F}
    (h : StateEq s s') : Both (processAmbe2400 E C e0 e d s) (processAmbe2400Simd isa E' C e0 e d s')
      (BOut fun o => 'M' ∈ o.str ∨ 'E' ∈ o.str ∨ 'T' ∈ o.str) := by
  unfold processAmbe2400 processAmbe2400Simd
  rw [hl]
  refine Both.bind _ (ambePrepare_b e h) fun s s' h => ?_
  refine Both.bind _ (Both.left (fun _ h => (putEq_inv h).1) fun a b ha hb => ok_inj (hb.symm.trans ha)) fun str str' hs => ?_
  obtain ⟨hstr, rfl⟩ := hs
  refine Both.bind _ (decodeAmbe2400_b E.lax d h.cur h.prev h.tls) fun r r' hr => ?_
  rw [hr.bad]
  refine Both.bind _ (ambe2400Verdict_b C r.bad e0 e d hr.cur hr.good hr.prev) fun v v' hv => ?_
  obtain ⟨hv2, hvb, hvg, hvl⟩ := hv
  rw [hv2, hvb]
  refine Both.bind _ (Both.left (putOpt_post _ _ _) fun a b ha hb => ok_inj (hb.symm.trans ha)) fun s1 s1' hs1 => ?_
  obtain ⟨hs1, rfl⟩ := hs1
  refine Both.bind _ (ambe2400Render_b isa E E' { C with buf := v.buf } r.bad (s := ⟨v.cur, v.prev, s.enh, r.tls⟩) (s' := ⟨v'.cur, v'.prev, s'.enh, r'.tls⟩)
    h.enh hr.tls hvg) fun o o' ho => ?_
  obtain ⟨ho1, ho2, hol, hop⟩ := ho
  rw [ho1]
  refine Both.bind _ (Both.left (putOpt_post _ _ _) fun a b ha hb => ok_inj (hb.symm.trans ha)) fun s2 s2' hs2 => ?_
  obtain ⟨hs2, rfl⟩ := hs2
  refine Both.bind _ (Both.left (fun _ h => (putc_inv h).1) fun a b ha hb => ok_inj (hb.symm.trans ha)) fun s3 s3' hs3 => ?_
  obtain ⟨hs3, rfl⟩ := hs3
  refine Both.pure ⟨rfl, ho2, fun k => hop ?_⟩
  dsimp only at k
  rw [hs3, hs2, hs1, hstr] at k
  have key : ∀ c : Char, c ≠ 'R' → (v.letter = some c ∨ o.2.1 = some c) → r.bad ≠ 0 ∨ o.2.1 ≠ none := by
    intro c hc hh
    rcases hh with hh | hh
    · rcases hvl with j | j | j | j
      · exact .inl (by omega)
      · exact .inl (by omega)
      · rw [j] at hh; cases hh; exact absurd rfl hc
      · rw [j] at hh; cases hh
    · exact .inr (by rw [hh]; exact fun h => by cases h)
  rcases k with k | k | k
  · exact key 'M' (by decide) (mem_letters k (by decide) (by decide))
  · exact key 'E' (by decide) (mem_letters k (by decide) (by decide))
  · exact key 'T' (by decide) (mem_letters k (by decide) (by decide))

theorem initMbeState_b {s s' : St F} (h : StateEq s s') : Both (initMbeState s) (initMbeState s') StateEq := by
  unfold initMbeState
  rw [initMbeParms_eq s.prev, initMbeParms_eq s'.prev]
  exact Both.same fun p => Both.pure ⟨.refl _, .refl _, .refl _, h.tls⟩

end Verif.Model
