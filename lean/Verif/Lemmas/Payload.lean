import Verif.Lemmas.Exec
import Verif.Model.Process

/-!
# The decoders read nothing but the payload
-/

namespace Verif.Model
open Verif Verif.Gen Arith
variable {F : Type} [Arith F]
set_option linter.unusedSectionVars false

theorem rd_congr {α : Type} {n : Nat} {d d' : Nat → α} (h : ∀ k, k < n → d k = d' k) (i : Nat) : rd n d i = rd n d' i := by
  unfold rd
  split
  · rename_i hi; rw [h i hi]
  · rfl

theorem bitsField_congr {n : Nat} {d d' : Nat → Int} (h : ∀ k, k < n → d k = d' k) (is : List Nat) :
    bitsField n d is = bitsField n d' is := by
  unfold bitsField
  rw [show dig n d = dig n d' from funext fun i => by unfold dig; rw [rd_congr h]]

theorem orField_congr' {d d' : Nat → Int} {is : List Nat} (h : ∀ k ∈ is, d k = d' k) : orField d is = orField d' is := by
  unfold orField
  generalize (0 : Nat) = a
  induction is generalizing a with
  | nil => rfl
  | cons i is ih =>
    rw [List.foldlM_cons, List.foldlM_cons]
    have e : rd 49 d i = rd 49 d' i := by unfold rd; rw [h i (.head _)]
    rw [e]
    exact congrArg _ (funext fun a => ih (fun k hk => h k (.tail _ hk)) a)

theorem orField_congr {d d' : Nat → Int} (h : ∀ k, k < 49 → d k = d' k) (is : List Nat) : orField d is = orField d' is := by
  unfold orField
  refine congrArg (fun f => List.foldlM f 0 is) (funext fun a => funext fun i => ?_)
  rw [rd_congr h]

theorem decodeImbe4400_congr {d d' : Nat → Int} (h : ∀ k, k < 88 → d k = d' k) (lax : Bool) (cur prev : Parms F)
    (t : Tls F) : decodeImbe4400 lax d cur prev t = decodeImbe4400 lax d' cur prev t := by
  unfold decodeImbe4400 imbeDecodeBody imbeReadBits
  simp only [bitsField_congr h, rd_congr h]

theorem decodeAmbe2450_congr {d d' : Nat → Int} (h : ∀ k, k < 49 → d k = d' k) (lax : Bool) (e : Int)
    (cur prev : Parms F) (t : Tls F) : decodeAmbe2450 lax d e cur prev t = decodeAmbe2450 lax d' e cur prev t := by
  unfold decodeAmbe2450 toneVerified ambe2450Voice fields2450
  simp only [orField_congr h]

theorem decodeAmbe2400_congr {d d' : Nat → Int} (h : ∀ k, k < 49 → d k = d' k) (lax : Bool)
    (cur prev : Parms F) (t : Tls F) : decodeAmbe2400 lax d cur prev t = decodeAmbe2400 lax d' cur prev t := by
  unfold decodeAmbe2400 toneIndex2400 ambe2400Voice fields2400
  simp only [orField_congr h]

theorem processImbe4400_congr {d d' : Nat → Int} (h : ∀ k, k < 88 → d k = d' k) (E : Env F) (C : Call F)
    (c0 : Option Int) (errs2 : Int) (s : St F) :
    processImbe4400 E C c0 errs2 d s = processImbe4400 E C c0 errs2 d' s := by
  unfold processImbe4400
  simp only [decodeImbe4400_congr h]

theorem processAmbe2450_congr {d d' : Nat → Int} (h : ∀ k, k < 49 → d k = d' k) (E : Env F) (C : Call F)
    (c0 : Option Int) (errs2 : Int) (s : St F) :
    processAmbe2450 E C c0 errs2 d s = processAmbe2450 E C c0 errs2 d' s := by
  unfold processAmbe2450
  refine congrArg _ (funext fun s1 => congrArg _ (funext fun str => ?_))
  rw [decodeAmbe2450_congr h]
  refine congrArg _ (funext fun r => congrArg _ (funext fun v => congrArg _ (funext fun str => ?_)))
  have e : ∀ s : St F, ambe2450Render E C r.bad d s = ambe2450Render E C r.bad d' s := by
    intro s
    unfold ambe2450Render validToneId synthesizeTonef
    simp only [orField_congr h]
  rw [e]

theorem processAmbe2400_congr {d d' : Nat → Int} (h : ∀ k, k < 49 → d k = d' k) (E : Env F) (C : Call F)
    (errs errs2 : Int) (s : St F) :
    processAmbe2400 E C errs errs2 d s = processAmbe2400 E C errs errs2 d' s := by
  unfold processAmbe2400
  refine congrArg _ (funext fun s1 => congrArg _ (funext fun str => ?_))
  rw [decodeAmbe2400_congr h]
  refine congrArg _ (funext fun r => ?_)
  have e : ambe2400Verdict C r.bad errs errs2 d r.cur r.prev = ambe2400Verdict C r.bad errs errs2 d' r.cur r.prev := rfl
  rw [e]

/-! ## Bits that are never read -/

theorem decodeAmbe2400_bit24 {d d' : Nat → Int} (h : ∀ k, k < 49 → k ≠ 24 → d k = d' k) (lax : Bool)
    (cur prev : Parms F) (t : Tls F) : decodeAmbe2400 lax d cur prev t = decodeAmbe2400 lax d' cur prev t := by
  unfold decodeAmbe2400 toneIndex2400 ambe2400Voice fields2400
  have e : ∀ is : List Nat, (∀ k ∈ is, k < 49 ∧ k ≠ 24) → orField d is = orField d' is :=
    fun is hs => orField_congr' fun k hk => h k (hs k hk).1 (hs k hk).2
  simp only [e [6, 7, 8] (by decide), e [9, 42, 43, 10, 11] (by decide), e [6, 7, 8, 9, 42, 43] (by decide),
    e [10, 11, 12, 13, 14, 15, 16, 44, 45] (by decide), e [17, 18, 19, 20, 21, 46, 47] (by decide),
    e [22, 23, 25, 26] (by decide), e [27, 28, 29, 30] (by decide), e [31, 32, 33, 34] (by decide),
    e [35, 36, 37] (by decide), e [38, 39, 40, 41] (by decide), e [0, 1, 2, 3, 4, 5, 48] (by decide)]

theorem processAmbe2400_bit24 {d d' : Nat → Int} (h : ∀ k, k < 49 → k ≠ 24 → d k = d' k) (E : Env F) (C : Call F)
    (errs errs2 : Int) (s : St F) :
    processAmbe2400 E C errs errs2 d s = processAmbe2400 E C errs errs2 d' s := by
  unfold processAmbe2400
  refine congrArg _ (funext fun s1 => congrArg _ (funext fun str => ?_))
  rw [decodeAmbe2400_bit24 h]
  refine congrArg _ (funext fun r => ?_)
  have e : ambe2400Verdict C r.bad errs errs2 d r.cur r.prev = ambe2400Verdict C r.bad errs errs2 d' r.cur r.prev := rfl
  rw [e]

theorem bitsField_congr' {d d' : Nat → Int} {n : Nat} {is : List Nat} (h : ∀ k ∈ is, d k = d' k) :
    bitsField n d is = bitsField n d' is := by
  have e : is.mapM (dig n d) = is.mapM (dig n d') := by
    induction is with
    | nil => rfl
    | cons i is ih =>
      rw [List.mapM_cons, List.mapM_cons, ih fun k hk => h k (.tail _ hk)]
      have e : dig n d i = dig n d' i := by unfold dig rd; rw [h i (.head _)]
      rw [e]
  unfold bitsField
  rw [e]

theorem decodeImbe4400_bit87 {d d' : Nat → Int} (h : ∀ k, k < 87 → d k = d' k) (lax : Bool) (cur prev : Parms F)
    (t : Tls F) : decodeImbe4400 lax d cur prev t = decodeImbe4400 lax d' cur prev t := by
  have e1 : bitsField 88 d [0, 1, 2, 3, 4, 5, 85, 86] = bitsField 88 d' [0, 1, 2, 3, 4, 5, 85, 86] :=
    bitsField_congr' fun k hk => h k (by revert k; decide)
  have e2 : ∀ L9, imbeReadBits L9 d = imbeReadBits L9 d' := by
    intro L9
    unfold imbeReadBits
    refine congrArg _ (funext fun row => loop_congr fun k hk => funext fun bb => ?_)
    have : rd 88 d (k + 6) = rd 88 d' (k + 6) := by unfold rd; rw [h (k + 6) (by omega)]
    rw [this]
  unfold decodeImbe4400 imbeDecodeBody
  simp only [e1, e2]

theorem processImbe4400_bit87 {d d' : Nat → Int} (h : ∀ k, k < 87 → d k = d' k) (E : Env F) (C : Call F)
    (c0 : Option Int) (errs2 : Int) (s : St F) :
    processImbe4400 E C c0 errs2 d s = processImbe4400 E C c0 errs2 d' s := by
  unfold processImbe4400
  simp only [decodeImbe4400_bit87 h]

end Verif.Model
