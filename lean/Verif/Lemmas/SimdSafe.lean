import Verif.Lemmas.Simd
import Verif.Lemmas.Safe

/-!
# The vector code performs no undefined operation
-/

namespace Verif.Model
open Verif Verif.Gen Verif.Spec Arith
set_option linter.unusedSectionVars false

variable {F : Type} [Arith F]

theorem rd4_fine {α : Type} {n : Nat} {a : Arr n α} {i : Int} (h0 : 0 ≤ i) (h : i + 3 < n) : Fine (Arr.rd4 a i) := by
  unfold Arr.rd4
  refine Ok.bind (rd_fine (by omega) (by omega)) fun _ _ => Ok.bind (rd_fine (by omega) (by omega)) fun _ _ => ?_
  exact Ok.bind (rd_fine (by omega) (by omega)) fun _ _ => Ok.bind (rd_fine (by omega) (by omega)) fun _ _ => Ok.ok trivial

theorem wr4_fine {α : Type} {n : Nat} {a : Arr n α} {i : Int} {v : V4 α} (h0 : 0 ≤ i) (h : i + 3 < n) : Fine (Arr.wr4 a i v) := by
  unfold Arr.wr4
  refine Ok.bind (wr_fine (by omega) (by omega)) fun _ _ => Ok.bind (wr_fine (by omega) (by omega)) fun _ _ => ?_
  exact Ok.bind (wr_fine (by omega) (by omega)) fun _ _ => wr_fine (by omega) (by omega)

theorem locRd4_fine {α : Type} {n : Nat} {a : Loc n α} {i : Nat} (h : i + 3 < n)
    (hs : ∀ j (hj : j < n), i ≤ j → j ≤ i + 3 → (a ⟨j, hj⟩).isSome) : Fine (Loc.rd4 a (i : Int)) := by
  unfold Loc.rd4
  have e1 : (i : Int) + 1 = ((i + 1 : Nat) : Int) := by push_cast; ring
  have e2 : (i : Int) + 2 = ((i + 2 : Nat) : Int) := by push_cast; ring
  have e3 : (i : Int) + 3 = ((i + 3 : Nat) : Int) := by push_cast; ring
  rw [e1, e2, e3]
  refine Ok.bind (locRd_fine (by omega) (hs _ _ (by omega) (by omega))) fun _ _ =>
    Ok.bind (locRd_fine (by omega) (hs _ _ (by omega) (by omega))) fun _ _ => ?_
  exact Ok.bind (locRd_fine (by omega) (hs _ _ (by omega) (by omega))) fun _ _ =>
    Ok.bind (locRd_fine (by omega) (hs _ _ (by omega) (by omega))) fun _ _ => Ok.ok trivial

theorem spectralAmpEnhanceSimd_fine (isa : Isa) (a : Nat) (cur : Parms F) (t : Tls F) (hL : cur.L ≤ 56) :
    Fine (spectralAmpEnhanceSimd isa a cur t) := by
  unfold spectralAmpEnhanceSimd
  refine Ok.bind (cosTab_ok _ hL) fun ct hct => ?_
  refine Ok.bind (P := fun _ => True) ?_ fun r _ => ?_
  · unfold rm01Simd
    refine Ok.ite (fun h4 => ?_) fun _ => ?_
    · refine Ok.bind (P := fun _ => True) (loop_fine fun k hk s => ?_) fun s _ => loopFT_fine fun l h1 h2 s => ?_
      · refine Ok.bind (rd4_fine (by omega) (by omega)) fun _ _ => ?_
        rw [show (1 + 4 * (k : Int)) = ((1 + 4 * k : Nat) : Int) by push_cast; ring]
        exact Ok.bind (locRd4_fine (by omega) fun j hj h5 h6 => hct ⟨j, hj⟩ (show 1 ≤ j by omega) (show (j : Int) ≤ _ by omega))
          fun _ _ => Ok.ok trivial
      · exact Ok.bind (rd_fine (by omega) (by omega)) fun _ _ =>
          Ok.bind (locRd_fine (by omega) (hct ⟨l, by omega⟩ (show 1 ≤ l by omega) (show (l : Int) ≤ _ by omega))) fun _ _ => Ok.ok trivial
    · unfold rm01
      refine loopTo_fine (le_refl _) fun l h1 h2 s => ?_
      exact Ok.bind (rd_fine (by omega) (by omega)) fun _ _ =>
        Ok.bind (locRd_fine (by omega) (hct ⟨l, by omega⟩ h1 h2)) fun _ _ => Ok.ok trivial
  refine Ok.bind (P := fun _ => True) ?_ fun Ml _ => ?_
  · unfold enhWeights
    refine loopTo_fine (le_refl _) fun l h1 h2 s => ?_
    refine Ok.bind (rd_fine (by omega) (by omega)) fun _ _ => Ok.ite (fun _ => Ok.ok trivial) fun _ => ?_
    exact Ok.bind (locRd_fine (by omega) (hct ⟨l, by omega⟩ h1 h2)) fun _ _ => wr_fine (by omega) (by omega)
  refine Ok.bind (P := fun _ => True) ?_ fun sum _ => ?_
  · unfold enhSumSimd
    refine Ok.ite (fun h4 => ?_) fun _ => ?_
    · refine Ok.bind (P := fun _ => True) (loop_fine fun k hk s => ?_) fun s _ => loopFT_fine fun l h1 h2 s => ?_
      · exact Ok.bind (rd4_fine (by omega) (by omega)) fun _ _ => Ok.ok trivial
      · exact Ok.bind (rd_fine (by omega) (by omega)) fun _ _ => Ok.ok trivial
    · unfold enhSum
      refine loopTo_fine (le_refl _) fun l h1 h2 s => ?_
      exact Ok.bind (rd_fine (by omega) (by omega)) fun _ _ => Ok.ok trivial
  refine Ok.bind (P := fun _ => True) ?_ fun Ml _ => Ok.ok trivial
  unfold enhScaleSimd
  refine Ok.ite (fun h4 => ?_) fun _ => ?_
  · refine Ok.bind (P := fun _ => True) (loop_fine fun k hk s => ?_) fun s _ => loopFT_fine fun l h1 h2 s => ?_
    · exact Ok.bind (rd4_fine (by omega) (by omega)) fun _ _ => wr4_fine (by omega) (by omega)
    · exact Ok.bind (rd_fine (by omega) (by omega)) fun _ _ => wr_fine (by omega) (by omega)
  · unfold enhScale
    refine loopTo_fine (le_refl _) fun l h1 h2 s => ?_
    exact Ok.bind (rd_fine (by omega) (by omega)) fun _ _ => wr_fine (by omega) (by omega)

theorem magSumSimd_fine (isa : Isa) (fft : Arr 256 F) {a b : Int} (ha : 0 ≤ a) (hb : b ≤ 128) : Fine (magSumSimd isa fft a b) := by
  unfold magSumSimd
  refine Ok.ite (fun _ => Ok.ok trivial) fun hlt => ?_
  refine Ok.bind (P := fun q : F × Int => 0 ≤ q.2 ∧ (a ≠ 0 → q.2 = a) ∧ (a = 0 → q.2 = 1)) ?_ fun q hq => ?_
  · refine Ok.ite (fun h => ?_) fun h => Ok.ok ⟨ha, fun _ => rfl, fun h' => absurd h' h⟩
    exact Ok.bind (rd_fine (by omega) (by omega)) fun _ _ => Ok.ok ⟨Int.one_nonneg, fun h' => absurd h h', fun _ => rfl⟩
  obtain ⟨sum, st⟩ := q
  dsimp only at hq ⊢
  rw [show decide (b > 128) = false from decide_eq_false (by omega)]
  simp only [Bool.false_eq_true, if_false]
  refine Ok.bind (P := fun _ => True) (Ok.ite (fun h4 => ?_) fun _ => Ok.ok trivial) fun s _ =>
    Ok.bind (P := fun _ => True) ?_ fun _ _ => Ok.ok trivial
  · refine Ok.bind (P := fun _ => True) (loop_fine fun k hk s => ?_) fun _ _ => Ok.ok trivial
    exact Ok.bind (rd4_fine (by omega) (by omega)) fun _ _ => Ok.bind (rd4_fine (by omega) (by omega)) fun _ _ => Ok.ok trivial
  · refine loop_fine fun i hi s => ?_
    exact Ok.bind (rd_fine (by omega) (by omega)) fun _ _ => Ok.bind (rd_fine (by omega) (by omega)) fun _ _ => Ok.ok trivial

theorem binScalorsSimd_fine (isa : Isa) {L : Int} (hL : L ≤ 56) (Vl : Arr 57 Int) (Ml : Arr 57 F) (fft : Arr 256 F)
    (e : Loc 57 Int × Loc 57 Int) (h : EdgeArr L e) : Fine (binScalorsSimd isa L Vl Ml fft e.1 e.2) := by
  unfold binScalorsSimd
  refine loopTo_fine (le_refl _) fun l h1 h2 S => ?_
  obtain ⟨a, b, e1, e2, ha, hb⟩ := h ⟨l, by omega⟩ h1 h2
  refine Ok.bind (rd_fine (by omega) (by omega)) fun _ _ => Ok.ite (fun _ => ?_) fun _ => Ok.ok trivial
  rw [Loc.rd_nat (by omega) e1, ok_bind, Loc.rd_nat (by omega) e2, ok_bind]
  refine Ok.bind (magSumSimd_fine isa _ ha hb) fun num _ => Ok.ite (fun hc => ?_) fun _ => Ok.ok trivial
  refine Ok.bind (rd_fine (by omega) (by omega)) fun _ _ => ?_
  exact loop_fine fun i hi s => wr_fine (by omega) (by omega)

theorem wolaAdd_fine (P : Plan F) {n : Nat} (hn : n < 160) (ps cs : F) (out : Arr 160 F) : Fine (wolaAdd P n ps cs out) := by
  unfold wolaAdd
  refine Ok.bind (rd_fine (by omega) (by omega)) fun d _ => Ok.ite (fun _ => ?_) fun _ => Ok.ok trivial
  refine Ok.bind (rd_fine (by omega) (by omega)) fun _ _ => Ok.bind (rd_fine (by omega) (by omega)) fun _ _ => ?_
  exact Ok.bind (rd_fine (by omega) (by omega)) fun _ _ => wr_fine (by omega) (by omega)

theorem thePlan_prevIdx {n : Nat} (h : n < 160) : (thePlan : Plan F).prevIdx.rd (n : Int) = .ok ((n : Int) + 128) := by
  rw [Arr.rd_nat h]; rfl

theorem thePlan_currIdx {n : Nat} (h : n < 160) : (thePlan : Plan F).currIdx.rd (n : Int) = .ok ((n : Int) + 128 - 160) := by
  rw [Arr.rd_nat h]; rfl

theorem wolaSimd_fine (p c : Arr 256 F) (out : Arr 160 F) : Fine (wolaSimd thePlan p c out) := by
  unfold wolaSimd
  refine Ok.bind (P := fun _ => True) (loop_fine fun n hn s => ?_) fun o _ =>
    Ok.bind (P := fun _ => True) (loop_fine fun k hk s => ?_) fun o _ => loop_fine fun n hn s => ?_
  · rw [thePlan_prevIdx (by omega), ok_bind]
    exact Ok.bind (rd_fine (by omega) (by omega)) fun _ _ => wolaAdd_fine _ (by omega) _ _ _
  · dsimp only
    rw [show (32 + 4 * (k : Int)) = ((32 + 4 * k : Nat) : Int) by push_cast; ring]
    iterate 3 refine Ok.bind (rd4_fine (by omega) (by omega)) fun _ _ => ?_
    rw [rd4_nat (x := (thePlan : Plan F).prevIdx) (by omega), ok_bind, rd4_nat (x := (thePlan : Plan F).currIdx) (by omega), ok_bind]
    simp only [show ∀ n : Fin 160, (thePlan : Plan F).prevIdx n = (n.val : Int) + 128 from fun _ => rfl,
      show ∀ n : Fin 160, (thePlan : Plan F).currIdx n = (n.val : Int) + 128 - 160 from fun _ => rfl]
    iterate 8 refine Ok.bind (rd_fine (by omega) (by omega)) fun _ _ => ?_
    exact Ok.bind (rd4_fine (by omega) (by omega)) fun _ _ => wr4_fine (by omega) (by omega)
  · rw [thePlan_currIdx (by omega), ok_bind]
    exact Ok.bind (rd_fine (by omega) (by omega)) fun _ _ => wolaAdd_fine _ (by omega) _ _ _

theorem unvoicedSimd_fine {U : UB → Prop} (isa : Isa) (E : Env F) (noise : Arr 256 F) (cur prev : Parms F) (out : Arr 160 F)
    (hL : cur.L ≤ 56) (hw : EdgeConv cur.w0 cur.L ∨ U .floatToInt) :
    OkU U (unvoicedSimd isa E thePlan noise cur prev out) fun _ => True := by
  unfold unvoicedSimd
  refine OkU.bind (Ok.toU (windowNoise_fine _)) fun _ _ => OkU.bind (bandEdges_ok hL hw) fun e he => ?_
  refine OkU.bind (Ok.toU (binScalorsSimd_fine isa hL _ _ _ e he)) fun S _ => OkU.bind (Ok.toU (scaleBins_fine _ _)) fun fft _ => ?_
  rw [normalizeSimd_eq]
  refine OkU.bind (Ok.toU (normalize_fine _)) fun Uo _ => OkU.bind (Ok.toU (wolaSimd_fine _ _ _)) fun out _ => OkU.ok trivial

theorem windowedOscSimd_fine {off : Nat} (h : off ≤ 161) (amp sd cd s0 c0 : F) (out : Arr 160 F) :
    Fine (windowedOscSimd off amp sd cd s0 c0 out) := by
  unfold windowedOscSimd
  refine Ok.bind (P := fun _ => True) ?_ fun _ _ => Ok.ok trivial
  refine loop_fine fun i hi s => ?_
  have : Ws.length = 321 := by decide +kernel
  unfold voicedBlock4
  dsimp only
  iterate 4 refine Ok.bind (tab_fine (by omega)) fun _ _ => ?_
  exact Ok.bind (rd4_fine (by omega) (by omega)) fun _ _ => Ok.bind (wr4_fine (by omega) (by omega)) fun _ _ => Ok.ok trivial

theorem voicedBandSimd_fine (a b : F) (cur prev : Parms F) {l : Nat} (hl : l ≤ 56) (out : Arr 160 F) :
    Fine (voicedBandSimd a b cur prev l out) := by
  unfold voicedBandSimd
  refine Ok.bind (rd_fine (by omega) (by omega)) fun _ _ => Ok.bind (rd_fine (by omega) (by omega)) fun _ _ => ?_
  refine Ok.ite (fun _ => Ok.ite (fun _ => ?_) fun _ => ?_) fun _ => Ok.ok trivial
  · unfold interpBand
    refine Ok.bind (rd_fine (by omega) (by omega)) fun _ _ => Ok.bind (rd_fine (by omega) (by omega)) fun _ _ => ?_
    refine loop_fine fun i hi s => ?_
    refine Ok.bind (rd_fine (by omega) (by omega)) fun _ _ => Ok.bind (rd_fine (by omega) (by omega)) fun _ _ => ?_
    exact Ok.bind (rd_fine (by omega) (by omega)) fun _ _ => wr_fine (by omega) (by omega)
  · refine Ok.bind (P := fun _ => True) (Ok.ite (fun _ => ?_) fun _ => Ok.ok trivial) fun _ _ => ?_
    · refine Ok.bind (rd_fine (by omega) (by omega)) fun _ _ => Ok.bind (rd_fine (by omega) (by omega)) fun _ _ => ?_
      exact windowedOscSimd_fine (by decide) _ _ _ _ _ _
    · refine Ok.ite (fun _ => ?_) fun _ => Ok.ok trivial
      refine Ok.bind (rd_fine (by omega) (by omega)) fun _ _ => Ok.bind (rd_fine (by omega) (by omega)) fun _ _ => ?_
      exact windowedOscSimd_fine (by decide) _ _ _ _ _ _

end Verif.Model
