import Verif.Lemmas.SynthFrame
import Verif.Lemmas.FPOps

/-!
# Synthesis performs no undefined operation
-/

namespace Verif.Model
open Verif Verif.Gen Arith
set_option linter.unusedSectionVars false

section
variable {F : Type} [Arith F]

/-- `x` ends without undefined behaviour. -/
abbrev Fine {α : Type} (x : Exec α) : Prop := Ok x fun _ => True

theorem Ok.fine {α} {x : Exec α} {P : α → Prop} (h : Ok x P) : Fine x := h.mono fun _ _ => trivial

theorem loop_fine {σ} {n : Nat} {f : Nat → σ → Exec σ} {s : σ} (h : ∀ i, i < n → ∀ s, Fine (f i s)) : Fine (loop n f s) :=
  loop_inv (fun _ _ => True) trivial fun i hi s _ => h i hi s

theorem loopFT_fine {σ} {lo hi : Nat} {f : Nat → σ → Exec σ} {s : σ} (h : ∀ i, lo ≤ i → i ≤ hi → ∀ s, Fine (f i s)) :
    Fine (loopFT lo hi f s) := loop_fine fun i hi' s => h (lo + i) (by omega) (by omega) s

theorem loopTo_fine {σ} {lo : Nat} {hi : Int} {f : Nat → σ → Exec σ} {s : σ} (hlo : 1 ≤ lo)
    (h : ∀ i : Nat, lo ≤ i → (i : Int) ≤ hi → ∀ s, Fine (f i s)) :
    Fine (loopTo lo hi f s) := loopFT_fine fun i h1 h2 s => h i h1 (by omega) s

theorem rd_fine {α} {n : Nat} {a : Arr n α} {i : Int} (h0 : 0 ≤ i) (h : i < n) : Fine (a.rd i) := by
  rw [Arr.rd_ok h0 h]; exact Ok.ok trivial

theorem wr_fine {α} {n : Nat} {a : Arr n α} {i : Int} {v : α} (h0 : 0 ≤ i) (h : i < n) : Fine (a.wr i v) := by
  rw [Arr.wr_ok h0 h]; exact Ok.ok trivial

theorem tab_fine {α} {t : List α} {i : Nat} (h : i < t.length) : Fine (tab t i) := by
  unfold tab; rw [List.getElem?_eq_getElem h]; exact Ok.ok trivial

/-- `x` returns a result satisfying `P`, or is undefined in one of the ways `U`. -/
def OkU {α : Type} (U : UB → Prop) (x : Exec α) (P : α → Prop) : Prop :=
  (∃ a, x = .ok a ∧ P a) ∨ ∃ e, x = .error e ∧ U e

theorem OkU.ok {α} {U : UB → Prop} {P : α → Prop} {a : α} (h : P a) : OkU U (.ok a : Exec α) P := .inl ⟨a, rfl, h⟩
theorem OkU.error {α} {U : UB → Prop} {P : α → Prop} {e : UB} (h : U e) : OkU U (.error e : Exec α) P := .inr ⟨e, rfl, h⟩

theorem Ok.toU {α} {U : UB → Prop} {x : Exec α} {P : α → Prop} (h : Ok x P) : OkU U x P := .inl h

theorem OkU.toOk {α} {x : Exec α} {P : α → Prop} (h : OkU (fun _ => False) x P) : Ok x P := by
  rcases h with h | ⟨e, _, h⟩
  · exact h
  · exact h.elim

theorem OkU.mono {α} {U : UB → Prop} {x : Exec α} {P Q : α → Prop} (h : OkU U x P) (hpq : ∀ a, P a → Q a) : OkU U x Q := by
  rcases h with ⟨a, h, h'⟩ | h
  · exact .inl ⟨a, h, hpq a h'⟩
  · exact .inr h

theorem OkU.post {α} {U : UB → Prop} {x : Exec α} {P Q : α → Prop} (h : OkU U x P) (h' : Post x Q) :
    OkU U x fun a => P a ∧ Q a := by
  rcases h with ⟨a, h, hp⟩ | h
  · exact .inl ⟨a, h, hp, h' a h⟩
  · exact .inr h

theorem OkU.bind {α β} {U : UB → Prop} {x : Exec α} {f : α → Exec β} {P : α → Prop} {Q : β → Prop} (h : OkU U x P)
    (hf : ∀ a, P a → OkU U (f a) Q) : OkU U (x >>= f) Q := by
  rcases h with ⟨a, rfl, h⟩ | ⟨e, rfl, h⟩
  · exact hf a h
  · exact OkU.error h

theorem OkU.ite {α} {U : UB → Prop} {c : Prop} [Decidable c] {x y : Exec α} {P : α → Prop} (h1 : c → OkU U x P)
    (h2 : ¬ c → OkU U y P) : OkU U (if c then x else y) P := by
  split
  · exact h1 ‹_›
  · exact h2 ‹_›

theorem OkU.loop {σ} {U : UB → Prop} {n : Nat} {f : Nat → σ → Exec σ} {s : σ} (Inv : Nat → σ → Prop)
    (h0 : Inv 0 s) (hs : ∀ i, i < n → ∀ s, Inv i s → OkU U (f i s) (Inv (i + 1))) : OkU U (loop n f s) (Inv n) := by
  induction n with
  | zero => exact OkU.ok h0
  | succ n ih =>
    rw [loop_succ]
    exact OkU.bind (ih fun i hi => hs i (Nat.lt_succ_of_lt hi)) fun a ha => hs n (Nat.lt_succ_self n) a ha

theorem OkU.loopFT {σ} {U : UB → Prop} {lo hi : Nat} {f : Nat → σ → Exec σ} {s : σ} (Inv : Nat → σ → Prop)
    (hle : lo ≤ hi + 1) (h0 : Inv lo s) (hs : ∀ i, lo ≤ i → i ≤ hi → ∀ s, Inv i s → OkU U (f i s) (Inv (i + 1))) :
    OkU U (loopFT lo hi f s) (Inv (hi + 1)) := by
  have := OkU.loop (U := U) (n := hi + 1 - lo) (f := fun k s => f (lo + k) s) (s := s) (fun k s => Inv (lo + k) s)
    (by simpa using h0) (fun i hi' s hI => hs (lo + i) (by omega) (by omega) s hI)
  have e : lo + (hi + 1 - lo) = hi + 1 := by omega
  rw [e] at this
  exact this

/-! ## Comfort noise, conversion -/

theorem comfortNoisef_fine (out : Arr 160 F) (t : Tls F) : Fine (comfortNoisef out t) := by
  unfold comfortNoisef
  refine loop_fine fun i hi s => ?_
  exact Ok.bind (wr_fine (by omega) (by omega)) fun _ _ => Ok.ok trivial

theorem clipBuffer_fine (out : Arr 160 F) : Fine (clipBuffer out) := by
  unfold clipBuffer
  refine loop_fine fun i hi s => ?_
  exact Ok.bind (rd_fine (by omega) (by omega)) fun _ _ => wr_fine (by omega) (by omega)

/-! ## Enhancement -/

theorem cosTab_ok (w0 : F) {L : Int} (hL : L ≤ 56) : Ok (cosTab w0 L) fun ct =>
    ∀ l : Fin 57, 1 ≤ l.val → (l.val : Int) ≤ L → (ct l).isSome := by
  unfold cosTab
  refine Ok.bind (P := fun s : Loc 57 F × F × F => ∀ l : Fin 57, 1 ≤ l.val → (l.val : Int) ≤ L → (s.1 l).isSome) ?_
    fun s hs => Ok.ok hs
  unfold loopTo
  by_cases h0 : L ≤ 0
  · have : L.toNat = 0 := by omega
    rw [this]
    exact Ok.ok fun l h1 h2 => by omega
  · refine (loopFT_inv (lo := 1) (hi := L.toNat) (fun k (s : Loc 57 F × F × F) =>
      ∀ l : Fin 57, 1 ≤ l.val → l.val < k → (s.1 l).isSome) (by omega) (by intro l _ _; omega) ?_).mono ?_
    · intro i h1 h2 s hs
      dsimp only
      rw [Loc.wr_nat (by omega), ok_bind]
      refine Ok.ok fun l a b => ?_
      by_cases e : l.val = i
      · dsimp only; rw [Arr.set_same e]; rfl
      · dsimp only; rw [Arr.set_ne e]; exact hs l a (by omega)
    · intro s hs l a b
      exact hs l a (by omega)

theorem locRd_fine {α} {n : Nat} {a : Loc n α} {i : Nat} (h : i < n) (hs : (a ⟨i, h⟩).isSome) : Fine (Loc.rd a (i : Int)) := by
  obtain ⟨v, hv⟩ := Option.isSome_iff_exists.mp hs
  rw [Loc.rd_nat h hv]
  exact Ok.ok trivial

theorem spectralAmpEnhance_fine (a : Nat) (cur : Parms F) (t : Tls F) (hL : cur.L ≤ 56) :
    Fine (spectralAmpEnhance a cur t) := by
  unfold spectralAmpEnhance
  refine Ok.bind (cosTab_ok _ hL) fun ct hct => ?_
  refine Ok.bind (P := fun _ => True) ?_ fun r _ => ?_
  · unfold rm01
    refine loopTo_fine (le_refl _) fun l h1 h2 s => ?_
    exact Ok.bind (rd_fine (by omega) (by omega)) fun _ _ =>
      Ok.bind (locRd_fine (by omega) (hct ⟨l, by omega⟩ h1 h2)) fun _ _ => Ok.ok trivial
  refine Ok.bind (P := fun _ => True) ?_ fun Ml _ => ?_
  · unfold enhWeights
    refine loopTo_fine (le_refl _) fun l h1 h2 s => ?_
    refine Ok.bind (rd_fine (by omega) (by omega)) fun _ _ => Ok.ite (fun _ => Ok.ok trivial) fun _ => ?_
    exact Ok.bind (locRd_fine (by omega) (hct ⟨l, by omega⟩ h1 h2)) fun _ _ => wr_fine (by omega) (by omega)
  refine Ok.bind (P := fun _ => True) ?_ fun sum _ => ?_
  · unfold enhSum
    refine loopTo_fine (le_refl _) fun l h1 h2 s => ?_
    exact Ok.bind (rd_fine (by omega) (by omega)) fun _ _ => Ok.ok trivial
  refine Ok.bind (P := fun _ => True) ?_ fun Ml _ => Ok.ok trivial
  unfold enhScale
  refine loopTo_fine (le_refl _) fun l h1 h2 s => ?_
  exact Ok.bind (rd_fine (by omega) (by omega)) fun _ _ => wr_fine (by omega) (by omega)

/-! ## Smoothing -/

/-- The threshold arithmetic of the smoothing does not overflow. -/
def TmOk (errorTotal prevT : Int) : Prop :=
  0 ≤ errorTotal ∧ errorTotal ≤ 7000000 ∧ prevT ≤ 2147477647

theorem i32_ok {n : Int} (h0 : -2147483648 ≤ n) (h1 : n < 2147483648) : i32 n = .ok n := by
  unfold i32; rw [if_pos ⟨h0, h1⟩]

theorem i32_u {U : UB → Prop} (n : Int) (h : (-2147483648 ≤ n ∧ n < 2147483648) ∨ U .signedOverflow) :
    OkU U (i32 n) fun k => k = n ∧ -2147483648 ≤ n ∧ n < 2147483648 := by
  unfold i32
  refine OkU.ite (fun h => OkU.ok ⟨rfl, h⟩) fun hn => ?_
  rcases h with h | h
  · exact absurd h hn
  · exact OkU.error h

theorem smoothTm_ok {U : UB → Prop} (rate : F) {e p : Int} (h : TmOk e p ∨ U .signedOverflow) :
    OkU U (smoothTm rate e p) fun tm => 0 ≤ e → tm ≤ max 20480 (max 20480 p + 6000) := by
  unfold smoothTm
  refine OkU.ite (fun _ => OkU.ok (by omega)) fun _ => ?_
  have h3 : 0 < (if p ≤ 0 then 20480 else p) := by split <;> omega
  have h4 : (if p ≤ 0 then 20480 else p) ≤ max 20480 p := by split <;> omega
  generalize (if p ≤ 0 then 20480 else p) = q at *
  refine OkU.bind (i32_u _ ?_) fun a ha => OkU.bind (i32_u _ ?_) fun b hb => (i32_u _ ?_).mono fun k hk => ?_
  · rcases h with ⟨h0, h1, h2⟩ | h
    · left; omega
    · exact .inr h
  · rcases h with ⟨h0, h1, h2⟩ | h
    · left; omega
    · exact .inr h
  · rcases h with ⟨h0, h1, h2⟩ | h
    · left; omega
    · exact .inr h
  · omega

theorem applySmoothing_ok {U : UB → Prop} (a : Nat) (cur prev : Parms F) (t : Tls F) (hL : cur.L ≤ 56)
    (ht : TmOk cur.errorCountTotal prev.amplitudeThreshold ∨ U .signedOverflow) :
    OkU U (applySmoothing a cur prev t) fun q => 0 ≤ cur.errorCountTotal →
      q.1.amplitudeThreshold ≤ max 20480 (max 20480 prev.amplitudeThreshold + 6000) := by
  unfold applySmoothing
  refine OkU.bind (P := fun _ => True) (Ok.toU ?_) fun r _ => ?_
  · unfold smoothRm0
    refine Ok.ite (fun _ => Ok.ok trivial) fun _ => Ok.bind (P := fun _ => True) ?_ fun _ _ => Ok.ok trivial
    refine loopTo_fine (le_refl _) fun l h1 h2 s => ?_
    exact Ok.bind (rd_fine (by omega) (by omega)) fun _ _ => Ok.ok trivial
  obtain ⟨rm0, t⟩ := r
  dsimp only
  refine OkU.bind (P := fun _ => True) (Ok.toU ?_) fun Vl _ => ?_
  · unfold smoothVoicing
    refine loopTo_fine (le_refl _) fun l h1 h2 s => ?_
    exact Ok.bind (rd_fine (by omega) (by omega)) fun _ _ => Ok.ite (fun _ => wr_fine (by omega) (by omega)) fun _ => Ok.ok trivial
  refine OkU.bind (P := fun _ => True) (Ok.toU ?_) fun am _ => ?_
  · unfold smoothAm
    refine loopTo_fine (le_refl _) fun l h1 h2 s => ?_
    exact Ok.bind (rd_fine (by omega) (by omega)) fun _ _ => Ok.ok trivial
  refine OkU.bind (smoothTm_ok _ ht) fun tm htm => ?_
  refine OkU.bind (P := fun _ => True) (Ok.toU ?_) fun Ml _ => OkU.ok htm
  unfold smoothScale
  refine Ok.ite (fun _ => ?_) fun _ => Ok.ok trivial
  refine loopTo_fine (le_refl _) fun l h1 h2 s => ?_
  exact Ok.bind (rd_fine (by omega) (by omega)) fun _ _ => wr_fine (by omega) (by omega)

/-! ## Noise -/

/-- The stored seed can be converted. -/
def SeedConv (seed : F) : Prop := lt seed (lit 0 1) = true ∨ ∃ n, toU32 seed = .ok n

theorem lcgStep_lt (s : Nat) : lcgStep s < 53125 := Nat.mod_lt _ (by decide)

/-- The seeds that a synthesised frame can leave. -/
def SeedNext (t : Tls F) (x : F) : Prop :=
  x = ofInt (t.uvSeedState : Int) ∨ x = lit 3147 1 ∨ ∃ n : Nat, n < 53125 ∧ x = ofInt (n : Int)

theorem toU32_u {U : UB → Prop} (x : F) (h : (∃ n, toU32 x = .ok n) ∨ U .floatToInt) : OkU U (toU32 x) fun _ => True := by
  rcases h with ⟨n, h⟩ | h
  · rw [h]; exact OkU.ok trivial
  · unfold toU32
    split
    · exact OkU.ite (fun _ => OkU.ok trivial) fun _ => OkU.error h
    · exact OkU.error h

theorem toI32_u {U : UB → Prop} (x : F) (h : U .floatToInt) : OkU U (toI32 x) fun _ => True := by
  unfold toI32
  split
  · exact OkU.ite (fun _ => OkU.ok trivial) fun _ => OkU.error h
  · exact OkU.error h

theorem noiseOverlap_ok {U : UB → Prop} (buf : Arr 256 F) {seed : F} (ov : Arr 96 F) (t : Tls F)
    (h : SeedConv seed ∨ U .floatToInt) : OkU U (noiseOverlap buf seed ov t) fun r => SeedNext t r.seed := by
  unfold noiseOverlap
  refine OkU.ite (fun _ => ?_) fun hn => ?_
  · exact OkU.ite (fun _ => OkU.ok (.inl rfl)) fun _ => OkU.ok (.inr (.inl rfl))
  · refine OkU.bind (P := fun _ => True) (Ok.toU ?_) fun buf _ => ?_
    · refine loop_fine fun i hi s => ?_
      exact Ok.bind (rd_fine (by omega) (by omega)) fun _ _ => wr_fine (by omega) (by omega)
    refine OkU.bind (toU32_u _ ?_) fun n _ => ?_
    · rcases h with (h | h) | h
      · exact absurd h hn
      · exact .inl h
      · exact .inr h
    refine OkU.bind (P := fun s : Arr 256 F × Nat => s.2 < 53125) (Ok.toU ?_) fun s hs => ?_
    · refine (loopFT_inv (fun _ (s : Arr 256 F × Nat) => s.2 < 53125) (by decide) (Nat.mod_lt _ (by decide)) ?_).mono fun _ h => h
      intro i h1 h2 s _
      exact Ok.bind (wr_fine (by omega) (by omega)) fun _ _ => Ok.ok (lcgStep_lt _)
    refine OkU.bind (P := fun _ => True) (Ok.toU ?_) fun ov _ => OkU.ok (.inr (.inr ⟨_, hs, rfl⟩))
    refine loop_fine fun i hi o => ?_
    exact Ok.bind (rd_fine (by omega) (by omega)) fun _ _ => wr_fine (by omega) (by omega)

/-! ## Unvoiced part -/

/-- The band edges of the fundamental `w0` can be converted to `int`. -/
def EdgeConv (w0 : F) (L : Int) : Prop := ∀ l : Nat, 1 ≤ l → (l : Int) ≤ L →
  Fine (bandLo (binMultiplier w0) l) ∧ Fine (bandHi (binMultiplier w0) l)

theorem bandLo_nonneg (mult : F) (l : Nat) : Post (bandLo mult l) fun a => 0 ≤ a := by
  unfold bandLo
  refine Post.bind Post.true fun a _ => Post.pure ?_
  split <;> omega

theorem bandHi_le (mult : F) (l : Nat) : Post (bandHi mult l) fun b => b ≤ 128 := by
  unfold bandHi
  refine Post.bind Post.true fun a _ => Post.pure ?_
  split <;> omega

theorem Fine.post {α} {x : Exec α} {P : α → Prop} (h : Fine x) (h' : Post x P) : Ok x P := by
  obtain ⟨a, ha, _⟩ := h
  exact ⟨a, ha, h' a ha⟩

/-- What is known of an array of edges up to band `L`. -/
def EdgeArr (L : Int) (e : Loc 57 Int × Loc 57 Int) : Prop := ∀ l : Fin 57, 1 ≤ l.val → (l.val : Int) ≤ L →
  ∃ a b : Int, e.1 l = some a ∧ e.2 l = some b ∧ 0 ≤ a ∧ b ≤ 128

theorem bandEdges_ok {U : UB → Prop} {w0 : F} {L : Int} (hL : L ≤ 56) (h : EdgeConv w0 L ∨ U .floatToInt) :
    OkU U (bandEdges (binMultiplier w0) L) (EdgeArr L) := by
  unfold bandEdges loopTo
  by_cases h0 : L ≤ 0
  · have : L.toNat = 0 := by omega
    rw [this]
    exact OkU.ok fun l h1 h2 => by omega
  · refine (OkU.loopFT (lo := 1) (hi := L.toNat) (fun k (s : Loc 57 Int × Loc 57 Int) => EdgeArr ((k : Int) - 1) s)
      (by omega) (by intro l _ _; omega) ?_).mono ?_
    · intro i h1 h2 s hs
      have f : OkU U (bandLo (binMultiplier w0) i) (fun _ => True) ∧ OkU U (bandHi (binMultiplier w0) i) (fun _ => True) := by
        rcases h with h | h
        · obtain ⟨f1, f2⟩ := h i h1 (by omega)
          exact ⟨Ok.toU f1, Ok.toU f2⟩
        · exact ⟨OkU.bind (toI32_u _ h) fun _ _ => OkU.ok trivial, OkU.bind (toI32_u _ h) fun _ _ => OkU.ok trivial⟩
      refine OkU.bind (f.1.post (bandLo_nonneg _ _)) fun a ha => OkU.bind (f.2.post (bandHi_le _ _)) fun b hb => ?_
      rw [Loc.wr_nat (by omega), ok_bind, Loc.wr_nat (by omega), ok_bind]
      refine OkU.ok fun l h3 h4 => ?_
      by_cases e : l.val = i
      · exact ⟨a, b, Arr.set_same e, Arr.set_same e, ha.2, hb.2⟩
      · obtain ⟨a', b', k1, k2, k3⟩ := hs l h3 (by push_cast at h4; omega)
        exact ⟨a', b', by dsimp only; rw [Arr.set_ne e]; exact k1, by dsimp only; rw [Arr.set_ne e]; exact k2, k3⟩
    · intro s hs l a b
      exact hs l a (by push_cast; omega)

theorem magSum_fine (fft : Arr 256 F) {a b : Int} (ha : 0 ≤ a) (hb : b ≤ 128) : Fine (magSum fft a b) := by
  unfold magSum
  refine Ok.ite (fun _ => Ok.ok trivial) fun hlt => ?_
  refine Ok.bind (P := fun q : F × Int => 0 ≤ q.2 ∧ (a ≠ 0 → q.2 = a) ∧ (a = 0 → q.2 = 1)) ?_ fun q hq => ?_
  · refine Ok.ite (fun h => ?_) fun h => Ok.ok ⟨ha, fun _ => rfl, fun h' => absurd h' h⟩
    exact Ok.bind (rd_fine (by omega) (by omega)) fun _ _ => Ok.ok ⟨Int.one_nonneg, fun h' => absurd h h', fun _ => rfl⟩
  obtain ⟨sum, st⟩ := q
  dsimp only at hq ⊢
  refine Ok.bind (P := fun _ => True) ?_ fun _ _ => Ok.ite (fun h => ?_) fun _ => Ok.ok trivial
  swap
  · simp at h; omega
  refine loop_fine fun i hi s => ?_
  exact Ok.bind (rd_fine (by omega) (by omega)) fun _ _ => Ok.bind (rd_fine (by omega) (by omega)) fun _ _ => Ok.ok trivial

theorem windowNoise_fine (noise : Arr 256 F) : Fine (windowNoise noise) := by
  unfold windowNoise
  refine loop_fine fun i hi s => ?_
  refine Ok.bind (P := fun _ => True) ?_ fun w _ =>
    Ok.bind (rd_fine (by omega) (by omega)) fun _ _ => wr_fine (by omega) (by omega)
  refine Ok.ite (fun h => ?_) fun _ => Ok.ok trivial
  refine Ok.bind (P := fun _ => True) ?_ fun _ _ => Ok.ok trivial
  unfold tabI
  rw [if_pos (by omega)]
  refine tab_fine ?_
  have : Ws_synthesis.length = 211 := by decide +kernel
  omega

theorem binScalors_fine {L : Int} (hL : L ≤ 56) (Vl : Arr 57 Int) (Ml : Arr 57 F) (fft : Arr 256 F)
    (e : Loc 57 Int × Loc 57 Int) (h : EdgeArr L e) : Fine (binScalors L Vl Ml fft e.1 e.2) := by
  unfold binScalors
  refine loopTo_fine (le_refl _) fun l h1 h2 S => ?_
  obtain ⟨a, b, e1, e2, ha, hb⟩ := h ⟨l, by omega⟩ h1 h2
  refine Ok.bind (rd_fine (by omega) (by omega)) fun _ _ => Ok.ite (fun _ => ?_) fun _ => Ok.ok trivial
  rw [Loc.rd_nat (by omega) e1, ok_bind, Loc.rd_nat (by omega) e2, ok_bind]
  refine Ok.bind (magSum_fine _ ha hb) fun num _ => Ok.ite (fun hc => ?_) fun _ => Ok.ok trivial
  refine Ok.bind (rd_fine (by omega) (by omega)) fun _ _ => ?_
  exact loop_fine fun i hi s => wr_fine (by omega) (by omega)

theorem scaleBins_fine (S : Arr 129 F) (fft : Arr 256 F) : Fine (scaleBins S fft) := by
  unfold scaleBins
  refine loopFT_fine fun i h1 h2 s => Ok.bind (rd_fine (by omega) (by omega)) fun _ _ => ?_
  unfold binScale
  refine Ok.ite (fun _ => ?_) fun _ => Ok.ite (fun _ => ?_) fun _ => ?_
  · exact Ok.bind (rd_fine (by omega) (by omega)) fun _ _ => wr_fine (by omega) (by omega)
  · exact Ok.bind (rd_fine (by omega) (by omega)) fun _ _ => wr_fine (by omega) (by omega)
  · refine Ok.bind (rd_fine (by omega) (by omega)) fun _ _ => Ok.bind (wr_fine (by omega) (by omega)) fun _ _ => ?_
    exact Ok.bind (rd_fine (by omega) (by omega)) fun _ _ => wr_fine (by omega) (by omega)

theorem normalize_fine (U : Arr 256 F) : Fine (normalize U) := by
  unfold normalize
  refine loop_fine fun i hi s => ?_
  exact Ok.bind (rd_fine (by omega) (by omega)) fun _ _ => wr_fine (by omega) (by omega)

theorem wolaFast_fine (P : Plan F) (p c : Arr 256 F) (out : Arr 160 F) : Fine (wolaFast P p c out) := by
  unfold wolaFast
  refine loop_fine fun i hi s => ?_
  refine Ok.bind (rd_fine (by omega) (by omega)) fun pi _ => ?_
  refine Ok.bind (P := fun _ => True) (Ok.ite (fun h => rd_fine h.1 h.2) fun _ => Ok.ok trivial) fun _ _ => ?_
  refine Ok.bind (rd_fine (by omega) (by omega)) fun ci _ => ?_
  refine Ok.bind (P := fun _ => True) (Ok.ite (fun h => rd_fine h.1 h.2) fun _ => Ok.ok trivial) fun _ _ => ?_
  refine Ok.bind (rd_fine (by omega) (by omega)) fun d _ => Ok.ite (fun _ => ?_) fun _ => Ok.ok trivial
  refine Ok.bind (rd_fine (by omega) (by omega)) fun _ _ => Ok.bind (rd_fine (by omega) (by omega)) fun _ _ => ?_
  exact Ok.bind (rd_fine (by omega) (by omega)) fun _ _ => wr_fine (by omega) (by omega)

theorem unvoiced_fine {U : UB → Prop} (E : Env F) (P : Plan F) (noise : Arr 256 F) (cur prev : Parms F) (out : Arr 160 F)
    (hL : cur.L ≤ 56) (hw : EdgeConv cur.w0 cur.L ∨ U .floatToInt) :
    OkU U (unvoiced E P noise cur prev out) fun _ => True := by
  unfold unvoiced
  refine OkU.bind (Ok.toU (windowNoise_fine _)) fun _ _ => OkU.bind (bandEdges_ok hL hw) fun e he => ?_
  refine OkU.bind (Ok.toU (binScalors_fine hL _ _ _ e he)) fun S _ => OkU.bind (Ok.toU (scaleBins_fine _ _)) fun fft _ => ?_
  refine OkU.bind (Ok.toU (normalize_fine _)) fun Uo _ => OkU.bind (Ok.toU (wolaFast_fine _ _ _ _)) fun out _ => OkU.ok trivial

theorem synthWindow_fine (n : Int) : Fine (synthWindow n : Exec F) := by
  unfold synthWindow
  refine Ok.ite (fun _ => Ok.ok trivial) fun h => Ok.bind (P := fun _ => True) ?_ fun _ _ => Ok.ok trivial
  unfold tabI
  rw [if_pos (by omega)]
  refine tab_fine ?_
  have : Ws_synthesis.length = 211 := by decide +kernel
  omega

theorem planFill_fine (p : Plan F) : Fine (planFill p) := by
  unfold planFill
  refine loop_fine fun i hi s => ?_
  refine Ok.bind (synthWindow_fine _) fun _ _ => Ok.bind (synthWindow_fine _) fun _ _ => ?_
  refine Ok.bind (wr_fine (by omega) (by omega)) fun _ _ => Ok.bind (wr_fine (by omega) (by omega)) fun _ _ => ?_
  refine Ok.bind (wr_fine (by omega) (by omega)) fun _ _ => Ok.bind (wr_fine (by omega) (by omega)) fun _ _ => ?_
  exact Ok.bind (wr_fine (by omega) (by omega)) fun _ _ => Ok.ok trivial

theorem getPlan_fine (E : Env F) (t : Tls F) : Fine (getPlan E t) := by
  unfold getPlan
  split
  · exact Ok.ok trivial
  · exact Ok.ite (fun _ => Ok.bind (planFill_fine _) fun _ _ => Ok.ok trivial) fun _ => Ok.ok trivial

/-! ## Voiced part -/

theorem countUv_fine {L : Int} (hL : L ≤ 56) (Vl : Arr 57 Int) : Fine (countUv L Vl) := by
  unfold countUv
  refine loop_fine fun i hi s => ?_
  exact Ok.bind (rd_fine (by omega) (by omega)) fun _ _ => Ok.ok trivial

theorem extendBands_fine {lo hi : Int} (h0 : -1 ≤ lo) (h1 : hi ≤ 56) (p : Parms F) : Fine (extendBands lo hi p) := by
  unfold extendBands
  refine loop_fine fun i hi s => ?_
  exact Ok.bind (wr_fine (by omega) (by omega)) fun _ _ => Ok.bind (wr_fine (by omega) (by omega)) fun _ _ => Ok.ok trivial

theorem phaseUpdate_fine (noise : Arr 256 F) (n : Int) (a b : F) (cur prev : Parms F) :
    Fine (phaseUpdate noise n a b cur prev) := by
  unfold phaseUpdate
  refine loopFT_fine fun l h1 h2 s => ?_
  refine Ok.bind (rd_fine (by omega) (by omega)) fun _ _ => Ok.bind (wr_fine (by omega) (by omega)) fun _ _ => ?_
  refine Ok.bind (wr_fine (by omega) (by omega)) fun _ _ => Ok.ite (fun _ => ?_) fun _ => ?_
  · exact Ok.bind (rd_fine (by omega) (by omega)) fun _ _ => Ok.bind (wr_fine (by omega) (by omega)) fun _ _ => Ok.ok trivial
  · refine Ok.bind (rd_fine (by omega) (by omega)) fun _ _ => ?_
    exact Ok.bind (rd_fine (by omega) (by omega)) fun _ _ => Ok.bind (wr_fine (by omega) (by omega)) fun _ _ => Ok.ok trivial

theorem windowedOsc_fine {off : Nat} (h : off ≤ 161) (amp sd cd s0 c0 : F) (out : Arr 160 F) :
    Fine (windowedOsc off amp sd cd s0 c0 out) := by
  unfold windowedOsc
  refine Ok.bind (P := fun _ => True) ?_ fun _ _ => Ok.ok trivial
  refine loop_fine fun i hi s => ?_
  have : Ws.length = 321 := by decide +kernel
  refine Ok.bind (tab_fine (by omega)) fun _ _ => Ok.bind (rd_fine (by omega) (by omega)) fun _ _ => ?_
  exact Ok.bind (wr_fine (by omega) (by omega)) fun _ _ => Ok.ok trivial

theorem voicedBand_fine (a b : F) (cur prev : Parms F) {l : Nat} (hl : l ≤ 56) (out : Arr 160 F) :
    Fine (voicedBand a b cur prev l out) := by
  unfold voicedBand
  refine Ok.bind (rd_fine (by omega) (by omega)) fun _ _ => Ok.bind (rd_fine (by omega) (by omega)) fun _ _ => ?_
  refine Ok.ite (fun _ => Ok.ite (fun _ => ?_) fun _ => ?_) fun _ => Ok.ok trivial
  · unfold interpBand
    refine Ok.bind (rd_fine (by omega) (by omega)) fun _ _ => Ok.bind (rd_fine (by omega) (by omega)) fun _ _ => ?_
    refine loop_fine fun i hi s => ?_
    refine Ok.bind (rd_fine (by omega) (by omega)) fun _ _ => Ok.bind (rd_fine (by omega) (by omega)) fun _ _ => ?_
    exact Ok.bind (rd_fine (by omega) (by omega)) fun _ _ => wr_fine (by omega) (by omega)
  · refine Ok.bind (P := fun _ => True) (Ok.ite (fun _ => ?_) fun _ => Ok.ok trivial) fun _ _ => ?_
    · refine Ok.bind (rd_fine (by omega) (by omega)) fun _ _ => Ok.bind (rd_fine (by omega) (by omega)) fun _ _ => ?_
      exact windowedOsc_fine (by decide) _ _ _ _ _ _
    · refine Ok.ite (fun _ => ?_) fun _ => Ok.ok trivial
      refine Ok.bind (rd_fine (by omega) (by omega)) fun _ _ => Ok.bind (rd_fine (by omega) (by omega)) fun _ _ => ?_
      exact windowedOsc_fine (by decide) _ _ _ _ _ _

theorem synthUnmuted_ok {U : UB → Prop} (E : Env F) (cur prev : Parms F) (t : Tls F) (hL : -1 ≤ cur.L ∧ cur.L ≤ 56)
    (hP : -1 ≤ prev.L ∧ prev.L ≤ 56) (hseed : SeedConv cur.noiseSeed ∨ U .floatToInt)
    (hw : EdgeConv cur.w0 cur.L ∨ U .floatToInt) :
    OkU U (synthUnmuted E cur prev t) fun r => SeedNext t r.cur.noiseSeed := by
  unfold synthUnmuted
  refine OkU.bind (noiseOverlap_ok _ _ _ hseed) fun nr hnr => ?_
  refine OkU.bind (Ok.toU (countUv_fine hL.2 _)) fun nuv _ => ?_
  refine OkU.bind (P := fun q : Parms F × Parms F × Int => q.1.w0 = cur.w0 ∧ q.1.L = cur.L ∧ q.1.noiseSeed = nr.seed ∧
    q.2.2 ≤ 56) (Ok.toU ?_) fun q hq => ?_
  · refine Ok.ite (fun _ => ?_) fun _ => ?_
    · exact Ok.bind (extendBands_fine hP.1 hL.2 _) fun p _ => Ok.ok ⟨rfl, rfl, rfl, hL.2⟩
    · refine Ok.bind ((extendBands_fine hL.1 hP.2 _).post (extendBands_frame _ _ _)) fun p hp => Ok.ok ⟨?_, ?_, ?_, hP.2⟩
      · dsimp only; rw [hp]
      · dsimp only; rw [hp]
      · dsimp only; rw [hp]
  obtain ⟨c, p, ml⟩ := q
  dsimp only at hq ⊢
  refine OkU.bind (Ok.toU ((phaseUpdate_fine _ _ _ _ _ _).post (phaseUpdate_frame _ _ _ _ _ _))) fun q hq' => ?_
  obtain ⟨c', p'⟩ := q
  dsimp only at hq' ⊢
  have h1 : c'.L = cur.L := by rw [hq'.1]; exact hq.2.1
  have h2 : c'.w0 = cur.w0 := by rw [hq'.1]; exact hq.1
  have h3 : SeedNext t c'.noiseSeed := by
    have : c'.noiseSeed = nr.seed := by rw [hq'.1]; exact hq.2.2.1
    rw [this]; exact hnr
  refine OkU.bind (P := fun _ => True) (Ok.toU ?_) fun out _ => ?_
  · exact loopTo_fine (le_refl _) fun l h1 h2 s => voicedBand_fine _ _ _ _ (by omega) _
  refine OkU.bind (Ok.toU (getPlan_fine E _)) fun g _ => ?_
  obtain ⟨pl, t'⟩ := g
  cases pl with
  | some P =>
    refine OkU.bind (unvoiced_fine E P _ _ _ _ (by omega) (by rw [h1, h2]; exact hw)) fun r _ =>
      OkU.bind (Ok.toU (clipBuffer_fine _)) fun _ _ => OkU.ok h3
  | none => exact OkU.bind (Ok.toU (clipBuffer_fine _)) fun _ _ => OkU.ok h3

/-- Conditions for a defined synthesis call, up to undefined operations of the kinds `U`. -/
structure SynthPre (U : UB → Prop) (cur prev : Parms F) : Prop where
  curL : -1 ≤ cur.L ∧ cur.L ≤ 56
  prevL : -1 ≤ prev.L ∧ prev.L ≤ 56
  seed : SeedConv cur.noiseSeed ∨ U .floatToInt
  edge : EdgeConv cur.w0 cur.L ∨ U .floatToInt
  tm : TmOk cur.errorCountTotal prev.amplitudeThreshold ∨ U .signedOverflow

theorem synthesizeSpeechf_ok {U : UB → Prop} (E : Env F) (a : Nat) (out : Arr 160 F) (cur prev : Parms F) (t : Tls F)
    (u : Int) (h : SynthPre U cur prev) : OkU U (synthesizeSpeechf E a out cur prev t u) fun r =>
      (r.cur.noiseSeed = cur.noiseSeed ∨ SeedNext t r.cur.noiseSeed) ∧
      (0 ≤ cur.errorCountTotal →
        r.cur.amplitudeThreshold ≤ max 20480 (max 20480 prev.amplitudeThreshold + 6000)) := by
  unfold synthesizeSpeechf
  refine OkU.bind ((applySmoothing_ok a cur prev t h.curL.2 h.tm).post (applySmoothing_frame _ _ _ _)) fun q hq => ?_
  obtain ⟨c, t'⟩ := q
  dsimp only at hq ⊢
  obtain ⟨hT, hq⟩ := hq
  refine OkU.ite (fun _ => OkU.bind (Ok.toU (comfortNoisef_fine _ _)) fun _ _ => OkU.ok ⟨.inl ?_, hT⟩) fun _ => ?_
  · dsimp only; rw [hq.1]
  refine ((synthUnmuted_ok E c prev t' ?_ h.prevL ?_ ?_).post (synthUnmuted_frame E c prev t')).mono fun r hr => ⟨.inr ?_, ?_⟩
  · rw [hq.1]; exact h.curL
  · rw [hq.1]; exact h.seed
  · rw [hq.1]; exact h.edge
  · have := hr.1
    unfold SeedNext at this ⊢
    have e : t'.uvSeedState = t.uvSeedState := by rw [hq.2]
    rw [e] at this
    exact this
  · rw [hr.2.cur_eq]; exact hT

end
end Verif.Model
