import Verif.Spec.Simd
import Verif.Lemmas.Cache
import Verif.Lemmas.SynthSafe
import Verif.Lemmas.Unvoiced
import Verif.Lemmas.UnvoicedNum
import Verif.Num.Real
import Mathlib.Tactic.Ring
import Mathlib.Tactic.LinearCombination

/-!
# Lemmas for the vector code paths
-/

set_option linter.unusedSectionVars false

namespace Verif
open Verif.Model

/-- A loop in two parts. -/
theorem loop_split {σ : Type} (a b : Nat) (f : Nat → σ → Exec σ) (s : σ) :
    loop (a + b) f s = loop a f s >>= fun s => loop b (fun k => f (a + k)) s := by
  induction b with
  | zero =>
    rw [Nat.add_zero]
    cases h : loop a f s <;> rfl
  | succ b ih =>
    rw [← Nat.add_assoc, loop_succ, ih]
    cases h : loop a f s with
    | error e => rfl
    | ok x => rw [ok_bind, ok_bind, loop_succ]

/-- Four steps of a loop. -/
def four {σ : Type} (f : Nat → σ → Exec σ) (i : Nat) (s : σ) : Exec σ := do
  let s ← f i s
  let s ← f (i + 1) s
  let s ← f (i + 2) s
  f (i + 3) s

/-- A loop in blocks of four. -/
theorem loop_four {σ : Type} (q : Nat) (f : Nat → σ → Exec σ) (s : σ) :
    loop (4 * q) f s = loop q (fun k s => four f (4 * k) s) s := by
  induction q with
  | zero => rfl
  | succ q ih =>
    rw [show 4 * (q + 1) = 4 * q + 1 + 1 + 1 + 1 by ring, loop_succ, loop_succ, loop_succ, loop_succ, ih, loop_succ]
    cases loop q (fun k s => four f (4 * k) s) s with
    | error e => rfl
    | ok x =>
      unfold four
      simp only [ok_bind]
      cases f (4 * q) x with
      | error e => rfl
      | ok y =>
        simp only [ok_bind]
        cases f (4 * q + 1) y with
        | error e => rfl
        | ok z => rfl

theorem loop_four' {σ : Type} {N q : Nat} (h : N = 4 * q) (f : Nat → σ → Exec σ) (s : σ) :
    loop N f s = loop q (fun k s => four f (4 * k) s) s := h ▸ loop_four q f s

theorem loop_split' {σ : Type} {N a b : Nat} (h : N = a + b) (f : Nat → σ → Exec σ) (s : σ) :
    loop N f s = loop a f s >>= fun s => loop b (fun k => f (a + k)) s := h ▸ loop_split a b f s

/-- The loops of the vector code: blocks of four and a remainder. -/
theorem loopFT_blocks {σ : Type} (N : Nat) (f : Nat → σ → Exec σ) (s : σ) :
    loopFT 1 N f s = loop (N / 4) (fun k s => four f (1 + 4 * k) s) s >>= fun s => loopFT (1 + 4 * (N / 4)) N f s := by
  unfold loopFT
  have e : N + 1 - 1 = 4 * (N / 4) + (N + 1 - (1 + 4 * (N / 4))) := by omega
  rw [e, loop_split, loop_four]
  have h1 : (fun k s => four (fun k s => f (1 + k) s) (4 * k) s) = fun k s => four f (1 + 4 * k) s := rfl
  rw [h1]
  have h2 : ∀ k, 1 + (4 * (N / 4) + k) = 1 + 4 * (N / 4) + k := fun k => by ring
  simp only [h2]

theorem rd4_nat {n : Nat} {α : Type} {x : Arr n α} {i : Nat} (h : i + 3 < n) :
    Model.Arr.rd4 x (i : Int) = .ok ⟨x ⟨i, by omega⟩, x ⟨i + 1, by omega⟩, x ⟨i + 2, by omega⟩, x ⟨i + 3, h⟩⟩ := by
  unfold Model.Arr.rd4
  have e1 : (i : Int) + 1 = ((i + 1 : Nat) : Int) := by push_cast; ring
  have e2 : (i : Int) + 2 = ((i + 2 : Nat) : Int) := by push_cast; ring
  have e3 : (i : Int) + 3 = ((i + 3 : Nat) : Int) := by push_cast; ring
  rw [e1, e2, e3, Arr.rd_nat (by omega), ok_bind, Arr.rd_nat (by omega), ok_bind, Arr.rd_nat (by omega), ok_bind,
    Arr.rd_nat (by omega), ok_bind]

theorem wr4_nat {n : Nat} {α : Type} {x : Arr n α} {i : Nat} {v : V4 α} (h : i + 3 < n) :
    Model.Arr.wr4 x (i : Int) v = .ok ((((x.set i v.a).set (i + 1) v.b).set (i + 2) v.c).set (i + 3) v.d) := by
  unfold Model.Arr.wr4
  have e1 : (i : Int) + 1 = ((i + 1 : Nat) : Int) := by push_cast; ring
  have e2 : (i : Int) + 2 = ((i + 2 : Nat) : Int) := by push_cast; ring
  have e3 : (i : Int) + 3 = ((i + 3 : Nat) : Int) := by push_cast; ring
  rw [e1, e2, e3, Arr.wr_nat (by omega), ok_bind, Arr.wr_nat (by omega), ok_bind, Arr.wr_nat (by omega), ok_bind,
    Arr.wr_nat (by omega)]

/-- Four stores that each depend on the old value of their own element. -/
theorem four_store {n : Nat} {α : Type} (g : Fin n → α → α) (f : Nat → Arr n α → Exec (Arr n α)) {i : Nat} (h : i + 3 < n)
    (hf : ∀ j (hj : j < n) (x : Arr n α), i ≤ j → j ≤ i + 3 → f j x = .ok (x.set j (g ⟨j, hj⟩ (x ⟨j, hj⟩)))) (x : Arr n α) :
    four f i x = Model.Arr.wr4 x (i : Int) ⟨g ⟨i, by omega⟩ (x ⟨i, by omega⟩), g ⟨i + 1, by omega⟩ (x ⟨i + 1, by omega⟩),
      g ⟨i + 2, by omega⟩ (x ⟨i + 2, by omega⟩), g ⟨i + 3, h⟩ (x ⟨i + 3, h⟩)⟩ := by
  unfold four
  rw [wr4_nat h, hf i (by omega) _ (by omega) (by omega), ok_bind, hf (i + 1) (by omega) _ (by omega) (by omega), ok_bind,
    hf (i + 2) (by omega) _ (by omega) (by omega), ok_bind, hf (i + 3) (by omega) _ (by omega) (by omega)]
  rw [Arr.set_ne (j := ⟨i + 1, _⟩) (by dsimp only; omega), Arr.set_ne (j := ⟨i + 2, _⟩) (by dsimp only; omega),
    Arr.set_ne (j := ⟨i + 2, _⟩) (by dsimp only; omega), Arr.set_ne (j := ⟨i + 3, _⟩) (by dsimp only; omega),
    Arr.set_ne (j := ⟨i + 3, _⟩) (by dsimp only; omega), Arr.set_ne (j := ⟨i + 3, _⟩) (by dsimp only; omega)]

end Verif

namespace Verif.Model
open Verif Verif.Gen Verif.Spec Verif.Num Arith

variable {F : Type} [Arith F]

/-! ## Stores: equal in every arithmetic -/

theorem normalizeSimd_eq (U : Arr 256 F) : normalizeSimd U = normalize U := by
  unfold normalize normalizeSimd
  rw [loop_four' (show 256 = 4 * 64 by rfl)]
  refine loop_congr fun k hk => ?_
  funext x
  have e : (4 * (k : Int)) = ((4 * k : Nat) : Int) := by push_cast; ring
  rw [e, rd4_nat (by omega), ok_bind,
    four_store (fun _ v => v *ᶠ (lit 1 1 /ᶠ ofInt 256)) _ (by omega) (fun j hj y _ _ => by
      rw [Arr.rd_nat hj, ok_bind, Arr.wr_nat hj])]
  rfl

theorem enhScaleSimd_eq (hc : ∀ a b : F, a *ᶠ b = b *ᶠ a) {L : Int} (hL : L ≤ 56) (g : F) (Ml : Arr 57 F) :
    enhScaleSimd L g Ml = enhScale L g Ml := by
  unfold enhScaleSimd
  by_cases h4 : L ≥ 4
  · rw [if_pos h4]
    unfold enhScale loopTo
    rw [loopFT_blocks]
    dsimp only
    congr 1
    refine loop_congr fun k hk => ?_
    funext x
    have e : (1 + 4 * (k : Int)) = ((1 + 4 * k : Nat) : Int) := by push_cast; ring
    rw [e, rd4_nat (by omega), ok_bind,
      four_store (fun _ v => g *ᶠ v) _ (by omega) (fun j hj y _ _ => by rw [Arr.rd_nat hj, ok_bind, Arr.wr_nat hj])]
    unfold V4.map₂ V4.splat
    dsimp only
    rw [hc _ g, hc _ g, hc _ g, hc _ g]
  · rw [if_neg h4]

theorem windowedOscSimd_eq (hc : ∀ a w c : F, (c *ᶠ w) *ᶠ (lit 2 1 *ᶠ a) = ((lit 2 1 *ᶠ w) *ᶠ a) *ᶠ c) {off : Nat}
    (hoff : off ≤ 160) (amp sd cd s0 c0 : F) (out : Arr 160 F) :
    windowedOscSimd off amp sd cd s0 c0 out = windowedOsc off amp sd cd s0 c0 out := by
  have hlen : Ws.length = 320 + (Ws.length - 320) := by decide +kernel
  have ht : ∀ i, i < 320 → ∃ v, tab Ws i = .ok v := fun i hi => by
    unfold tab
    rw [List.getElem?_eq_getElem (by omega)]
    exact ⟨_, rfl⟩
  unfold windowedOscSimd windowedOsc
  rw [loop_four' (show 160 = 4 * 40 by rfl)]
  refine congrArg (fun x : Exec (Arr 160 F × F × F) => x >>= fun r => Except.ok r.1) ?_
  refine loop_congr fun k hk => ?_
  funext s
  obtain ⟨o, c, sn⟩ := s
  unfold voicedBlock4 four
  obtain ⟨w0, h0⟩ := ht (4 * k + off) (by omega)
  obtain ⟨w1, h1⟩ := ht (4 * k + off + 1) (by omega)
  obtain ⟨w2, h2⟩ := ht (4 * k + off + 2) (by omega)
  obtain ⟨w3, h3⟩ := ht (4 * k + off + 3) (by omega)
  dsimp only
  rw [h0, ok_bind, h1, ok_bind, h2, ok_bind, h3, ok_bind, rd4_nat (by omega), ok_bind, wr4_nat (by omega), ok_bind]
  rw [show 4 * k + 1 + off = 4 * k + off + 1 by ring, show 4 * k + 2 + off = 4 * k + off + 2 by ring,
    show 4 * k + 3 + off = 4 * k + off + 3 by ring]
  rw [ok_bind, Arr.rd_nat (by omega), ok_bind, Arr.wr_nat (by omega), ok_bind, ok_bind, h1, ok_bind,
    Arr.rd_nat (by omega), ok_bind, Arr.wr_nat (by omega), ok_bind, ok_bind, h2, ok_bind,
    Arr.rd_nat (by omega), ok_bind, Arr.wr_nat (by omega), ok_bind, ok_bind, h3, ok_bind,
    Arr.rd_nat (by omega), ok_bind, Arr.wr_nat (by omega), ok_bind]
  dsimp only
  rw [Arr.set_ne (j := ⟨4 * k + 1, _⟩) (by dsimp only; omega), Arr.set_ne (j := ⟨4 * k + 2, _⟩) (by dsimp only; omega),
    Arr.set_ne (j := ⟨4 * k + 2, _⟩) (by dsimp only; omega), Arr.set_ne (j := ⟨4 * k + 3, _⟩) (by dsimp only; omega),
    Arr.set_ne (j := ⟨4 * k + 3, _⟩) (by dsimp only; omega), Arr.set_ne (j := ⟨4 * k + 3, _⟩) (by dsimp only; omega)]
  unfold V4.map₂ V4.splat
  dsimp only
  rw [hc, hc, hc, hc]

theorem voicedBandSimd_eq (hc : ∀ a w c : F, (c *ᶠ w) *ᶠ (lit 2 1 *ᶠ a) = ((lit 2 1 *ᶠ w) *ᶠ a) *ᶠ c) (cw0 pw0 : F)
    (cur prev : Parms F) : voicedBandSimd cw0 pw0 cur prev = voicedBand cw0 pw0 cur prev := by
  funext l out
  unfold voicedBandSimd voicedBand
  simp only [windowedOscSimd_eq hc (le_refl 160), windowedOscSimd_eq hc (Nat.zero_le 160)]

theorem wolaSimd_eq (hd : ∀ n, lt (lit 1 10000000000) ((thePlan : Plan F).denom n) = true) (p c : Arr 256 F)
    (out : Arr 160 F) : wolaSimd thePlan p c out = wolaFast thePlan p c out := by
  unfold wolaFast
  generalize hf : (fun (n : Nat) (out : Arr 160 F) => (do
    let pi ← (thePlan : Plan F).prevIdx.rd n
    let ps : F ← (if pi ≥ 0 ∧ pi < 256 then p.rd pi else .ok (lit 0 1))
    let ci ← (thePlan : Plan F).currIdx.rd n
    let cs : F ← (if ci ≥ 0 ∧ ci < 256 then c.rd ci else .ok (lit 0 1))
    let d ← (thePlan : Plan F).denom.rd n
    if lt (lit 1 10000000000) d then do
      let v := (((← (thePlan : Plan F).wPrev.rd n) *ᶠ ps) +ᶠ ((← (thePlan : Plan F).wCurr.rd n) *ᶠ cs)) /ᶠ d
      out.wr n ((← out.rd n) +ᶠ v)
    else .ok out : Exec (Arr 160 F))) = f
  have hfe : ∀ n (hn : n < 160) (x : Arr 160 F), f n x = .ok (x.set n (x ⟨n, hn⟩ +ᶠ wolaSample thePlan p c ⟨n, hn⟩)) := by
    intro n hn x
    rw [← hf]
    dsimp only
    rw [Arr.rd_nat hn, ok_bind, rdGuard, ok_bind, Arr.rd_nat hn, ok_bind, rdGuard, ok_bind, Arr.rd_nat hn, ok_bind,
      if_pos (hd _), Arr.rd_nat hn, ok_bind, Arr.rd_nat hn, ok_bind, Arr.rd_nat hn, ok_bind, Arr.wr_nat hn]
    rfl
  have hpi : ∀ n : Fin 160, (thePlan : Plan F).prevIdx n = (n.val : Int) + 128 := fun _ => rfl
  have hci : ∀ n : Fin 160, (thePlan : Plan F).currIdx n = (n.val : Int) + 128 - 160 := fun _ => rfl
  unfold wolaSimd
  rw [loop_split' (show 160 = 32 + 4 * 24 + 32 by rfl), loop_split' (show 32 + 4 * 24 = 32 + 4 * 24 by rfl),
    bind_assoc]
  simp only [loop_four]
  have hrd : ∀ (a : Arr 256 F) (i : Int), 0 ≤ i → i < 256 → a.rd i = .ok (readOr a i) := fun a i h1 h2 => by
    rw [← rdGuard, if_pos ⟨h1, h2⟩]
  have b1 : ∀ s : Arr 160 F, loop 32 (fun n out => do
      wolaAdd thePlan n (← p.rd (← (thePlan : Plan F).prevIdx.rd n)) (lit 0 1) out) s = loop 32 f s := fun s => by
    refine loop_congr fun n hn => ?_
    funext x
    have hn' : n < 160 := by omega
    rw [hfe n hn', Arr.rd_nat hn', ok_bind, hpi, hrd _ _ (by dsimp only; omega) (by dsimp only; omega), ok_bind]
    unfold wolaAdd
    rw [Arr.rd_nat hn', ok_bind, if_pos (hd _), Arr.rd_nat hn', ok_bind, Arr.rd_nat hn', ok_bind, Arr.rd_nat hn', ok_bind,
      Arr.wr_nat hn']
    unfold wolaSample
    rw [hpi, hci]
    have : readOr c (((⟨n, hn'⟩ : Fin 160).val : Int) + 128 - 160) = lit 0 1 := by
      unfold readOr
      rw [dif_neg (by dsimp only; omega)]
    rw [this]
  have b3 : ∀ s : Arr 160 F, loop 32 (fun j out => do
      wolaAdd thePlan (128 + j) (lit 0 1) (← c.rd (← (thePlan : Plan F).currIdx.rd ((128 + j : Nat) : Int))) out) s =
      loop 32 (fun k => f (32 + 4 * 24 + k)) s := fun s => by
    refine loop_congr fun n hn => ?_
    funext x
    have hn' : 128 + n < 160 := by omega
    rw [show 32 + 4 * 24 + n = 128 + n by rfl, hfe _ hn', Arr.rd_nat hn', ok_bind, hci,
      hrd _ _ (by dsimp only; omega) (by dsimp only; omega), ok_bind]
    unfold wolaAdd
    rw [Arr.rd_nat hn', ok_bind, if_pos (hd _), Arr.rd_nat hn', ok_bind, Arr.rd_nat hn', ok_bind, Arr.rd_nat hn', ok_bind,
      Arr.wr_nat hn']
    unfold wolaSample
    rw [hpi, hci]
    have : readOr p (((⟨128 + n, hn'⟩ : Fin 160).val : Int) + 128) = lit 0 1 := by
      unfold readOr
      rw [dif_neg (by dsimp only; omega)]
    rw [this]
  rw [b1]
  cases loop 32 f out with
  | error e => rw [error_bind, error_bind]
  | ok o =>
    rw [ok_bind, ok_bind]
    have b2 : loop 24 (fun (k : Nat) (out : Arr 160 F) => (do
        let n : Int := 32 + 4 * (k : Int)
        let wp ← Arr.rd4 (thePlan : Plan F).wPrev n
        let wc ← Arr.rd4 (thePlan : Plan F).wCurr n
        let d ← Arr.rd4 (thePlan : Plan F).denom n
        let ip ← Arr.rd4 (thePlan : Plan F).prevIdx n
        let ic ← Arr.rd4 (thePlan : Plan F).currIdx n
        let ps : V4 F := ⟨← p.rd ip.a, ← p.rd ip.b, ← p.rd ip.c, ← p.rd ip.d⟩
        let cs : V4 F := ⟨← c.rd ic.a, ← c.rd ic.b, ← c.rd ic.c, ← c.rd ic.d⟩
        let s := V4.map₂ Arith.add (V4.map₂ Arith.mul wp ps) (V4.map₂ Arith.mul wc cs)
        let r := V4.map₂ maskLane d (V4.map₂ Arith.div s d)
        let o ← Arr.rd4 out n
        Arr.wr4 out n (V4.map₂ Arith.add o r) : Exec (Arr 160 F))) o = loop 24 (fun k s => four (fun k => f (32 + k)) (4 * k) s) o := by
      refine loop_congr fun k hk => ?_
      funext x
      have e : (32 + 4 * (k : Int)) = ((32 + 4 * k : Nat) : Int) := by push_cast; ring
      have e4 : four (fun k => f (32 + k)) (4 * k) x = four f (32 + 4 * k) x := rfl
      rw [e4, four_store (fun n v => v +ᶠ wolaSample thePlan p c n) f (by omega) (fun j hj y _ _ => hfe j hj y)]
      dsimp only
      rw [e, rd4_nat (by omega), ok_bind, rd4_nat (by omega), ok_bind, rd4_nat (by omega), ok_bind, rd4_nat (by omega), ok_bind,
        rd4_nat (by omega), ok_bind]
      dsimp only
      rw [hpi, hpi, hpi, hpi, hci, hci, hci, hci]
      dsimp only
      rw [hrd p _ (by omega) (by omega), ok_bind, hrd p _ (by omega) (by omega), ok_bind, hrd p _ (by omega) (by omega), ok_bind,
        hrd p _ (by omega) (by omega), ok_bind, hrd c _ (by omega) (by omega), ok_bind, hrd c _ (by omega) (by omega), ok_bind,
        hrd c _ (by omega) (by omega), ok_bind, hrd c _ (by omega) (by omega), ok_bind, rd4_nat (by omega), ok_bind]
      unfold V4.map₂ maskLane
      dsimp only
      rw [if_pos (hd _), if_pos (hd _), if_pos (hd _), if_pos (hd _)]
      rfl
    rw [b2]
    cases loop 24 (fun k s => four (fun k => f (32 + k)) (4 * k) s) o with
    | error e => rw [error_bind, error_bind]
    | ok o' =>
      rw [ok_bind, ok_bind]
      exact b3 o'

/-! ## Sums: equal in exact arithmetic -/

/-- The sum of the lanes. -/
def V4.total (v : V4 ℝ) : ℝ := v.a + v.b + v.c + v.d

theorem hsum_r (isa : Isa) (v : V4 ℝ) : hsum isa v = v.total := by
  cases isa
  · exact show v.a + v.b + (v.c + v.d) = v.a + v.b + v.c + v.d by ring
  · exact show v.a + v.c + (v.b + v.d) = v.a + v.b + v.c + v.d by ring

theorem hsumMag_r (isa : Isa) (v : V4 ℝ) : hsumMag isa v = v.total := by
  cases isa
  · exact show v.a + v.b + (v.d + v.c) = v.a + v.b + v.c + v.d by ring
  · exact show v.a + v.c + (v.b + v.d) = v.a + v.b + v.c + v.d by ring

theorem litZero_r : (lit 0 1 : ℝ) = 0 := by rw [RealArith.lit_r _ _ (by decide)]; norm_num

theorem rm01Simd_eq (isa : Isa) {L : Int} (hL : L ≤ 56) (Ml : Arr 57 ℝ) (ct : Loc 57 ℝ)
    (hct : ∀ l : Fin 57, 1 ≤ l.val → (l.val : Int) ≤ L → (ct l).isSome) : rm01Simd isa L Ml ct = rm01 L Ml ct := by
  unfold rm01Simd
  by_cases h4 : L ≥ 4
  swap
  · rw [if_neg h4]
  rw [if_pos h4]
  unfold rm01 loopTo
  rw [loopFT_blocks]
  dsimp only
  generalize hf : (fun (l : Nat) (s : ℝ × ℝ) => (do
    let m ← Ml.rd l
    .ok (s.1 +ᶠ (m *ᶠ m), s.2 +ᶠ ((m *ᶠ m) *ᶠ (← ct.rd l))) : Exec (ℝ × ℝ))) = f
  have hfe : ∀ (l : Nat) (hl : l < 57) (s : ℝ × ℝ), 1 ≤ l → (l : Int) ≤ L → ∃ c, ct ⟨l, hl⟩ = some c ∧
      f l s = .ok (s.1 + Ml ⟨l, hl⟩ * Ml ⟨l, hl⟩, s.2 + Ml ⟨l, hl⟩ * Ml ⟨l, hl⟩ * c) := by
    intro l hl s h1 h2
    obtain ⟨c, hc⟩ := Option.isSome_iff_exists.mp (hct ⟨l, hl⟩ h1 h2)
    refine ⟨c, hc, ?_⟩
    rw [← hf]
    dsimp only
    rw [Arr.rd_nat hl, ok_bind, Loc.rd_nat hl hc, ok_bind]
    rfl
  have key : ∀ q : Nat, 4 * (q : Int) ≤ L → ∃ v w : V4 ℝ, loop q (fun k (s : V4 ℝ × V4 ℝ) => do
      let m ← Arr.rd4 Ml (1 + 4 * (k : Int))
      let c ← Loc.rd4 ct (1 + 4 * (k : Int))
      .ok (V4.map₂ Arith.add s.1 (V4.map₂ Arith.mul m m), V4.map₂ Arith.add s.2 (V4.map₂ Arith.mul (V4.map₂ Arith.mul m m) c)))
      (V4.splat (lit 0 1), V4.splat (lit 0 1)) = .ok (v, w) ∧
      loop q (fun k s => four f (1 + 4 * k) s) (lit 0 1, lit 0 1) = .ok (v.total, w.total) := by
    intro q
    induction q with
    | zero =>
      intro _
      refine ⟨_, _, rfl, ?_⟩
      unfold V4.total V4.splat
      rw [loop_zero, litZero_r]
      norm_num
    | succ q ih =>
      intro hq
      obtain ⟨v, w, h1, h2⟩ := ih (by push_cast at hq; omega)
      have e : (1 + 4 * (q : Int)) = ((1 + 4 * q : Nat) : Int) := by push_cast; ring
      have hq' : 4 * q + 4 ≤ 56 := by omega
      obtain ⟨c0, k0, f0⟩ := hfe (1 + 4 * q) (by omega) (v.total, w.total) (by omega) (by omega)
      obtain ⟨c1, k1, f1⟩ := hfe (1 + 4 * q + 1) (by omega) (v.total + Ml ⟨1 + 4 * q, by omega⟩ * Ml ⟨1 + 4 * q, by omega⟩,
        w.total + Ml ⟨1 + 4 * q, by omega⟩ * Ml ⟨1 + 4 * q, by omega⟩ * c0) (by omega) (by omega)
      dsimp only at f0 f1
      obtain ⟨c2, k2, f2⟩ := hfe (1 + 4 * q + 2) (by omega) (_, _) (by omega) (by omega)
      obtain ⟨c3, k3, f3⟩ := hfe (1 + 4 * q + 3) (by omega) (_, _) (by omega) (by omega)
      rw [loop_succ, h1, ok_bind, loop_succ, h2, ok_bind, e, rd4_nat (by omega), ok_bind]
      have hc4 : Loc.rd4 ct ((1 + 4 * q : Nat) : Int) = .ok ⟨c0, c1, c2, c3⟩ := by
        unfold Loc.rd4
        have e1 : ((1 + 4 * q : Nat) : Int) + 1 = ((1 + 4 * q + 1 : Nat) : Int) := by push_cast; ring
        have e2 : ((1 + 4 * q : Nat) : Int) + 2 = ((1 + 4 * q + 2 : Nat) : Int) := by push_cast; ring
        have e3 : ((1 + 4 * q : Nat) : Int) + 3 = ((1 + 4 * q + 3 : Nat) : Int) := by push_cast; ring
        rw [e1, e2, e3, Loc.rd_nat (by omega) k0, ok_bind, Loc.rd_nat (by omega) k1, ok_bind, Loc.rd_nat (by omega) k2, ok_bind,
          Loc.rd_nat (by omega) k3, ok_bind]
      rw [hc4, ok_bind]
      refine ⟨_, _, rfl, ?_⟩
      unfold four
      rw [f0, ok_bind, f1, ok_bind, f2, ok_bind, f3]
      unfold V4.total V4.map₂
      dsimp only
      congr 2
      · exact show _ + _ * _ + _ * _ + _ * _ + _ * _ = _ + _ * _ + (_ + _ * _) + (_ + _ * _) + (_ + _ * _) by ring
      · exact show _ + _ * _ * _ + _ * _ * _ + _ * _ * _ + _ * _ * _ =
          _ + _ * _ * _ + (_ + _ * _ * _) + (_ + _ * _ * _) + (_ + _ * _ * _) by ring
  obtain ⟨v, w, h1, h2⟩ := key (L.toNat / 4) (by omega)
  rw [h1, h2, ok_bind, ok_bind, hsum_r, hsum_r]

theorem enhSumSimd_eq (isa : Isa) {L : Int} (hL : L ≤ 56) (Ml : Arr 57 ℝ) : enhSumSimd isa L Ml = enhSum L Ml := by
  unfold enhSumSimd
  by_cases h4 : L ≥ 4
  swap
  · rw [if_neg h4]
  rw [if_pos h4]
  unfold enhSum loopTo
  rw [loopFT_blocks]
  dsimp only
  generalize hf : (fun (l : Nat) (s : ℝ) => (do
    let m ← Ml.rd l
    .ok (s +ᶠ ((if lt m (lit 0 1) then neg m else m) *ᶠ (if lt m (lit 0 1) then neg m else m))) : Exec ℝ)) = f
  have hfe : ∀ (l : Nat) (hl : l < 57) (s : ℝ), f l s = .ok (s + Ml ⟨l, hl⟩ * Ml ⟨l, hl⟩) := by
    intro l hl s
    rw [← hf]
    dsimp only
    rw [Arr.rd_nat hl, ok_bind]
    by_cases h : lt (Ml ⟨l, hl⟩) (lit 0 1) = true
    · rw [if_pos h, RealArith.neg_r, RealArith.mul_r, RealArith.add_r, neg_mul_neg]
    · rw [if_neg h, RealArith.mul_r, RealArith.add_r]
  have key : ∀ q : Nat, 4 * (q : Int) ≤ L → ∃ v : V4 ℝ, loop q (fun k (s : V4 ℝ) => do
      let m ← Arr.rd4 Ml (1 + 4 * (k : Int))
      .ok (V4.map₂ Arith.add s (V4.map₂ Arith.mul ⟨Arith.abs m.a, Arith.abs m.b, Arith.abs m.c, Arith.abs m.d⟩
        ⟨Arith.abs m.a, Arith.abs m.b, Arith.abs m.c, Arith.abs m.d⟩))) (V4.splat (lit 0 1)) = .ok v ∧
      loop q (fun k s => four f (1 + 4 * k) s) (lit 0 1) = .ok v.total := by
    intro q
    induction q with
    | zero =>
      intro _
      refine ⟨_, rfl, ?_⟩
      unfold V4.total V4.splat
      rw [loop_zero, litZero_r]
      norm_num
    | succ q ih =>
      intro hq
      obtain ⟨v, h1, h2⟩ := ih (by push_cast at hq; omega)
      have e : (1 + 4 * (q : Int)) = ((1 + 4 * q : Nat) : Int) := by push_cast; ring
      have hq' : 4 * q + 4 ≤ 56 := by omega
      rw [loop_succ, h1, ok_bind, loop_succ, h2, ok_bind, e, rd4_nat (by omega), ok_bind]
      refine ⟨_, rfl, ?_⟩
      unfold four
      rw [hfe _ (by omega), ok_bind, hfe _ (by omega), ok_bind, hfe _ (by omega), ok_bind, hfe _ (by omega)]
      unfold V4.total V4.map₂
      dsimp only
      simp only [RealArith.add_r, RealArith.mul_r, RealArith.abs_r, abs_mul_abs_self]
      congr 1
      ring
  obtain ⟨v, h1, h2⟩ := key (L.toNat / 4) (by omega)
  rw [h1, h2, ok_bind, ok_bind, hsum_r]

theorem magInterior (isa : Isa) (fft : Arr 256 ℝ) {st en : Int} (h0 : 0 ≤ st) (h1 : en ≤ 128) (sum : ℝ) :
    (do
      let sum ← (if (en - st).toNat ≥ 4 then do
          let v ← loop ((en - st).toNat / 4) (fun k (v : V4 ℝ) => do
            let v0 ← Arr.rd4 fft (2 * st + 8 * (k : Int))
            let v1 ← Arr.rd4 fft (2 * st + 8 * (k : Int) + 4)
            .ok (V4.map₂ Arith.add (V4.map₂ Arith.add v (V4.map₂ Arith.mul v0 v0)) (V4.map₂ Arith.mul v1 v1)))
            (V4.splat (lit 0 1))
          .ok (sum +ᶠ hsumMag isa v)
        else .ok sum)
      loop ((en - st).toNat - 4 * ((en - st).toNat / 4)) (fun i sum => do
        let re ← fft.rd (2 * st + 8 * (((en - st).toNat / 4 : Nat) : Int) + 2 * (i : Int))
        let im ← fft.rd (2 * st + 8 * (((en - st).toNat / 4 : Nat) : Int) + 2 * (i : Int) + 1)
        .ok (sum +ᶠ ((re *ᶠ re) +ᶠ (im *ᶠ im)))) sum) =
    loop (en - st).toNat (fun i sum => do
      let re ← fft.rd (2 * (st + i))
      let im ← fft.rd (2 * (st + i) + 1)
      .ok (sum +ᶠ ((re *ᶠ re) +ᶠ (im *ᶠ im)))) sum := by
  obtain ⟨m, rfl⟩ := Int.eq_ofNat_of_zero_le h0
  have hm : (en - (m : Int)).toNat = 0 ∨ m + (en - (m : Int)).toNat ≤ 128 := by omega
  generalize (en - (m : Int)).toNat = N at hm ⊢
  generalize hf : (fun (i : Nat) (sum : ℝ) => (do
      let re ← fft.rd (2 * ((m : Int) + i))
      let im ← fft.rd (2 * ((m : Int) + i) + 1)
      .ok (sum +ᶠ ((re *ᶠ re) +ᶠ (im *ᶠ im))) : Exec ℝ)) = f
  have hfe : ∀ i (hi : 2 * (m + i) + 1 < 256) (s : ℝ), f i s =
      .ok (s + (fft ⟨2 * (m + i), by omega⟩ * fft ⟨2 * (m + i), by omega⟩ + fft ⟨2 * (m + i) + 1, hi⟩ * fft ⟨2 * (m + i) + 1, hi⟩)) := by
    intro i hi s
    rw [← hf]
    dsimp only
    rw [show 2 * ((m : Int) + i) = ((2 * (m + i) : Nat) : Int) by push_cast; ring,
      show ((2 * (m + i) : Nat) : Int) + 1 = ((2 * (m + i) + 1 : Nat) : Int) by push_cast; ring,
      Arr.rd_nat (by omega), ok_bind, Arr.rd_nat (by omega), ok_bind]
    rfl
  have hrest : (fun (i : Nat) (sum : ℝ) => (do
        let re ← fft.rd (2 * (m : Int) + 8 * ((N / 4 : Nat) : Int) + 2 * (i : Int))
        let im ← fft.rd (2 * (m : Int) + 8 * ((N / 4 : Nat) : Int) + 2 * (i : Int) + 1)
        .ok (sum +ᶠ ((re *ᶠ re) +ᶠ (im *ᶠ im))) : Exec ℝ)) = fun i => f (4 * (N / 4) + i) := by
    rw [← hf]
    funext i sum
    beta_reduce
    rw [show 2 * ((m : Int) + ((4 * (N / 4) + i : Nat) : Int)) = 2 * (m : Int) + 8 * ((N / 4 : Nat) : Int) + 2 * (i : Int) by
      push_cast; ring]
  rw [hrest]
  have hN : N = 4 * (N / 4) + (N - 4 * (N / 4)) := by omega
  conv_rhs => rw [hN]
  rw [loop_split, loop_four]
  congr 1
  by_cases h4 : N ≥ 4
  swap
  · rw [if_neg h4, show N / 4 = 0 by omega]
    rfl
  rw [if_pos h4]
  have key : ∀ q : Nat, 4 * q ≤ N → ∃ v : V4 ℝ, loop q (fun k (v : V4 ℝ) => do
            let v0 ← Arr.rd4 fft (2 * (m : Int) + 8 * (k : Int))
            let v1 ← Arr.rd4 fft (2 * (m : Int) + 8 * (k : Int) + 4)
            .ok (V4.map₂ Arith.add (V4.map₂ Arith.add v (V4.map₂ Arith.mul v0 v0)) (V4.map₂ Arith.mul v1 v1)))
            (V4.splat (lit 0 1)) = .ok v ∧
      loop q (fun k s => four f (4 * k) s) sum = .ok (sum + v.total) := by
    intro q
    induction q with
    | zero =>
      intro _
      refine ⟨_, rfl, ?_⟩
      unfold V4.total V4.splat
      rw [loop_zero, litZero_r]
      norm_num
    | succ q ih =>
      intro hq
      obtain ⟨v, k1, k2⟩ := ih (by omega)
      have e : 2 * (m : Int) + 8 * (q : Int) = ((2 * m + 8 * q : Nat) : Int) := by push_cast; ring
      have e' : ((2 * m + 8 * q : Nat) : Int) + 4 = ((2 * m + 8 * q + 4 : Nat) : Int) := by push_cast; ring
      have hq' : m + (4 * q + 4) ≤ 128 := by omega
      rw [loop_succ, k1, ok_bind, loop_succ, k2, ok_bind, e, e', rd4_nat (by omega), ok_bind, rd4_nat (by omega), ok_bind]
      refine ⟨_, rfl, ?_⟩
      unfold four
      rw [hfe _ (by omega), ok_bind, hfe _ (by omega), ok_bind, hfe _ (by omega), ok_bind, hfe _ (by omega)]
      unfold V4.total V4.map₂
      dsimp only
      simp only [RealArith.add_r, RealArith.mul_r]
      have x0 : (⟨2 * (m + 4 * q), by omega⟩ : Fin 256) = ⟨2 * m + 8 * q, by omega⟩ := Fin.ext (by dsimp only; ring)
      have x1 : (⟨2 * (m + 4 * q) + 1, by omega⟩ : Fin 256) = ⟨2 * m + 8 * q + 1, by omega⟩ := Fin.ext (by dsimp only; ring)
      have x2 : (⟨2 * (m + (4 * q + 1)), by omega⟩ : Fin 256) = ⟨2 * m + 8 * q + 2, by omega⟩ := Fin.ext (by dsimp only; ring)
      have x3 : (⟨2 * (m + (4 * q + 1)) + 1, by omega⟩ : Fin 256) = ⟨2 * m + 8 * q + 3, by omega⟩ := Fin.ext (by dsimp only; ring)
      have x4 : (⟨2 * (m + (4 * q + 2)), by omega⟩ : Fin 256) = ⟨2 * m + 8 * q + 4, by omega⟩ := Fin.ext (by dsimp only; ring)
      have x5 : (⟨2 * (m + (4 * q + 2)) + 1, by omega⟩ : Fin 256) = ⟨2 * m + 8 * q + 4 + 1, by omega⟩ := Fin.ext (by dsimp only; ring)
      have x6 : (⟨2 * (m + (4 * q + 3)), by omega⟩ : Fin 256) = ⟨2 * m + 8 * q + 4 + 2, by omega⟩ := Fin.ext (by dsimp only; ring)
      have x7 : (⟨2 * (m + (4 * q + 3)) + 1, by omega⟩ : Fin 256) = ⟨2 * m + 8 * q + 4 + 3, by omega⟩ := Fin.ext (by dsimp only; ring)
      rw [x0, x1, x2, x3, x4, x5, x6, x7]
      congr 1
      ring
  obtain ⟨v, k1, k2⟩ := key (N / 4) (by omega)
  rw [k1, k2, ok_bind, hsumMag_r]
  rfl

theorem magSumSimd_eq (isa : Isa) (fft : Arr 256 ℝ) {a : Int} (ha : 0 ≤ a) (b : Int) :
    magSumSimd isa fft a b = magSum fft a b := by
  unfold magSumSimd magSum
  by_cases hba : b ≤ a
  · rw [if_pos hba, if_pos hba]
  rw [if_neg hba, if_neg hba]
  have main : ∀ (sum : ℝ) (st : Int), 0 ≤ st → (do
      let sum ← (if ((if decide (b > 128) then 128 else b) - st).toNat ≥ 4 then do
          let v ← loop (((if decide (b > 128) then 128 else b) - st).toNat / 4) (fun k (v : V4 ℝ) => do
            let v0 ← Arr.rd4 fft (2 * st + 8 * (k : Int))
            let v1 ← Arr.rd4 fft (2 * st + 8 * (k : Int) + 4)
            .ok (V4.map₂ Arith.add (V4.map₂ Arith.add v (V4.map₂ Arith.mul v0 v0)) (V4.map₂ Arith.mul v1 v1)))
            (V4.splat (lit 0 1))
          .ok (sum +ᶠ hsumMag isa v)
        else .ok sum)
      let sum ← loop (((if decide (b > 128) then 128 else b) - st).toNat -
          4 * (((if decide (b > 128) then 128 else b) - st).toNat / 4)) (fun i sum => do
        let re ← fft.rd (2 * st + 8 * ((((if decide (b > 128) then 128 else b) - st).toNat / 4 : Nat) : Int) + 2 * (i : Int))
        let im ← fft.rd (2 * st + 8 * ((((if decide (b > 128) then 128 else b) - st).toNat / 4 : Nat) : Int) + 2 * (i : Int) + 1)
        .ok (sum +ᶠ ((re *ᶠ re) +ᶠ (im *ᶠ im)))) sum
      if decide (b > 128) then do
        let a ← fft.rd 1
        .ok (sum +ᶠ (a *ᶠ a))
      else .ok sum : Exec ℝ) = (do
      let sum ← loop ((if decide (b > 128) then 128 else b) - st).toNat (fun i sum => do
        let re ← fft.rd (2 * (st + i))
        let im ← fft.rd (2 * (st + i) + 1)
        .ok (sum +ᶠ ((re *ᶠ re) +ᶠ (im *ᶠ im)))) sum
      if decide (b > 128) then do
        let a ← fft.rd 1
        .ok (sum +ᶠ (a *ᶠ a))
      else .ok sum : Exec ℝ) := by
    intro sum st hst
    have he : (if decide (b > 128) = true then 128 else b) ≤ 128 := by split_ifs with h <;> simp at h <;> omega
    generalize (if decide (b > 128) = true then 128 else b) = en at he ⊢
    rw [← magInterior isa fft hst he sum, bind_assoc]
  by_cases h0 : a = 0
  · rw [if_pos h0, Arr.rd_ok (by omega) (by omega), ok_bind, ok_bind, ok_bind]
    exact main _ _ (by omega)
  · rw [if_neg h0, ok_bind, ok_bind]
    exact main _ _ ha

/-! ## Whole functions in exact arithmetic -/

theorem bind_post_congr {α β : Type} {x : Exec α} {P : α → Prop} {f g : α → Exec β} (h : Post x P)
    (hfg : ∀ a, P a → f a = g a) : (x >>= f) = (x >>= g) := by
  cases x with
  | error e => rfl
  | ok a => exact hfg a (h a rfl)

theorem loop_fail {σ : Type} {a n : Nat} {f : Nat → σ → Exec σ} (ha : a < n) (hf : ∀ s, ∃ e, f a s = .error e) (s : σ) :
    ∃ e, loop n f s = .error e := by
  induction n with
  | zero => omega
  | succ n ih =>
    rw [loop_succ]
    by_cases h : a = n
    · subst h
      cases loop a f s with
      | error e => exact ⟨e, rfl⟩
      | ok x => exact hf x
    · obtain ⟨e, he⟩ := ih (by omega)
      rw [he]
      exact ⟨e, rfl⟩

theorem cosTab_bound (w0 : F) (L : Int) : Post (cosTab w0 L) fun ct =>
    L ≤ 56 ∧ ∀ l : Fin 57, 1 ≤ l.val → (l.val : Int) ≤ L → (ct l).isSome := by
  intro ct h
  have hL : L ≤ 56 := by
    by_contra hL
    have : ∃ e, cosTab w0 L = .error e := by
      unfold cosTab loopTo loopFT
      obtain ⟨e, he⟩ := loop_fail (a := 56) (n := L.toNat + 1 - 1) (f := fun k (s : Loc 57 F × F × F) => do
        let c := s.2.1
        let sn := s.2.2
        let c' := (c *ᶠ cos w0) -ᶠ (sn *ᶠ sin w0)
        let s' := (sn *ᶠ cos w0) +ᶠ (c *ᶠ sin w0)
        .ok (← s.1.wr ((1 + k : Nat) : Int) c', c', s')) (by omega) (fun s => ⟨.oobWrite, rfl⟩)
          (Loc.fresh 57 F, lit 1 1, lit 0 1)
      refine ⟨e, ?_⟩
      dsimp only at he ⊢
      rw [he]
      rfl
    obtain ⟨e, he⟩ := this
    rw [h] at he
    cases he
  obtain ⟨ct', h', hp⟩ := cosTab_ok w0 hL
  rw [h] at h'
  cases ok_inj h'
  exact ⟨hL, hp⟩

theorem spectralAmpEnhanceSimd_eq (isa : Isa) (addr : Nat) (cur : Parms ℝ) (t : Tls ℝ) :
    spectralAmpEnhanceSimd isa addr cur t = spectralAmpEnhance addr cur t := by
  unfold spectralAmpEnhanceSimd spectralAmpEnhance
  refine bind_post_congr (cosTab_bound cur.w0 cur.L) fun ct h => ?_
  rw [rm01Simd_eq isa h.1 _ _ h.2]
  simp only [enhSumSimd_eq isa h.1, enhScaleSimd_eq (fun a b : ℝ => mul_comm a b) h.1]

theorem bandEdges_post (mult : F) (L : Int) : Post (bandEdges mult L) (EdgeArr L) := by
  unfold bandEdges loopTo
  by_cases h0 : L ≤ 0
  · have : L.toNat = 0 := by omega
    rw [this]
    exact Post.pure fun l h1 h2 => by omega
  · refine (loopFT_post (lo := 1) (hi := L.toNat) (fun k (s : Loc 57 Int × Loc 57 Int) => EdgeArr ((k : Int) - 1) s)
      (by omega) (by intro l _ _; omega) ?_).mono ?_
    · intro i h1 h2 s hs
      refine Post.bind (bandLo_nonneg _ _) fun a ha => Post.bind (bandHi_le _ _) fun b hb => ?_
      by_cases hi : i < 57
      · rw [Loc.wr_nat hi, ok_bind, Loc.wr_nat hi, ok_bind]
        refine Post.pure fun l h3 h4 => ?_
        by_cases e : l.val = i
        · exact ⟨a, b, Arr.set_same e, Arr.set_same e, ha, hb⟩
        · obtain ⟨a', b', k1, k2, k3⟩ := hs l h3 (by push_cast at h4; omega)
          exact ⟨a', b', by dsimp only; rw [Arr.set_ne e]; exact k1, by dsimp only; rw [Arr.set_ne e]; exact k2, k3⟩
      · have : Loc.wr s.1 (i : Int) a = .error .oobWrite := Arr.wr_error (by omega)
        rw [this]
        intro x hx
        cases hx
    · intro s hs l a b
      exact hs l a (by push_cast; omega)

theorem binScalorsSimd_eq (isa : Isa) (L : Int) (Vl : Arr 57 Int) (Ml : Arr 57 ℝ) (fft : Arr 256 ℝ)
    (e : Loc 57 Int × Loc 57 Int) (he : EdgeArr L e) :
    binScalorsSimd isa L Vl Ml fft e.1 e.2 = binScalors L Vl Ml fft e.1 e.2 := by
  unfold binScalorsSimd binScalors loopTo loopFT
  refine loop_congr fun k hk => ?_
  funext S
  beta_reduce
  by_cases hl : 1 + k < 57
  · obtain ⟨a, b, e1, e2, ha, hb⟩ := he ⟨1 + k, hl⟩ (by dsimp only; omega) (by dsimp only; omega)
    rw [Loc.rd_nat hl e1, Loc.rd_nat hl e2]
    simp only [ok_bind, magSumSimd_eq isa fft ha b]
  · have : Vl.rd ((1 + k : Nat) : Int) = .error .oobRead := Arr.rd_error (by omega)
    rw [this, error_bind, error_bind]

theorem denom_r (n : Fin 160) : lt (lit 1 10000000000) ((thePlan : Plan ℝ).denom n) = true := by
  have hd := denom_real n
  have hd' : (thePlan : Plan ℝ).denom n = (winAt (n.val : Int) : ℝ) * winAt (n.val : Int) +
      (winAt ((n.val : Int) - 160) : ℝ) * winAt ((n.val : Int) - 160) := rfl
  rw [RealArith.lt_r, hd', RealArith.lit_r _ _ (by decide)]
  push_cast
  linarith

theorem unvoicedSimd_eq (isa : Isa) (E : Env ℝ) (noise : Arr 256 ℝ) (cur prev : Parms ℝ) (out : Arr 160 ℝ) :
    unvoicedSimd isa E thePlan noise cur prev out = unvoiced E thePlan noise cur prev out := by
  unfold unvoicedSimd unvoiced
  refine bind_post_congr Post.true fun U _ => ?_
  dsimp only
  refine bind_post_congr (bandEdges_post _ _) fun e he => ?_
  rw [binScalorsSimd_eq isa _ _ _ _ _ he]
  simp only [normalizeSimd_eq, wolaSimd_eq denom_r]

theorem voicedMul_r (a w c : ℝ) : (c *ᶠ w) *ᶠ (lit 2 1 *ᶠ a) = ((lit 2 1 *ᶠ w) *ᶠ a) *ᶠ c := by
  simp only [RealArith.mul_r]
  ring

theorem cacheOk_plan {E : Env F} {t : Tls F} (h : CacheOk E t) : ∀ P, t.plan = some P → P = thePlan := by
  intro P hP
  have := (h.2.2.2 P hP).2
  rw [planFill_eq] at this
  exact (ok_inj this).symm

theorem getPlan_plan {E : Env F} {t : Tls F} (h : ∀ P, t.plan = some P → P = thePlan) :
    Post (getPlan E t) fun r => ∀ P, r.1 = some P → P = thePlan := by
  unfold getPlan
  cases ht : t.plan with
  | some p =>
    refine Post.pure fun P hP => ?_
    cases hP
    exact h _ ht
  | none =>
    dsimp only
    refine Post.ite (fun _ => ?_) fun _ => Post.pure nofun
    rw [planFill_eq, ok_bind]
    refine Post.pure fun P hP => ?_
    cases hP
    rfl

theorem synthUnmutedSimd_eq (isa : Isa) (E : Env ℝ) (cur prev : Parms ℝ) (t : Tls ℝ) (h : CacheOk E t) :
    synthUnmutedSimd isa E cur prev t = synthUnmuted E cur prev t := by
  unfold synthUnmutedSimd synthUnmuted
  refine bind_post_congr (P := fun nr : NoiseRes ℝ => CacheOk E nr.tls) ?_ fun nr hnr => ?_
  · intro nr hr
    obtain ⟨b, _, hs⟩ := (noiseOverlap_sim _ _ _ (Sim.refl h)).of_ok hr
    exact hs.2.2.2.l
  dsimp only
  refine bind_post_congr Post.true fun nuv _ => bind_post_congr Post.true fun q _ => ?_
  obtain ⟨c, p, ml⟩ := q
  dsimp only
  refine bind_post_congr Post.true fun q _ => ?_
  obtain ⟨c, p⟩ := q
  dsimp only
  rw [voicedBandSimd_eq voicedMul_r]
  refine bind_post_congr Post.true fun out _ => bind_post_congr (getPlan_plan (cacheOk_plan hnr)) fun q hq => ?_
  obtain ⟨pl, t'⟩ := q
  cases pl with
  | none => rfl
  | some P =>
    dsimp only at hq ⊢
    rw [hq P rfl, unvoicedSimd_eq]

theorem synthesizeSpeechfSimd_eq (isa : Isa) (E : Env ℝ) (addr : Nat) (out : Arr 160 ℝ) (cur prev : Parms ℝ) (t : Tls ℝ)
    (uvq : Int) (h : CacheOk E t) :
    synthesizeSpeechfSimd isa E addr out cur prev t uvq = synthesizeSpeechf E addr out cur prev t uvq := by
  unfold synthesizeSpeechfSimd synthesizeSpeechf
  refine bind_post_congr (P := fun q : Parms ℝ × Tls ℝ => CacheOk E q.2) ?_ fun q hq => ?_
  · intro q hr
    obtain ⟨b, _, hs⟩ := (applySmoothing_sim addr cur prev (Sim.refl h)).of_ok hr
    exact hs.2.l
  obtain ⟨c, t'⟩ := q
  dsimp only at hq ⊢
  rw [synthUnmutedSimd_eq isa E c prev t' hq]

theorem speakSimd_eq (isa : Isa) (E : Env ℝ) (C : Call ℝ) (s : St ℝ) (h : CacheOk E s.tls) :
    speakSimd isa E C s = speak E C s := by
  unfold speakSimd speak
  rw [spectralAmpEnhanceSimd_eq]
  dsimp only
  refine bind_post_congr (P := fun q : Parms ℝ × Tls ℝ => CacheOk E q.2) ?_ fun q hq => ?_
  · intro q hr
    obtain ⟨b, _, hs⟩ := (spectralAmpEnhance_sim C.pc s.cur (Sim.refl h)).of_ok hr
    exact hs.2.l
  obtain ⟨c, t'⟩ := q
  dsimp only at hq ⊢
  rw [synthesizeSpeechfSimd_eq isa E _ _ _ _ _ _ hq]

theorem processImbe4400Simd_eq (isa : Isa) (E : Env ℝ) (C : Call ℝ) (c0 : Option Int) (errs2 : Int) (d : Nat → Int) (s : St ℝ)
    (h : CacheOk E s.tls) : processImbe4400Simd isa E C c0 errs2 d s = processImbe4400 E C c0 errs2 d s := by
  unfold processImbe4400Simd processImbe4400
  dsimp only
  refine bind_post_congr Post.true fun str _ => ?_
  refine bind_post_congr (P := fun r : DecodeRes ℝ => CacheOk E r.tls) ?_ fun r hr => ?_
  · intro r hr
    obtain ⟨b, _, hs⟩ := (decodeImbe4400_sim E.lax d _ _ (Sim.refl (t := (imbePrepare c0 errs2 s).tls) h)).of_ok hr
    exact hs.tls.l
  refine bind_post_congr Post.true fun cur _ => bind_post_congr Post.true fun str _ => ?_
  rw [speakSimd_eq isa E C ⟨cur, r.prev, _, r.tls⟩ hr]

theorem ambePrepare_cache {E : Env F} (errs2 : Int) {s : St F} (h : CacheOk E s.tls) :
    Post (ambePrepare errs2 s) fun s' => CacheOk E s'.tls := by
  intro s' hs'
  obtain ⟨b, _, hs⟩ := (ambePrepare_sim (E := E) errs2 (s := s) (s' := s) ⟨rfl, rfl, rfl, Sim.refl h⟩).of_ok hs'
  exact hs.tls.l

theorem ambe2450RenderSimd_eq (isa : Isa) (E : Env ℝ) (C : Call ℝ) (bad : Int) (d : Nat → Int) (s : St ℝ)
    (h : CacheOk E s.tls) : ambe2450RenderSimd isa E C bad d s = ambe2450Render E C bad d s := by
  unfold ambe2450RenderSimd ambe2450Render replayEnhancedSimd replayEnhanced
  rw [speakSimd_eq isa E C s h, synthesizeSpeechfSimd_eq isa E _ _ _ _ _ _ h]

theorem ambe2400RenderSimd_eq (isa : Isa) (E : Env ℝ) (C : Call ℝ) (bad : Int) (s : St ℝ)
    (h : CacheOk E s.tls) : ambe2400RenderSimd isa E C bad s = ambe2400Render E C bad s := by
  unfold ambe2400RenderSimd ambe2400Render
  rw [speakSimd_eq isa E C s h]

theorem processAmbe2450Simd_eq (isa : Isa) (E : Env ℝ) (C : Call ℝ) (c0 : Option Int) (errs2 : Int) (d : Nat → Int) (s : St ℝ)
    (h : CacheOk E s.tls) : processAmbe2450Simd isa E C c0 errs2 d s = processAmbe2450 E C c0 errs2 d s := by
  unfold processAmbe2450Simd processAmbe2450
  refine bind_post_congr (ambePrepare_cache errs2 h) fun s hs => bind_post_congr Post.true fun str _ => ?_
  refine bind_post_congr (P := fun r : DecodeRes ℝ => CacheOk E r.tls) ?_ fun r hr => ?_
  · intro r hr
    obtain ⟨b, _, hs⟩ := (decodeAmbe2450_sim E.lax d _ _ _ (Sim.refl hs)).of_ok hr
    exact hs.tls.l
  refine bind_post_congr Post.true fun v _ => bind_post_congr Post.true fun str _ => ?_
  rw [ambe2450RenderSimd_eq isa E C _ _ ⟨v.1, r.prev, s.enh, r.tls⟩ hr]

theorem processAmbe2400Simd_eq (isa : Isa) (E : Env ℝ) (C : Call ℝ) (errs errs2 : Int) (d : Nat → Int) (s : St ℝ)
    (h : CacheOk E s.tls) : processAmbe2400Simd isa E C errs errs2 d s = processAmbe2400 E C errs errs2 d s := by
  unfold processAmbe2400Simd processAmbe2400
  refine bind_post_congr (ambePrepare_cache errs2 h) fun s hs => bind_post_congr Post.true fun str _ => ?_
  refine bind_post_congr (P := fun r : DecodeRes ℝ => CacheOk E r.tls) ?_ fun r hr => ?_
  · intro r hr
    obtain ⟨b, _, hs⟩ := (decodeAmbe2400_sim E.lax d _ _ (Sim.refl hs)).of_ok hr
    exact hs.tls.l
  refine bind_post_congr Post.true fun v _ => bind_post_congr Post.true fun str _ => ?_
  rw [ambe2400RenderSimd_eq isa E { C with buf := v.buf } _ ⟨v.cur, v.prev, s.enh, r.tls⟩ hr]

theorem callSimd_eq (isa : Isa) (E : Env ℝ) (a : Api ℝ) (s : St ℝ) (h : CacheOk E s.tls) : a.callSimd isa E s = a.call E s := by
  cases a with
  | imbe7200Frame C fr d =>
    unfold Api.callSimd Api.call processImbe7200FramefSimd processImbe7200Framef
    dsimp only
    simp only [fun c0 e2 d (e4 : Int) => processImbe4400Simd_eq isa E C c0 e2 d { s with cur := { s.cur with errorCount4 := e4 } } h]
  | imbe7100Frame C fr d =>
    unfold Api.callSimd Api.call processImbe7100FramefSimd processImbe7100Framef
    dsimp only
    simp only [fun c0 e2 d (e4 : Int) => processImbe4400Simd_eq isa E C c0 e2 d { s with cur := { s.cur with errorCount4 := e4 } } h]
  | ambe2450Frame C fr d =>
    unfold Api.callSimd Api.call processAmbe2450FramefSimd processAmbe2450Framef
    dsimp only
    simp only [processAmbe2450Simd_eq isa E C _ _ _ s h]
  | ambe2400Frame C fr d =>
    unfold Api.callSimd Api.call processAmbe2400FramefSimd processAmbe2400Framef
    dsimp only
    simp only [processAmbe2400Simd_eq isa E C _ _ _ s h]
  | imbeData C e e2 d =>
    unfold Api.callSimd Api.call processImbe4400Dataf
    dsimp only
    rw [processImbe4400Simd_eq isa E C _ _ _ s h]
  | ambe2450Data C e e2 d =>
    unfold Api.callSimd Api.call processAmbe2450Dataf
    dsimp only
    rw [processAmbe2450Simd_eq isa E C _ _ _ s h]
  | ambe2400Data C e e2 d =>
    unfold Api.callSimd Api.call
    dsimp only
    rw [processAmbe2400Simd_eq isa E C _ _ _ s h]
  | initMbe => rfl
  | initAmbe => rfl
  | seed n => rfl

/-- A call leaves the state that `Api.run` gives. -/
theorem call_run {E : Env F} {a : Api F} {s : St F} {r : Option (Arr 160 F × List Char) × St F} (h : a.call E s = .ok r) :
    a.run E s = .ok r.2 := by
  cases a <;> unfold Api.call at h <;> unfold Api.run <;> dsimp only at h ⊢
  case seed n => cases ok_inj h; rfl
  all_goals
    obtain ⟨o, ho, h⟩ := bind_ok h
    cases ok_inj h
    first | rw [ho]; rfl | exact ho

theorem deliveriesSimd_eq (isa : Isa) (E : Env ℝ) (as : List (Api ℝ)) (s : St ℝ) (h : CacheOk E s.tls) :
    deliveries (Api.callSimd isa E) as s = deliveries (Api.call E) as s := by
  induction as generalizing s with
  | nil => simp only [deliveries]
  | cons a as ih =>
    simp only [deliveries]
    rw [callSimd_eq isa E a s h]
    refine bind_post_congr (P := fun r => CacheOk E r.2.tls) ?_ fun r hr => ?_
    · intro r hr
      refine runApi_cacheOk [a] h (s' := r.2) ?_
      unfold runApi
      rw [call_run hr]
      rfl
    · rw [ih r.2 hr]

end Verif.Model
