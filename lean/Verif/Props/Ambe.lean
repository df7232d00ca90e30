import Verif.Lemmas.AmbeDecode

/-!
# Properties of the AMBE parameter decoders (C17 - C20)

`IEEE m` is binary32/binary64 arithmetic with an arbitrary libm `m`. The payload is any 49 bits.
-/

namespace Verif.Props
open Verif Verif.Spec Verif.Model Verif.Num Verif.Gen

variable {m : Libm}

/-- A payload used in the examples: first field 0 in both codecs (`L = 9`), the remaining bits set. -/
def sampleAmbe : Nat → Int := fun i => if i < 6 ∨ i = 37 ∨ i = 38 ∨ i = 39 ∨ i = 48 then 0 else 1

theorem sampleAmbe_bits : Bits 49 sampleAmbe := by
  intro i _; unfold sampleAmbe; split
  · exact .inl rfl
  · exact .inr rfl

/-- A frame carrying a tone in both codecs: six ones, then D-STAR tone index 65 (bits 6-8 = 011 select 2). -/
def sampleTone : Nat → Int := fun i => if i < 6 ∨ i = 7 ∨ i = 8 ∨ i = 11 then 1 else 0

theorem sampleTone_bits : Bits 49 sampleTone := by
  intro i _; unfold sampleTone; split
  · exact .inr rfl
  · exact .inl rfl

/-! ## C17 -/

/-- With the adjacent member supplying the value of `log2Ml[57]`, the AMBE 2450 decoder performs no undefined
operation, for every payload, error count and previous frame with at most 56 harmonics. -/
theorem C17_decode_safe (d : Nat → Int) (hd : Bits 49 d) (e : Int) (cur prev : Parms (IEEE m)) (t : Tls (IEEE m))
    (h0 : 0 ≤ prev.L) (h1 : prev.L ≤ 56) : ∃ r, decodeAmbe2450 true d e cur prev t = .ok r := by
  obtain ⟨k1, k2⟩ := decodeAmbe2450_eq hd true e cur prev t
  obtain ⟨p, hp⟩ : ∃ p : Nat, prev.L = (p : Int) := ⟨prev.L.toNat, by omega⟩
  by_cases c : ToneSig d ∧ e < 6
  · exact ⟨_, k1 c⟩
  · obtain ⟨k3, k4⟩ := k2 c
    by_cases c2 : 120 ≤ ambeFund2450 d ∧ ambeFund2450 d ≠ 124 ∧ ambeFund2450 d ≠ 125
    · exact ⟨_, k3 c2⟩
    · have hb : ambeFund2450 d < 120 ∨ ambeFund2450 d = 124 ∨ ambeFund2450 d = 125 := by omega
      rw [k4 hb]
      exact ((ambe2450Voice_split hd hb _ prev t hp (by omega)).1 (.inl rfl)).elim

/-- As written, the AMBE 2450 decoder is undefined exactly when the previous frame has 56 harmonics and the current one
is decoded as speech or silence with a number of harmonics other than 23 and 46. -/
theorem C17_decode_exception (d : Nat → Int) (hd : Bits 49 d) (e : Int) (cur prev : Parms (IEEE m)) (t : Tls (IEEE m))
    (h0 : 0 ≤ prev.L) (h1 : prev.L ≤ 56) :
    if prev.L = 56 ∧ ¬ (ToneSig d ∧ e < 6) ∧ (ambeFund2450 d < 120 ∨ ambeFund2450 d = 124 ∨ ambeFund2450 d = 125) ∧
        ambeHarmonics2450 (ambeFund2450 d) ≠ 23 ∧ ambeHarmonics2450 (ambeFund2450 d) ≠ 46
    then decodeAmbe2450 false d e cur prev t = .error .oobRead
    else ∃ r, decodeAmbe2450 false d e cur prev t = .ok r ∧ decodeAmbe2450 true d e cur prev t = .ok r := by
  obtain ⟨k1, k2⟩ := decodeAmbe2450_eq hd false e cur prev t
  obtain ⟨p, hp⟩ : ∃ p : Nat, prev.L = (p : Int) := ⟨prev.L.toNat, by omega⟩
  have hlax : ∀ r, decodeAmbe2450 false d e cur prev t = .ok r → ∃ r, decodeAmbe2450 false d e cur prev t = .ok r ∧
      decodeAmbe2450 true d e cur prev t = .ok r :=
    fun r h => ⟨r, h, (decodeAmbe2450_lax d e cur prev t).ok h⟩
  by_cases c : ToneSig d ∧ e < 6
  · rw [if_neg (fun x => x.2.1 c)]
    exact hlax _ (k1 c)
  · obtain ⟨k3, k4⟩ := k2 c
    by_cases c2 : 120 ≤ ambeFund2450 d ∧ ambeFund2450 d ≠ 124 ∧ ambeFund2450 d ≠ 125
    · rw [if_neg (fun x => by omega)]
      exact hlax _ (k3 c2)
    · have hb : ambeFund2450 d < 120 ∨ ambeFund2450 d = 124 ∨ ambeFund2450 d = 125 := by omega
      have hL : 9 ≤ ambeHarmonics2450 (ambeFund2450 d) ∧ ambeHarmonics2450 (ambeFund2450 d) ≤ 56 := by
        obtain ⟨_, _, L, _, _, hL, h9, h56, _⟩ := ambe2450Header_ok (m := m) hb cur
        omega
      obtain ⟨L, hL'⟩ : ∃ L : Nat, ambeHarmonics2450 (ambeFund2450 d) = (L : Int) := ⟨_, (Int.toNat_of_nonneg (by omega)).symm⟩
      obtain ⟨v1, v2⟩ := ambe2450Voice_split (lax := false) hd hb { cur with repeat_ := prev.repeat_ } prev t hp (by omega)
      rw [hL', Int.toNat_natCast] at v1 v2
      have hover := Kl_over (p := p) (L := L) (by omega) (by omega) (by omega)
      by_cases hc : prev.L = 56 ∧ ambeHarmonics2450 (ambeFund2450 d) ≠ 23 ∧ ambeHarmonics2450 (ambeFund2450 d) ≠ 46
      · rw [if_pos ⟨hc.1, c, hb, hc.2⟩, k4 hb]
        exact v2 rfl (hover.mpr ⟨by omega, by omega, by omega⟩)
      · rw [if_neg (fun x => hc ⟨x.1, x.2.2.2⟩)]
        have hno : NoOver false p L := by
          right
          have hne : Kl p L L ≠ 56 := by
            intro e
            obtain ⟨a, b, c⟩ := hover.mp e
            exact hc ⟨by omega, by omega, by omega⟩
          have := (Kl_range (p := p) (L := L) (l := L) (by omega) (by omega) (by omega) (le_refl _)).2
          omega
        obtain ⟨r, hr, _⟩ := v1 hno
        exact hlax r ((k4 hb).trans hr)

example (cur prev : Parms (IEEE m)) (t : Tls (IEEE m)) (h : prev.L = 56) :
    decodeAmbe2450Public false sampleAmbe cur prev t = .error .oobRead := by
  have h' := C17_decode_exception sampleAmbe sampleAmbe_bits (-1) cur prev t (by omega) (by omega)
  rw [if_pos] at h'
  · exact h'
  · have e : ambeFund2450 sampleAmbe = 0 := by decide
    rw [e]
    refine ⟨h, fun x => ?_, .inl (by decide), by decide, by decide⟩
    have := x.1.1 0 (by decide)
    revert this
    decide

/-! ## C18 -/

/-- The accuracy hypothesis on `exp2f` is satisfiable. -/
theorem C18_hypothesis_satisfiable : ∃ m : Libm, Exp2Acc m := by
  classical
  have key : ∀ y : ℚ, ∃ r : ℚ, |(r : ℝ) - (2 : ℝ) ^ (y : ℝ)| ≤ (2 : ℝ) ^ (y : ℝ) / 1000 := by
    intro y
    have hp : 0 < (2 : ℝ) ^ (y : ℝ) := Real.rpow_pos_of_pos (by norm_num) _
    obtain ⟨r, h1, h2⟩ := exists_rat_btwn (show (2 : ℝ) ^ (y : ℝ) < (2 : ℝ) ^ (y : ℝ) + (2 : ℝ) ^ (y : ℝ) / 1000 by linarith)
    exact ⟨r, by rw [abs_le]; constructor <;> linarith⟩
  let ex : FP → FP := fun x => match x with
    | .fin _ y => .fin false (key y).choose
    | x => x
  refine ⟨⟨id, id, ex, id, id⟩, ?_⟩
  rintro x y ⟨s, rfl⟩ _ _
  exact ⟨_, ⟨false, rfl⟩, (key y).choose_spec⟩

/-- Same as C17 for AMBE 2400 (D-STAR), provided `exp2f` is accurate to one per mille where it is used. -/
theorem C18_decode_safe (hm : Exp2Acc m) (d : Nat → Int) (hd : Bits 49 d) (cur prev : Parms (IEEE m)) (t : Tls (IEEE m))
    (h0 : 0 ≤ prev.L) (h1 : prev.L ≤ 56) : ∃ r, decodeAmbe2400 true d cur prev t = .ok r := by
  obtain ⟨k1, k2⟩ := decodeAmbe2400_eq hd true cur prev t
  obtain ⟨p, hp⟩ : ∃ p : Nat, prev.L = (p : Int) := ⟨prev.L.toNat, by omega⟩
  by_cases c : ambeFund2400 d < 126
  · rw [k1 c]
    exact ((ambe2400Voice_split hm hd c _ prev t hp (by omega)).1 (.inl rfl)).elim
  · obtain ⟨k3, k4, k5⟩ := k2 (by omega)
    by_cases c1 : 5 ≤ toneIdx2400 d ∧ toneIdx2400 d ≤ 122
    · exact ⟨_, k3 c1⟩
    · by_cases c2 : 128 ≤ toneIdx2400 d ∧ toneIdx2400 d ≤ 163
      · exact ⟨_, k4 c2⟩
      · exact (k5 ⟨c1, c2⟩).elim

/-- The exact condition under which the AMBE 2400 decoder is undefined. -/
theorem C18_decode_exception (hm : Exp2Acc m) (d : Nat → Int) (hd : Bits 49 d) (cur prev : Parms (IEEE m))
    (t : Tls (IEEE m)) (h0 : 0 ≤ prev.L) (h1 : prev.L ≤ 56) :
    if prev.L = 56 ∧ ambeFund2400 d < 126 ∧ AmbePlusLtable.getD (ambeFund2400 d) 0 ≠ 23 ∧
        AmbePlusLtable.getD (ambeFund2400 d) 0 ≠ 46
    then decodeAmbe2400 false d cur prev t = .error .oobRead
    else ∃ r, decodeAmbe2400 false d cur prev t = .ok r ∧ decodeAmbe2400 true d cur prev t = .ok r := by
  obtain ⟨k1, k2⟩ := decodeAmbe2400_eq hd false cur prev t
  obtain ⟨p, hp⟩ : ∃ p : Nat, prev.L = (p : Int) := ⟨prev.L.toNat, by omega⟩
  have hlax : ∀ r, decodeAmbe2400 false d cur prev t = .ok r → ∃ r, decodeAmbe2400 false d cur prev t = .ok r ∧
      decodeAmbe2400 true d cur prev t = .ok r :=
    fun r h => ⟨r, h, (decodeAmbe2400_lax d cur prev t).ok h⟩
  by_cases c : ambeFund2400 d < 126
  · have hL := ltabPlus_check _ c
    obtain ⟨v1, v2⟩ := ambe2400Voice_split hm (lax := false) hd c { cur with repeat_ := prev.repeat_ } prev t hp (by omega)
    rw [k1 c] at hlax ⊢
    set H := AmbePlusLtable.getD (ambeFund2400 d) 0
    obtain ⟨L, hL'⟩ : ∃ L : Nat, H = (L : Int) := ⟨_, (Int.toNat_of_nonneg (by omega)).symm⟩
    rw [hL', Int.toNat_natCast] at v1 v2
    have hover := Kl_over (p := p) (L := L) (by omega) (by omega) (by omega)
    by_cases hc : prev.L = 56 ∧ H ≠ 23 ∧ H ≠ 46
    · rw [if_pos ⟨hc.1, c, hc.2⟩]
      exact v2 rfl (hover.mpr ⟨by omega, by omega, by omega⟩)
    · rw [if_neg (fun x => hc ⟨x.1, x.2.2⟩)]
      have hno : NoOver false p L := by
        right
        have hne : Kl p L L ≠ 56 := by
          intro e
          obtain ⟨a, b, c⟩ := hover.mp e
          exact hc ⟨by omega, by omega, by omega⟩
        have := (Kl_range (p := p) (L := L) (l := L) (by omega) (by omega) (by omega) (le_refl _)).2
        omega
      obtain ⟨r, hr, _⟩ := v1 hno
      exact hlax r hr
  · rw [if_neg (fun x => c x.2.1)]
    obtain ⟨k3, k4, k5⟩ := k2 (by omega)
    by_cases c1 : 5 ≤ toneIdx2400 d ∧ toneIdx2400 d ≤ 122
    · exact hlax _ (k3 c1)
    · by_cases c2 : 128 ≤ toneIdx2400 d ∧ toneIdx2400 d ≤ 163
      · exact hlax _ (k4 c2)
      · obtain ⟨r, hr, _⟩ := k5 ⟨c1, c2⟩
        exact hlax r hr

example (hm : Exp2Acc m) (cur prev : Parms (IEEE m)) (t : Tls (IEEE m)) (h : prev.L = 56) :
    decodeAmbe2400 false sampleAmbe cur prev t = .error .oobRead := by
  have h' := C18_decode_exception hm sampleAmbe sampleAmbe_bits cur prev t (by omega) (by omega)
  rw [if_pos] at h'
  · exact h'
  · have e : ambeFund2400 sampleAmbe = 0 := by decide
    rw [e]
    exact ⟨h, by decide, by decide, by decide⟩

/-! ## C19 -/

/-- Return value of the AMBE 2450 decoder, in every arithmetic. `e` is the known number of bit errors; the public
function passes -1. Non-speech frames change nothing but `repeat_`. -/
theorem C19_classification {F : Type} [Arith F] (lax : Bool) (d : Nat → Int) (hd : Bits 49 d) (e : Int)
    (cur prev : Parms F) (t : Tls F) (r : DecodeRes F) (hr : decodeAmbe2450 lax d e cur prev t = .ok r) :
    r.bad = (if ToneSig d ∧ e < 6 then 7
      else if 120 ≤ ambeFund2450 d ∧ ambeFund2450 d ≠ 124 ∧ ambeFund2450 d ≠ 125 then 2 else 0) ∧
    (r.bad ≠ 0 → r = ⟨r.bad, { cur with repeat_ := prev.repeat_ }, prev, t⟩) := by
  obtain ⟨k1, k2⟩ := decodeAmbe2450_eq hd lax e cur prev t
  by_cases c : ToneSig d ∧ e < 6
  · rw [k1 c] at hr
    cases hr
    rw [if_pos c]
    exact ⟨rfl, fun _ => rfl⟩
  · obtain ⟨k3, k4⟩ := k2 c
    rw [if_neg c]
    by_cases c2 : 120 ≤ ambeFund2450 d ∧ ambeFund2450 d ≠ 124 ∧ ambeFund2450 d ≠ 125
    · rw [k3 c2] at hr
      cases hr
      rw [if_pos c2]
      exact ⟨rfl, fun _ => rfl⟩
    · rw [k4 (by omega)] at hr
      rw [if_neg c2]
      obtain ⟨_, _, hb, _⟩ := ambe2450Voice_frame lax d _ _ prev t r hr
      exact ⟨hb, fun h => absurd hb h⟩

/-- The public function reports a tone exactly when the tone signature is present. -/
theorem C19_tone_iff {F : Type} [Arith F] (lax : Bool) (d : Nat → Int) (hd : Bits 49 d) (cur prev : Parms F) (t : Tls F)
    (r : DecodeRes F) (hr : decodeAmbe2450Public lax d cur prev t = .ok r) : r.bad = 7 ↔ ToneSig d := by
  have h := (C19_classification lax d hd (-1) cur prev t r hr).1
  rw [h]
  by_cases c : ToneSig d
  · rw [if_pos ⟨c, by decide⟩]; simp [c]
  · rw [if_neg (fun x => c x.1)]
    split <;> simp [c]

/-- A speech or silence frame sets `L` and the voicing decisions of the harmonics `1 .. L`: the first from the table,
the second from row `b1` of the voicing table at the column of the harmonic's frequency `l * 16 * f0` (in `float`
arithmetic); silence is entirely unvoiced. -/
theorem C19_speech_parameters (d : Nat → Int) (hd : Bits 49 d) (e : Int) (cur prev : Parms (IEEE m)) (t : Tls (IEEE m))
    (h0 : 0 ≤ prev.L) (h1 : prev.L ≤ 56) (lax : Bool) (r : DecodeRes (IEEE m))
    (hr : decodeAmbe2450 lax d e cur prev t = .ok r) (hb : r.bad = 0) :
    r.cur.L = ambeHarmonics2450 (ambeFund2450 d) ∧ 9 ≤ r.cur.L ∧ r.cur.L ≤ 56 ∧
    ∀ l : Fin 57, r.cur.Vl l = if 1 ≤ l.val ∧ (l.val : Int) ≤ r.cur.L then
        (if ambeFund2450 d = 124 ∨ ambeFund2450 d = 125 then 0 else
          (((AmbeVuv.getD (fieldVal d [4, 5, 6, 7, 35]) []).getD
            ⌊rnd F32 ((l.val : ℚ) * 16 * rnd F32 (rnd F64 (mkRat (AmbeW0table.getD (ambeFund2450 d) 0) 1000000)))⌋.toNat 0 : Nat) : Int))
      else cur.Vl l := by
  have hlax : decodeAmbe2450 true d e cur prev t = .ok r := by
    cases lax with
    | true => exact hr
    | false => exact (decodeAmbe2450_lax d e cur prev t).ok hr
  have hcl := (C19_classification true d hd e cur prev t r hlax).1
  rw [hb] at hcl
  by_cases c : ToneSig d ∧ e < 6
  · rw [if_pos c] at hcl; omega
  rw [if_neg c] at hcl
  by_cases c2 : 120 ≤ ambeFund2450 d ∧ ambeFund2450 d ≠ 124 ∧ ambeFund2450 d ≠ 125
  · rw [if_pos c2] at hcl; omega
  have hbf : ambeFund2450 d < 120 ∨ ambeFund2450 d = 124 ∨ ambeFund2450 d = 125 := by omega
  rw [((decodeAmbe2450_eq hd true e cur prev t).2 c).2 hbf] at hlax
  obtain ⟨p, hp⟩ : ∃ p : Nat, prev.L = (p : Int) := ⟨prev.L.toNat, by omega⟩
  obtain ⟨_, hL, _, hV⟩ := ((ambe2450Voice_split hd hbf _ prev t hp (by omega)).1 (.inl rfl)).of_eq hlax
  have hLr : 9 ≤ ambeHarmonics2450 (ambeFund2450 d) ∧ ambeHarmonics2450 (ambeFund2450 d) ≤ 56 := by
    obtain ⟨_, _, L, _, _, hL, h9, h56, _⟩ := ambe2450Header_ok (m := m) hbf cur
    omega
  refine ⟨hL, by omega, by omega, fun l => ?_⟩
  rw [hV l, hL]
  rfl

example : ToneSig sampleTone ∧ ¬ ToneSig sampleAmbe ∧ ambeFund2450 sampleTone = 120 ∧ ambeFund2450 sampleAmbe = 0 := by
  refine ⟨⟨by decide, .inl (by decide)⟩, fun h => ?_, by decide, by decide⟩
  have := h.1 0 (by decide)
  revert this
  decide

/-! ## C20 -/

/-- Return value of the AMBE 2400 decoder, in every arithmetic. -/
theorem C20_classification {F : Type} [Arith F] (lax : Bool) (d : Nat → Int) (hd : Bits 49 d) (cur prev : Parms F)
    (t : Tls F) (r : DecodeRes F) (hr : decodeAmbe2400 lax d cur prev t = .ok r) :
    r.bad = (if ambeFund2400 d < 126 then 0 else if 5 ≤ toneIdx2400 d ∧ toneIdx2400 d ≤ 122 then (toneIdx2400 d : Int) else 3) ∧
    (126 ≤ ambeFund2400 d → r.prev = prev ∧ r.tls = t) := by
  obtain ⟨k1, k2⟩ := decodeAmbe2400_eq hd lax cur prev t
  by_cases c : ambeFund2400 d < 126
  · rw [k1 c] at hr
    rw [if_pos c]
    exact ⟨(ambe2400Voice_frame lax d _ _ prev t r hr).2.2.1, fun h => by omega⟩
  · rw [if_neg c]
    obtain ⟨k3, k4, k5⟩ := k2 (by omega)
    by_cases c1 : 5 ≤ toneIdx2400 d ∧ toneIdx2400 d ≤ 122
    · rw [k3 c1] at hr
      cases hr
      rw [if_pos c1]
      exact ⟨rfl, fun _ => ⟨rfl, rfl⟩⟩
    · rw [if_neg c1]
      by_cases c2 : 128 ≤ toneIdx2400 d ∧ toneIdx2400 d ≤ 163
      · rw [k4 c2] at hr
        cases hr
        exact ⟨rfl, fun _ => ⟨rfl, rfl⟩⟩
      · obtain ⟨hb, hp, ht, _⟩ := (k5 ⟨c1, c2⟩).of_eq hr
        exact ⟨hb, fun _ => ⟨hp, ht⟩⟩

/-- Every single-tone index 5 .. 122 is carried by some frame, so each return value of the statement above occurs. -/
theorem C20_every_tone_index : ∀ k : Nat, 5 ≤ k → k ≤ 122 →
    ∃ d : Nat → Int, Bits 49 d ∧ 126 ≤ ambeFund2400 d ∧ toneIdx2400 d = k := by
  intro k h5 h122
  let hi : Nat := k / 32
  let lo : Nat := k % 32
  let d : Nat → Int := fun i =>
    if i < 6 then 1
    else if i = 6 then ((hi + 1) / 4 % 2 : Nat) else if i = 7 then ((hi + 1) / 2 % 2 : Nat) else if i = 8 then ((hi + 1) % 2 : Nat)
    else if i = 9 then (lo / 16 % 2 : Nat) else if i = 42 then (lo / 8 % 2 : Nat) else if i = 43 then (lo / 4 % 2 : Nat)
    else if i = 10 then (lo / 2 % 2 : Nat) else if i = 11 then (lo % 2 : Nat) else 0
  refine ⟨d, ?_, ?_, ?_⟩
  · intro i _
    have : ∀ n : Nat, ((n % 2 : Nat) : Int) = 0 ∨ ((n % 2 : Nat) : Int) = 1 := by intro n; omega
    show (if i < 6 then (1 : Int) else _) = 0 ∨ (if i < 6 then (1 : Int) else _) = 1
    repeat' split
    all_goals first | exact .inr rfl | exact .inl rfl | exact this _
  · show 126 ≤ fieldVal d [0, 1, 2, 3, 4, 5, 48]
    simp [fieldVal, d]
  · revert h5 h122
    have : ∀ k < 123, 5 ≤ k → toneIdx2400 (fun i =>
        if i < 6 then 1
        else if i = 6 then ((k / 32 + 1) / 4 % 2 : Nat) else if i = 7 then ((k / 32 + 1) / 2 % 2 : Nat) else if i = 8 then ((k / 32 + 1) % 2 : Nat)
        else if i = 9 then (k % 32 / 16 % 2 : Nat) else if i = 42 then (k % 32 / 8 % 2 : Nat) else if i = 43 then (k % 32 / 4 % 2 : Nat)
        else if i = 10 then (k % 32 / 2 % 2 : Nat) else if i = 11 then (k % 32 % 2 : Nat) else 0) = k := by decide +kernel
    intro h5 h122
    exact this k (by omega) h5

/-- D-STAR speech frame parameters. -/
theorem C20_speech_parameters (hm : Exp2Acc m) (lax : Bool) (d : Nat → Int) (hd : Bits 49 d) (cur prev : Parms (IEEE m))
    (t : Tls (IEEE m)) (h0 : 0 ≤ prev.L) (h1 : prev.L ≤ 56) (r : DecodeRes (IEEE m))
    (hr : decodeAmbe2400 lax d cur prev t = .ok r) (hb : r.bad = 0) :
    ambeFund2400 d < 126 ∧ r.cur.L = AmbePlusLtable.getD (ambeFund2400 d) 0 ∧ 9 ≤ r.cur.L ∧ r.cur.L ≤ 56 := by
  have hlax : decodeAmbe2400 true d cur prev t = .ok r := by
    cases lax with
    | true => exact hr
    | false => exact (decodeAmbe2400_lax d cur prev t).ok hr
  have hcl := (C20_classification true d hd cur prev t r hlax).1
  rw [hb] at hcl
  have c : ambeFund2400 d < 126 := by
    by_contra c
    rw [if_neg c] at hcl
    split at hcl <;> omega
  obtain ⟨p, hp⟩ : ∃ p : Nat, prev.L = (p : Int) := ⟨prev.L.toNat, by omega⟩
  rw [(decodeAmbe2400_eq hd true cur prev t).1 c] at hlax
  obtain ⟨_, hL, _⟩ := ((ambe2400Voice_split hm hd c _ prev t hp (by omega)).1 (.inl rfl)).of_eq hlax
  have := ltabPlus_check _ c
  exact ⟨c, hL, by omega, by omega⟩

example : 126 ≤ ambeFund2400 sampleTone ∧ toneIdx2400 sampleTone = 65 ∧ ambeFund2400 sampleAmbe = 0 := by decide

end Verif.Props
