import Verif.Spec.Sound
import Verif.Spec.Process
import Mathlib.Analysis.SpecialFunctions.Trigonometric.Basic

/-!
# Tone frames of AMBE 2450

The ideal signal of a tone, the frames that carry it, and equality of states as far as speech is concerned.
-/

namespace Verif.Spec
open Verif Verif.Model Arith

variable {F : Type} [Arith F]

/-- What is received is a tone frame with index `id`: the tone signature and at most five bit errors. -/
def ToneTx (id : Nat) : AmbeOp F → Prop
  | .v2450 _ _ e d => ToneSig d ∧ e < 6 ∧ toneIdx2450 d = id
  | .v2400 _ _ _ _ => False

/-- A call with a tone frame with index `id`, and with room for the status string. -/
def ToneFrame (id : Nat) : AmbeOp F → Prop
  | .v2450 C _ e d => Bits 49 d ∧ ToneSig d ∧ e < 6 ∧ e.toNat + 2 ≤ C.cap ∧ toneIdx2450 d = id
  | .v2400 _ _ _ _ => False

/-- A call with a tone that the table has. -/
def AudibleTone (op : AmbeOp F) : Prop := ∃ id, ToneFrame id op ∧ toneHz id ≠ none

/-- Amplitude of a tone with amplitude field `A`: full scale is 95 % of 32767, divided by the factor 7 that the conversion
to 16 bits applies. -/
noncomputable def toneLevel (A : Nat) : ℝ := (A : ℝ) / 127 * (32767 * 95 / 100 / 7)

/-- The ideal signal: at sample `N` of a tone with frequencies `a` and `b` in Hz, sampled at 8 kHz, whose oscillators start
at the phases `p` and `q` in units of `2^-32` turns. Two equal frequencies are one oscillator, two different ones have half
the amplitude each. -/
noncomputable def toneWave (a b : ℚ) (G : ℝ) (p q N : Nat) : ℝ :=
  let osc : ℚ → Nat → ℝ := fun f p => -Real.cos (2 * Real.pi * (p / 2 ^ 32 + f * N / 8000))
  if a = b then G * osc a p else G / 2 * osc a p + G / 2 * osc b q

/-- Equal as far as speech is concerned: all fields but the phases of the tone oscillators. -/
def VoiceEq (p q : Parms F) : Prop := q = { p with swn := q.swn, un := q.un }

/-- Equal as far as speech is concerned, for the current parameters between two frames: not either the fields that every
call sets at its start or in its verdict. -/
def VoiceEqCur (p q : Parms F) : Prop :=
  q = { p with swn := q.swn, un := q.un, mutingThreshold := q.mutingThreshold, errorCountTotal := q.errorCountTotal,
               errorCount4 := q.errorCount4, errorRate := q.errorRate, repeat_ := q.repeat_, repeatCount := q.repeatCount }

/-- Decoder states that are equal as far as speech is concerned. -/
def VoiceEqSt (s s' : St F) : Prop :=
  VoiceEqCur s.cur s'.cur ∧ VoiceEq s.prev s'.prev ∧ VoiceEq s.enh s'.enh ∧ s'.tls = s.tls

end Verif.Spec
