import Verif.Model.Process
import Verif.Spec.Params
import Mathlib.Data.Rat.Floor

/-!
# Specification vocabulary for noise and tone generation

Generators are described as sequences of natural numbers, without reference to the decoder's variables.
-/

namespace Verif.Spec
open Verif Verif.Model Arith

variable {F : Type} [Arith F]

/-! ## `java.util.Random` (Java SE API documentation) -/

/-- The internal state after `k` calls of `next`, for a generator created with `new Random(seed)`. -/
def javaState (seed : Nat) : Nat → Nat
  | 0 => (seed ^^^ 0x5DEECE66D) % 2 ^ 48
  | k + 1 => (javaState seed k * 0x5DEECE66D + 0xB) % 2 ^ 48

/-- The result of call number `k` (from 0) of `next(bits)`. -/
def javaNext (seed bits k : Nat) : Nat := javaState seed (k + 1) / 2 ^ (48 - bits)

/-- Seed 0 stands for another constant. -/
def effectiveSeed (seed : Nat) : Nat := if seed = 0 then 0x6d25357b else seed

/-- The thread-local variables after `k` frames of comfort noise. -/
def afterComfort : Nat → Tls F → Exec (Tls F)
  | 0, t => .ok t
  | k + 1, t => do
    let r ← comfortNoisef (Arr.const 160 (fi 0)) t
    afterComfort k r.2

/-! ## The generator of the unvoiced noise -/

/-- The sequence `x' = (171 x + 11213) mod 53125`. -/
def lcgSeq (x0 : Nat) : Nat → Nat
  | 0 => x0 % 53125
  | k + 1 => (171 * lcgSeq x0 k + 11213) % 53125

/-- The noise signal: silence before time 0, the sequence afterwards. -/
def noiseSignal (x0 : Nat) (n : Int) : Nat := if n < 0 then 0 else lcgSeq x0 n.toNat

/-- Results of `k + 1` successive calls of the noise generator, each continuing with the seed and the overlap the one
before left. -/
def noiseCalls : Nat → F → Arr 96 F → Tls F → Exec (NoiseRes F)
  | 0, seed, ov, t => noiseOverlap (Arr.const 256 (fi 0)) seed ov t
  | k + 1, seed, ov, t => do
    let r ← noiseCalls k seed ov t
    noiseOverlap (Arr.const 256 (fi 0)) r.seed r.overlap r.tls

/-! ## Tones -/

/-- The phase of an oscillator with 32-bit phase accumulator `n` steps after phase `p0`. -/
def phaseAt (p0 step n : Nat) : Nat := (p0 + n * step) % 2 ^ 32

/-- Row and column of key `k` in the order 0, 1 .. 9, A, B, C, D, *, # on a 4 by 4 keypad. -/
def keyPos (k : Nat) : Nat × Nat :=
  if k = 0 then (3, 1) else if k ≤ 9 then ((k - 1) / 3, (k - 1) % 3) else if k ≤ 13 then (k - 10, 3)
  else if k = 14 then (3, 0) else (3, 2)

/-- The two frequencies of key `k`: column and row. -/
def keyHz (rows cols : List ℚ) (k : Nat) : ℚ × ℚ := (cols.getD (keyPos k).2 0, rows.getD (keyPos k).1 0)

/-- Frequencies in Hz of the tones of the AMBE+2 tone table: single tones in steps of 31.25 Hz, DTMF, KNOX and call
progress tones. -/
def toneHz (id : Nat) : Option (ℚ × ℚ) :=
  if 5 ≤ id ∧ id ≤ 122 then some (125 / 4 * id, 125 / 4 * id)
  else if 128 ≤ id ∧ id ≤ 143 then some (keyHz [697, 770, 852, 941] [1209, 1336, 1477, 1633] (id - 128))
  else if 144 ≤ id ∧ id ≤ 159 then some (keyHz [606, 672, 743, 820] [1052, 1162, 1279, 1430] (id - 144))
  else if id = 160 then some (440, 350)
  else if id = 161 then some (480, 440)
  else if id = 162 then some (620, 480)
  else if id = 163 then some (490, 350)
  else none

/-- Phase increment per sample at 8 kHz, in units of `2^-32` turns, rounded to nearest. -/
def stepHz (hz : ℚ) : Nat := ⌊hz / 8000 * 2 ^ 32 + 1 / 2⌋.toNat

/-- Index and amplitude transmitted in an AMBE 2450 tone frame. -/
def toneIdx2450 (d : Nat → Int) : Nat := fieldVal d (List.range' 12 8)
def toneAmp2450 (d : Nat → Int) : Nat := fieldVal d [6, 7, 8, 9, 10, 11, 44]

/-- Parameters after `k` frames of the tone with payload `d`. -/
def afterTone (d : Nat → Int) : Nat → Parms F → Exec (Parms F)
  | 0, p => .ok p
  | k + 1, p => do
    let r ← synthesizeTonef (Arr.const 160 (fi 0)) d p
    afterTone d k r.2

/-- Parameters after `k` frames of D-STAR tone `id`. -/
def afterToneDstar (id : Int) : Nat → Parms F → Exec (Parms F)
  | 0, p => .ok p
  | k + 1, p => do
    let r ← synthesizeTonefdstar (Arr.const 160 (fi 0)) (fun _ => 0) p id
    afterToneDstar id k r.2

end Verif.Spec
