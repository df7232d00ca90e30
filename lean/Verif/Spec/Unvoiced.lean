import Verif.Model.Synth

/-!
# Specification vocabulary for unvoiced synthesis and overlap-add
-/

namespace Verif.Spec
open Verif Verif.Gen Verif.Model Arith

variable {F : Type} [Arith F]

/-- An element, or zero outside the array. -/
def readOr (a : Arr 256 F) (i : Int) : F := if h : 0 ≤ i ∧ i < 256 then a ⟨i.toNat, by omega⟩ else lit 0 1

/-- The synthesis window at offset `n` from its centre; zero beyond ±105. -/
def winAt (n : Int) : F :=
  if n < -105 ∨ n > 105 then lit 0 1 else lit (Ws_synthesis.getD (n + 105).toNat 0) Ws_synthesis_den

/-- One sample of the overlap-add at offset `n` from the centre of the previous frame: both frames weighted by the
window, divided by the sum of the squared weights. -/
def overlapAdd (p c : Arr 256 F) (n : Int) : F :=
  ((winAt n *ᶠ readOr p (n + 128)) +ᶠ (winAt (n - 160) *ᶠ readOr c (n - 160 + 128))) /ᶠ
    ((winAt n *ᶠ winAt n) +ᶠ (winAt (n - 160) *ᶠ winAt (n - 160)))

/-- The bin that an element of the packed spectrum belongs to: elements 0 and 1 are the real bins 0 and 128, elements
`2k` and `2k+1` bin `k`. -/
def binOf (i : Nat) : Nat := if i = 0 then 0 else if i = 1 then 128 else i / 2

/-- Power of one spectral bin. -/
def binPower (fft : Arr 256 F) (k : Nat) : F :=
  if k = 0 then readOr fft 0 *ᶠ readOr fft 0
  else if k = 128 then readOr fft 1 *ᶠ readOr fft 1
  else (readOr fft (2 * (k : Int)) *ᶠ readOr fft (2 * (k : Int))) +ᶠ
    (readOr fft (2 * (k : Int) + 1) *ᶠ readOr fft (2 * (k : Int) + 1))

/-- Sum of the powers of bins `a .. b-1`, in this order. -/
def bandPower (fft : Arr 256 F) (a b : Int) : F :=
  (List.range (b - a).toNat).foldl (fun s i => s +ᶠ binPower fft (a.toNat + i)) (lit 0 1)

/-- The bins of band `l` are `max 0 a .. min 128 b - 1` where `a` and `b` are `⌈(l ∓ 0.5) · 256 w0 / 2π⌉`. -/
def Edges (w0 : F) (l : Nat) (lo hi : Int) : Prop :=
  ∃ a b : Int, toI32 (ceil ((ofInt (l : Int) -ᶠ lit 5 10) *ᶠ binMultiplier w0)) = .ok a ∧
    toI32 (ceil ((ofInt (l : Int) +ᶠ lit 5 10) *ᶠ binMultiplier w0)) = .ok b ∧ lo = max 0 a ∧ hi = min 128 b

/-- Band `l` with bins `lo l .. hi l - 1` determines the gain `v` of bin `k`: it is unvoiced, the bin is one of its bins,
its noise power `p` is above 1e-10, and the gain is `146.17696 · Ml / sqrt (p / number of bins)`. -/
def Owns (Vl : Arr 57 Int) (Ml : Arr 57 F) (fft : Arr 256 F) (lo hi : Nat → Int) (l : Fin 57) (k : Nat) (v : F) : Prop :=
  Vl l = 0 ∧ lo l.val ≤ k ∧ (k : Int) < hi l.val ∧ lt (lit 1 10000000000) (bandPower fft (lo l.val) (hi l.val)) = true ∧
    v = (lit 14617696 100000 *ᶠ Ml l) /ᶠ sqrt (bandPower fft (lo l.val) (hi l.val) /ᶠ ofInt (hi l.val - lo l.val))

/-- The gain of bin `k`, bands `1 .. n` considered: that of the last band that determines it, else zero. -/
def GainAt (Vl : Arr 57 Int) (Ml : Arr 57 F) (fft : Arr 256 F) (lo hi : Nat → Int) (n k : Nat) (v : F) : Prop :=
  (v = fi 0 ∧ ∀ l : Fin 57, 1 ≤ l.val → l.val ≤ n → ∀ v', ¬ Owns Vl Ml fft lo hi l k v') ∨
  ∃ l : Fin 57, 1 ≤ l.val ∧ l.val ≤ n ∧ Owns Vl Ml fft lo hi l k v ∧
    ∀ l' : Fin 57, l.val < l'.val → l'.val ≤ n → ∀ v', ¬ Owns Vl Ml fft lo hi l' k v'

end Verif.Spec
