import Verif.Spec.UnvoicedAcc
import Verif.Spec.Simd

/-!
# Vocabulary for whole programs on builds with vector code, in binary32
-/

namespace Verif.Spec
open Verif Verif.Model Verif.Num Arith

variable {m : Libm}

/-- As `StoredBlock`, on a build with vector code. -/
def StoredBlockSimd (isa : Isa) (u : Arr 256 (IEEE m)) : Prop :=
  (∀ i, Val (u i) 0) ∨
  ∃ (E : Env (IEEE m)) (cur prev : Parms (IEEE m)) (t : Tls (IEEE m)) (r : SynthRes (IEEE m)) (nr : NoiseRes (IEEE m)),
    synthUnmutedSimd isa E cur prev t = .ok r ∧ noiseOverlap (Arr.const 256 (fi 0)) cur.noiseSeed cur.noiseOverlap t = .ok nr ∧
    u = r.cur.previousUw ∧ UnvoicedBnd (2 ^ 32) cur ∧ ∀ A : ℚ, 0 ≤ A → A ≤ 2 ^ 32 → UnvoicedBnd A cur →
      (∀ i, Bnd (u i) (148 * A + 1 / 2 ^ 78)) ∧
      ShapedNoise (A / 10 + 1 / 2 ^ 80) (valuesOf cur) (windowed nr.buf) (seqOf fun n => number (u n))

/-- A frame is completely described: the samples are, up to the stated error, the clipped sum of the exact contributions of the
voiced harmonics and, if there was memory for the plan, of the overlap-add of two unvoiced blocks; both blocks are shaped noise. -/
def HeardSimd (isa : Isa) (E : Env (IEEE m)) (pcm : Arr 160 (IEEE m)) : Prop :=
  ∃ cur prev t r nr, synthUnmutedSimd isa E cur prev t = .ok r ∧ pcm = r.out ∧ (9 ≤ cur.L ∧ cur.L ≤ 56) ∧ (9 ≤ prev.L ∧ prev.L ≤ 56) ∧
    noiseOverlap (Arr.const 256 (fi 0)) cur.noiseSeed cur.noiseOverlap t = .ok nr ∧
    StoredBlockSimd isa prev.previousUw ∧ UnvoicedBnd (2 ^ 32) cur ∧
    ∀ A : ℚ, 0 ≤ A → A ≤ 2 ^ 32 → UnvoicedBnd A cur →
      (r.tls.plan ≠ none → (∀ i, Bnd (r.cur.previousUw i) (148 * A + 1 / 2 ^ 78)) ∧
        ShapedNoise (A / 10 + 1 / 2 ^ 80) (valuesOf cur) (windowed nr.buf) (seqOf fun n => number (r.cur.previousUw n))) ∧
      ((∀ i, Bnd (prev.previousUw i) (148 * A + 1 / 2 ^ 78)) →
        ∃ x : Fin 57 → Fin 160 → ℝ,
          (∀ l : Fin 57, 1 ≤ l.val → (l.val : Int) ≤ max cur.L prev.L →
            ContributionWithin (1 / 2 ^ 20) (1 / 1000) (valuesOf r.cur) (valuesOf r.prev) l (x l)) ∧
          (∀ l : Fin 57, l.val < 1 ∨ max cur.L prev.L < l.val → x l = fun _ => 0) ∧
          ∀ n, ∃ v : ℚ, Val (pcm n) v ∧
            |(v : ℝ) - clipTo (32767 * (95 / 100) / 7) (∑ l, x l n + if r.tls.plan ≠ none then
                overlapAdd (valuesOf prev).previousUw (valuesOf r.cur).previousUw (n.val : Int) else 0)| ≤
              (voicedSum prev.L (valuesOf prev) + voicedSum cur.L (valuesOf cur)) / 140 + A / 200 + 1 / 3900)

/-- The result of one IMBE call on such a build; as in `Op.runSimd`. -/
def ImbeOp.outSimd {F : Type} [Arith F] (isa : Isa) (E : Env F) : ImbeOp F → St F → Exec (Out F)
  | ⟨C, none, e, d⟩, s => processImbe4400Simd isa E C none e d s
  | ⟨C, some c, e, d⟩, s => processImbe4400Simd isa E C (some c.1) e d { s with cur := { s.cur with errorCount4 := c.2 } }

/-- The result of one AMBE call on such a build. -/
def AmbeOp.outSimd {F : Type} [Arith F] (isa : Isa) (E : Env F) : AmbeOp F → St F → Exec (Out F)
  | .v2450 C c0 e d, s => processAmbe2450Simd isa E C c0 e d s
  | .v2400 C c0 e d, s => processAmbe2400Simd isa E C c0 e d s

end Verif.Spec
