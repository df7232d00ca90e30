import Verif.Basic
import Verif.Gen.Ecc
import Verif.Gen.EccLut

/-!
# Model of `src/ecc/ecc.c`

`uint32_t` and `int` block values are `Nat`s; shifts that can push bits out of 32 bits are
reduced modulo `2^32`. A bit plane is a function from index to the `char` stored there (an `Int`).
-/

namespace Verif.Model
open Verif Verif.Gen

/-- `(uint32_t)(in[i] & 1)`, src/ecc/ecc.c:81,122,164. -/
def bitOf (c : Int) : Nat := (c % 2).toNat

/-- `for (i = n-1; i >= 0; i--) { block <<= 1; block |= in[i] & 1; }`,
src/ecc/ecc.c:79-82 (n = 23), 120-123 and 162-165 (n = 15). -/
def packBits (n : Nat) (inp : Nat → Int) : Nat :=
  ploopDown n (fun i block => ((block <<< 1) % 2^32) ||| bitOf (inp i)) 0

/-- The loop of `mbe_checkGolayBlock` accumulating `eccexpected`; the second component is `mask`.
src/ecc/ecc.c:50-57. -/
def golayExpected (block : Nat) : Nat :=
  (golayGenerator.foldl
    (fun (s : Nat × Nat) g => (if block &&& s.2 ≠ 0 then s.1 ^^^ g else s.1, s.2 >>> 1))
    (0, 0x400000)).1

/-- `syndrome = eccexpected ^ eccbits`, src/ecc/ecc.c:58-59. -/
def golaySyndrome (block : Nat) : Nat := golayExpected block ^^^ (block &&& 0x7ff)

/-- `mbe_checkGolayBlock` on the `uint32_t` value of the block; the result is the new `*block`.
`golayMatrix[syndrome]` is a bounds-checked read. `(int)(block_u >> 11)` is at most `2^21 - 1`.
src/ecc/ecc.c:40-65. -/
def checkGolayBlockU (block : Nat) : Exec Nat := do
  let c ← tab golayMatrix (golaySyndrome block)
  .ok ((block >>> 11) ^^^ c)

/-- `mbe_checkGolayBlock`: `block_u = (uint32_t)(*block)` reduces the `long` modulo `2^32`.
src/ecc/ecc.c:40-65. -/
def checkGolayBlock (block : Int) : Exec Int := do
  let r ← checkGolayBlockU (block % 2^32).toNat
  .ok (r : Int)

/-- Result loop `for (i = n+k-1; i >= k; i--) { out[i] = (block >> top) & 1; block <<= 1; }`
with `block` a 32-bit word. src/ecc/ecc.c:88-91 (hi = 22, n = 12, top = 11), 140-143 and 182-185
(hi = 14, n = 15, top = 14). -/
def unpackBits (hi n top : Nat) (block : Nat) (out : Nat → Int) : Nat → Int :=
  (ploop n (fun k (s : (Nat → Int) × Nat) =>
    (upd s.1 (hi - k) (((s.2 &&& (2^top)) >>> top : Nat) : Int), (s.2 <<< 1) % 2^32)) (out, block)).1

/-- `mbe_golay2312`: returns the `out` array (given its previous contents) and the error count.
src/ecc/ecc.c:73-103. -/
def golay2312 (inp out : Nat → Int) : Exec ((Nat → Int) × Nat) := do
  let r ← checkGolayBlockU (packBits 23 inp)
  let out := unpackBits 22 12 11 (r % 2^32) out
  let out := ploop 11 (fun k out => upd out (10 - k) (inp (10 - k))) out
  let errs := ploop 12 (fun k errs => if out (22 - k) ≠ inp (22 - k) then errs + 1 else errs) 0
  .ok (out, errs)

/-- `stmp2` after the inner loop: parity of the low 15 bits of `stmp`.
src/ecc/ecc.c:127-132, 169-174. -/
def parity15 (stmp : Nat) : Nat :=
  (ploop 14 (fun _ (s : Nat × Nat) => (s.1 >>> 1, s.2 ^^^ ((s.1 >>> 1) &&& 1))) (stmp, stmp &&& 1)).2

/-- Syndrome loop over the four generator rows, src/ecc/ecc.c:125-134, 167-176. -/
def hammingSyndrome (gen : List Nat) (block : Nat) : Nat :=
  (gen.foldl (fun (s : Nat × Nat) g => (s.1 ||| (parity15 (block &&& g) <<< s.2), s.2 + 1)) (0, 0)).1

/-- Common body of `mbe_hamming1511` (src/ecc/ecc.c:112-145) and
`mbe_7100x4400hamming1511` (src/ecc/ecc.c:154-187). -/
def hammingWith (gen lut : List Nat) (inp out : Nat → Int) : Exec ((Nat → Int) × Nat) := do
  let block := packBits 15 inp
  let syndrome := hammingSyndrome gen block
  let (block, errs) ← if syndrome > 0 then do
      let m ← tab lut syndrome
      pure (block ^^^ m, 1)
    else pure (block, 0)
  .ok (unpackBits 14 15 14 block out, errs)

/-- `mbe_hamming1511`, src/ecc/ecc.c:112-145. -/
def hamming1511 (inp out : Nat → Int) : Exec ((Nat → Int) × Nat) :=
  hammingWith hammingGenerator ham1511_lut inp out

/-- `mbe_7100x4400hamming1511`, src/ecc/ecc.c:154-187. -/
def hamming1511_7100 (inp out : Nat → Int) : Exec ((Nat → Int) × Nat) :=
  hammingWith imbe7100x4400hammingGenerator ham1511_7100_lut inp out

end Verif.Model
