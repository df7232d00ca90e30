import Verif.Arr

/-!
# Model of the version functions

`src/core/mbelib.c:168-188`. The version is an arbitrary C string (`MBELIB_VERSION` is set by the build).
-/

namespace Verif.Model
open Verif

/-- The characters of a C string stored in a list: everything before the first NUL. The result of src/core/mbelib.c:179-179. -/
def cstr (s : List Int) : List Int := s.takeWhile (· ≠ 0)

/-- `snprintf(str, size, "%s", src)` (C17 7.21.6.5) for `size > 0` and an array of `n` chars at `str`: at most
`size - 1` characters, then a NUL. src/core/mbelib.c:179-179. -/
def snprintfS {n : Nat} (str : Arr n Int) (size : Nat) (src : List Int) : Exec (Arr n Int) := do
  let k := min (cstr src).length (size - 1)
  let str ← loop k (fun i str => do str.wr i ((cstr src).getD i 0)) str
  str.wr k 0

/-- `mbe_printVersion`, src/core/mbelib.c:173-180; `none` is a null pointer. -/
def printVersion {n : Nat} (version : List Int) (str : Option (Arr n Int)) : Exec (Option (Arr n Int)) :=
  match str with
  | none => .ok none
  | some a => do .ok (some (← snprintfS a 32 version))

/-- `mbe_versionString`, src/core/mbelib.c:185-188. -/
def versionString (version : List Int) : List Int := version

end Verif.Model
