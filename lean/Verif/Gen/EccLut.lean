/-! Generated by tools/gen_tables.py from /repo/src/ecc/ecc.c; do not edit. -/

set_option maxRecDepth 20000

namespace Verif.Gen

/-- `ham1511_lut`, src/ecc/ecc.c:26-29. -/
def ham1511_lut : List Nat :=
 [0, 8, 4, 2048, 2, 512, 64, 8192, 1, 256, 32, 4096, 16, 1024, 128, 16384]

/-- `ham1511_7100_lut`, src/ecc/ecc.c:31-34. -/
def ham1511_7100_lut : List Nat :=
 [0, 8, 4, 64, 2, 512, 32, 2048, 1, 16384, 256, 8192, 16, 128, 1024, 4096]

end Verif.Gen
