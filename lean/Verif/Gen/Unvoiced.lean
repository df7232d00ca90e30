/-! Generated by tools/gen_tables.py from /repo/src/core/mbe_unvoiced_fft.c; do not edit. -/

set_option maxRecDepth 20000

namespace Verif.Gen

/-- `Ws_synthesis`, src/core/mbe_unvoiced_fft.c:47-66, numerators over 10^3. -/
def Ws_synthesis : List Int :=
 [0, 20, 40, 60, 80, 100, 120, 140, 160, 180, 200, 220, 240, 260, 280, 300, 320, 340, 360, 380, 400, 420, 440,
  460, 480, 500, 520, 540, 560, 580, 600, 620, 640, 660, 680, 700, 720, 740, 760, 780, 800, 820, 840, 860, 880,
  900, 920, 940, 960, 980, 1000, 1000, 1000, 1000, 1000, 1000, 1000, 1000, 1000, 1000, 1000, 1000, 1000, 1000,
  1000, 1000, 1000, 1000, 1000, 1000, 1000, 1000, 1000, 1000, 1000, 1000, 1000, 1000, 1000, 1000, 1000, 1000,
  1000, 1000, 1000, 1000, 1000, 1000, 1000, 1000, 1000, 1000, 1000, 1000, 1000, 1000, 1000, 1000, 1000, 1000,
  1000, 1000, 1000, 1000, 1000, 1000, 1000, 1000, 1000, 1000, 1000, 1000, 1000, 1000, 1000, 1000, 1000, 1000,
  1000, 1000, 1000, 1000, 1000, 1000, 1000, 1000, 1000, 1000, 1000, 1000, 1000, 1000, 1000, 1000, 1000, 1000,
  1000, 1000, 1000, 1000, 1000, 1000, 1000, 1000, 1000, 1000, 1000, 1000, 1000, 1000, 1000, 1000, 1000, 1000,
  1000, 1000, 1000, 1000, 1000, 1000, 980, 960, 940, 920, 900, 880, 860, 840, 820, 800, 780, 760, 740, 720,
  700, 680, 660, 640, 620, 600, 580, 560, 540, 520, 500, 480, 460, 440, 420, 400, 380, 360, 340, 320, 300, 300,
  280, 260, 240, 220, 200, 180, 160, 140, 120, 100, 80, 60, 40, 20, 0]

/-- Common denominator of `Ws_synthesis` (src/core/mbe_unvoiced_fft.c:47-66). -/
def Ws_synthesis_den : Nat := 1000

end Verif.Gen
