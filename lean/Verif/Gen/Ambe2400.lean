/-! Generated by tools/gen_tables.py from /repo/src/internal/ambe3600x2400_const.h; do not edit. -/

set_option maxRecDepth 20000

namespace Verif.Gen

/-- `AmbePlusLtable`, src/internal/ambe3600x2400_const.h:26-32, numerators over 10^0. -/
def AmbePlusLtable : List Int :=
 [9, 9, 9, 9, 9, 9, 10, 10, 10, 10, 10, 10, 11, 11, 11, 11, 11, 11, 12, 12, 12, 12, 12, 13, 13, 13, 13, 13, 14,
  14, 14, 14, 15, 15, 15, 15, 16, 16, 16, 16, 17, 17, 17, 17, 18, 18, 18, 18, 19, 19, 19, 20, 20, 20, 21, 21,
  21, 22, 22, 22, 23, 23, 23, 24, 24, 24, 25, 25, 26, 26, 26, 27, 27, 28, 28, 29, 29, 30, 30, 30, 31, 31, 32,
  32, 33, 33, 34, 34, 35, 36, 36, 37, 37, 38, 38, 39, 40, 40, 41, 42, 42, 43, 43, 44, 45, 46, 46, 47, 48, 48,
  49, 50, 51, 52, 52, 53, 54, 55, 56, 56, 56, 56, 56, 56, 56, 56]

/-- Common denominator of `AmbePlusLtable` (src/internal/ambe3600x2400_const.h:26-32). -/
def AmbePlusLtable_den : Nat := 1

/-- `AmbePlusVuv`, src/internal/ambe3600x2400_const.h:37-41. -/
def AmbePlusVuv : List (List Nat) :=
 [[0, 0, 0, 0, 0, 0, 0, 0],
 [0, 0, 0, 0, 0, 0, 1, 1],
 [0, 0, 0, 0, 1, 1, 0, 0],
 [0, 0, 0, 0, 1, 1, 1, 1],
 [0, 0, 1, 1, 0, 0, 0, 0],
 [0, 0, 1, 1, 0, 0, 1, 1],
 [0, 0, 1, 1, 1, 1, 0, 0],
 [0, 0, 1, 1, 1, 1, 1, 1],
 [1, 1, 0, 0, 0, 0, 0, 0],
 [1, 1, 0, 0, 0, 0, 1, 1],
 [1, 1, 0, 0, 1, 1, 0, 0],
 [1, 1, 0, 0, 1, 1, 1, 1],
 [1, 1, 1, 1, 0, 0, 0, 0],
 [1, 1, 1, 1, 0, 0, 1, 1],
 [1, 1, 1, 1, 1, 1, 0, 0],
 [1, 1, 1, 1, 1, 1, 1, 1]]

/-- `AmbePlusLmprbl`, src/internal/ambe3600x2400_const.h:46-382. -/
def AmbePlusLmprbl : List (List Nat) :=
 [[0, 0, 0, 0],
 [0, 0, 0, 0],
 [0, 0, 0, 0],
 [0, 0, 0, 0],
 [0, 0, 0, 0],
 [0, 0, 0, 0],
 [0, 0, 0, 0],
 [0, 0, 0, 0],
 [0, 0, 0, 0],
 [2, 2, 2, 3],
 [2, 2, 3, 3],
 [2, 3, 3, 3],
 [2, 3, 3, 4],
 [3, 3, 3, 4],
 [3, 3, 4, 4],
 [3, 3, 4, 5],
 [3, 4, 4, 5],
 [3, 4, 5, 5],
 [4, 4, 5, 5],
 [4, 4, 5, 6],
 [4, 4, 6, 6],
 [4, 5, 6, 6],
 [4, 5, 6, 7],
 [5, 5, 6, 7],
 [5, 5, 7, 7],
 [5, 6, 7, 7],
 [5, 6, 7, 8],
 [5, 6, 8, 8],
 [6, 6, 8, 8],
 [6, 6, 8, 9],
 [6, 7, 8, 9],
 [6, 7, 9, 9],
 [6, 7, 9, 10],
 [7, 7, 9, 10],
 [7, 8, 9, 10],
 [7, 8, 10, 10],
 [7, 8, 10, 11],
 [8, 8, 10, 11],
 [8, 9, 10, 11],
 [8, 9, 11, 11],
 [8, 9, 11, 12],
 [8, 9, 11, 13],
 [8, 9, 12, 13],
 [8, 10, 12, 13],
 [9, 10, 12, 13],
 [9, 10, 12, 14],
 [9, 10, 13, 14],
 [9, 11, 13, 14],
 [10, 11, 13, 14],
 [10, 11, 13, 15],
 [10, 11, 14, 15],
 [10, 12, 14, 15],
 [10, 12, 14, 16],
 [11, 12, 14, 16],
 [11, 12, 15, 16],
 [11, 12, 15, 17],
 [11, 13, 15, 17]]

/-- `AmbePlusDg`, src/internal/ambe3600x2400_const.h:387-393, numerators over 10^6. -/
def AmbePlusDg : List Int :=
 [0, 118200, 215088, 421167, 590088, 749075, 879395, 996388, 1092285, 1171577, 1236572, 1313450, 1376465,
  1453342, 1516357, 1600346, 1669189, 1742847, 1803223, 1880234, 1943359, 2025067, 2092041, 2178042, 2248535,
  2331718, 2399902, 2492343, 2568115, 2658677, 2732910, 2816496, 2885010, 2956386, 3014893, 3078890, 3131348,
  3206615, 3268311, 3344785, 3407471, 3484885, 3548340, 3623339, 3684814, 3764509, 3829834, 3915298, 3985352,
  4072560, 4144043, 4231251, 4302734, 4399066, 4478027, 4572883, 4650635, 4760785, 4851074, 4972361, 5071777,
  5226203, 5352783, 5352783]

/-- Common denominator of `AmbePlusDg` (src/internal/ambe3600x2400_const.h:387-393). -/
def AmbePlusDg_den : Nat := 1000000

/-- Rows 0..63 of `AmbePlusPRBA24`, src/internal/ambe3600x2400_const.h:398-569, numerators over 10^6. -/
def AmbePlusPRBA24_rows0 : List (List Int) :=
 [[-1250000, -312500, -625000],
 [-750000, -437500, -437500],
 [-437500, -375000, -312500],
 [-437500, -625000, -500000],
 [-1000000, -187500, -187500],
 [-625000, -625000, -125000],
 [-500000, -187500, -187500],
 [-375000, -437500, -187500],
 [-1062500, -750000, -125000],
 [-625000, -312500, -62500],
 [-500000, -1000000, -62500],
 [-375000, -312500, -62500],
 [-687500, -250000, 187500],
 [-437500, -500000, 375000],
 [-375000, -375000, 62500],
 [-312500, -187500, 0],
 [-625000, -187500, -187500],
 [-500000, -62500, -250000],
 [-500000, -125000, -437500],
 [-312500, -62500, -312500],
 [-562500, -187500, -62500],
 [-375000, -187500, -62500],
 [-375000, -125000, -187500],
 [-312500, -187500, -125000],
 [-562500, 0, 125000],
 [-437500, 0, 62500],
 [-312500, -125000, 125000],
 [-312500, -62500, 0],
 [-937500, -62500, 125000],
 [-750000, -125000, 375000],
 [-437500, -62500, 250000],
 [-375000, -62500, 625000],
 [-875000, 62500, -312500],
 [-500000, 125000, -375000],
 [-312500, 62500, -250000],
 [-312500, 0, -312500],
 [-687500, 125000, -187500],
 [-437500, 62500, -62500],
 [-375000, 125000, -125000],
 [-312500, 62500, -125000],
 [-687500, 62500, -62500],
 [-437500, 187500, 62500],
 [-312500, 62500, 0],
 [-250000, 0, 125000],
 [-1312500, 62500, 312500],
 [-562500, 125000, 250000],
 [-375000, 62500, 375000],
 [-312500, 125000, 125000],
 [-1250000, 187500, -250000],
 [-687500, 437500, -375000],
 [-562500, 250000, -250000],
 [-312500, 375000, -562500],
 [-812500, 437500, -62500],
 [-625000, 187500, -62500],
 [-500000, 375000, -62500],
 [-375000, 375000, -250000],
 [-812500, 187500, 187500],
 [-562500, 625000, 62500],
 [-500000, 312500, 125000],
 [-312500, 312500, 62500],
 [-500000, 250000, 625000],
 [-375000, 250000, 312500],
 [-312500, 500000, 500000],
 [-312500, 500000, 250000]]

/-- Rows 64..127 of `AmbePlusPRBA24`, src/internal/ambe3600x2400_const.h:398-569, numerators over 10^6. -/
def AmbePlusPRBA24_rows64 : List (List Int) :=
 [[-250000, -437500, -375000],
 [-250000, -250000, -312500],
 [-250000, -687500, -312500],
 [-125000, -500000, -250000],
 [-250000, -375000, -125000],
 [-125000, -312500, -187500],
 [-125000, -250000, -250000],
 [-62500, -187500, -125000],
 [-187500, -187500, -62500],
 [-187500, -500000, 0],
 [-125000, -375000, -62500],
 [-62500, -250000, 0],
 [-250000, -312500, 250000],
 [-187500, -250000, 125000],
 [-187500, -250000, 0],
 [-125000, -625000, 187500],
 [-187500, -62500, -250000],
 [-125000, -62500, -187500],
 [-62500, 0, -312500],
 [-62500, 0, -812500],
 [-250000, -125000, -62500],
 [-250000, -62500, -125000],
 [-187500, 0, -62500],
 [-125000, -62500, -62500],
 [-187500, 0, 125000],
 [-187500, -62500, 62500],
 [-125000, -125000, 125000],
 [-125000, -187500, 62500],
 [-187500, -62500, 437500],
 [-187500, -125000, 187500],
 [-125000, 0, 187500],
 [-62500, 0, 375000],
 [-187500, 0, -187500],
 [-187500, 125000, -125000],
 [-187500, 125000, -187500],
 [-125000, 125000, -375000],
 [-250000, 187500, 0],
 [-125000, 0, -125000],
 [-62500, 0, -62500],
 [-62500, 125000, -62500],
 [-187500, 125000, 125000],
 [-187500, 62500, 0],
 [-125000, 125000, 62500],
 [-62500, 0, 0],
 [-250000, 62500, 250000],
 [-125000, 125000, 312500],
 [-125000, 125000, 125000],
 [-62500, 0, 125000],
 [-250000, 250000, -187500],
 [-187500, 687500, -187500],
 [-125000, 250000, -125000],
 [-62500, 375000, -312500],
 [-187500, 187500, -62500],
 [-187500, 437500, -62500],
 [-125000, 375000, 62500],
 [-62500, 500000, 0],
 [-250000, 250000, 187500],
 [-125000, 562500, 250000],
 [-125000, 437500, 125000],
 [-62500, 312500, 125000],
 [-250000, 187500, 437500],
 [-187500, 250000, 312500],
 [-62500, 312500, 250000],
 [-62500, 437500, 562500]]

/-- Rows 128..191 of `AmbePlusPRBA24`, src/internal/ambe3600x2400_const.h:398-569, numerators over 10^6. -/
def AmbePlusPRBA24_rows128 : List (List Int) :=
 [[-62500, -375000, -250000],
 [0, -250000, -375000],
 [62500, -250000, -312500],
 [62500, -375000, -312500],
 [0, -312500, -125000],
 [0, -250000, -62500],
 [62500, -500000, -125000],
 [62500, -250000, -187500],
 [0, -437500, 0],
 [0, -250000, 0],
 [0, -187500, 62500],
 [62500, -375000, 0],
 [-62500, -187500, 125000],
 [-62500, -375000, 62500],
 [0, -250000, 187500],
 [0, -312500, 125000],
 [-62500, -125000, -250000],
 [0, -125000, -500000],
 [0, -62500, -250000],
 [62500, -187500, -187500],
 [-62500, -125000, -62500],
 [-62500, -187500, 0],
 [0, -125000, -125000],
 [0, -187500, -125000],
 [-62500, -62500, 125000],
 [0, -125000, 0],
 [62500, -62500, 0],
 [62500, -125000, 0],
 [-62500, -125000, 437500],
 [0, -62500, 250000],
 [0, -125000, 187500],
 [62500, -187500, 312500],
 [-62500, 62500, -187500],
 [-62500, 0, -125000],
 [62500, 62500, -125000],
 [62500, 62500, -312500],
 [0, 62500, -62500],
 [0, 0, 0],
 [62500, 0, -125000],
 [62500, 125000, -125000],
 [0, 62500, 125000],
 [0, 125000, 62500],
 [62500, 0, 125000],
 [62500, 62500, 0],
 [-62500, 62500, 187500],
 [-62500, 62500, 437500],
 [0, 62500, 250000],
 [62500, 125000, 187500],
 [0, 250000, -250000],
 [0, 375000, -62500],
 [0, 187500, -125000],
 [62500, 500000, -187500],
 [0, 250000, 0],
 [0, 187500, 62500],
 [62500, 312500, 62500],
 [62500, 187500, 0],
 [-62500, 187500, 187500],
 [0, 250000, 125000],
 [62500, 375000, 187500],
 [62500, 250000, 250000],
 [-62500, 187500, 500000],
 [0, 312500, 375000],
 [0, 125000, 312500],
 [62500, 187500, 250000]]

/-- Rows 192..255 of `AmbePlusPRBA24`, src/internal/ambe3600x2400_const.h:398-569, numerators over 10^6. -/
def AmbePlusPRBA24_rows192 : List (List Int) :=
 [[125000, -125000, -312500],
 [125000, -312500, -187500],
 [187500, -375000, -250000],
 [187500, -187500, -125000],
 [125000, -187500, -62500],
 [125000, -687500, -62500],
 [125000, -187500, -62500],
 [187500, -375000, -62500],
 [62500, -250000, 62500],
 [125000, -187500, 0],
 [125000, -187500, 125000],
 [187500, -250000, 125000],
 [62500, -187500, 187500],
 [125000, -312500, 250000],
 [125000, -375000, 125000],
 [187500, -187500, 187500],
 [62500, -125000, -125000],
 [62500, 0, -187500],
 [125000, -62500, -187500],
 [125000, -125000, -62500],
 [62500, -62500, 62500],
 [125000, -62500, 0],
 [125000, -125000, 0],
 [187500, -62500, 0],
 [62500, 0, 187500],
 [125000, -125000, 125000],
 [125000, -62500, 125000],
 [187500, -125000, 125000],
 [62500, -62500, 250000],
 [62500, 0, 437500],
 [187500, -125000, 375000],
 [187500, -125000, 250000],
 [62500, 125000, -500000],
 [125000, 125000, -125000],
 [125000, 0, -125000],
 [187500, 0, -312500],
 [62500, 62500, 62500],
 [62500, 125000, 0],
 [187500, 62500, -62500],
 [187500, 125000, 62500],
 [125000, 125000, 125000],
 [125000, 0, 125000],
 [187500, 0, 62500],
 [187500, 125000, 125000],
 [62500, 125000, 375000],
 [125000, 62500, 687500],
 [125000, 62500, 187500],
 [125000, 0, 250000],
 [62500, 187500, -125000],
 [125000, 187500, -250000],
 [187500, 312500, -312500],
 [187500, 250000, -125000],
 [62500, 437500, 0],
 [125000, 250000, 0],
 [187500, 187500, 62500],
 [187500, 187500, -62500],
 [62500, 187500, 187500],
 [125000, 375000, 62500],
 [187500, 250000, 125000],
 [187500, 250000, 187500],
 [125000, 312500, 375000],
 [187500, 687500, 312500],
 [187500, 187500, 250000],
 [187500, 312500, 250000]]

/-- Rows 256..319 of `AmbePlusPRBA24`, src/internal/ambe3600x2400_const.h:398-569, numerators over 10^6. -/
def AmbePlusPRBA24_rows256 : List (List Int) :=
 [[187500, -562500, -250000],
 [187500, -937500, -687500],
 [312500, -312500, -375000],
 [312500, -500000, -625000],
 [187500, -312500, 0],
 [187500, -250000, -250000],
 [250000, -312500, -125000],
 [312500, -187500, 0],
 [187500, -437500, 62500],
 [250000, -250000, 0],
 [250000, -312500, 125000],
 [250000, -1000000, 125000],
 [187500, -312500, 437500],
 [187500, -625000, 187500],
 [187500, -250000, 187500],
 [312500, -312500, 250000],
 [187500, -62500, -187500],
 [187500, -125000, -437500],
 [250000, -187500, -125000],
 [250000, -125000, -250000],
 [250000, -187500, -62500],
 [250000, -62500, -62500],
 [250000, -62500, -125000],
 [312500, -125000, -62500],
 [187500, -187500, 62500],
 [250000, -62500, 0],
 [250000, -125000, 0],
 [250000, -125000, 125000],
 [250000, -62500, 312500],
 [250000, -187500, 312500],
 [250000, -62500, 250000],
 [312500, -187500, 187500],
 [187500, 125000, -187500],
 [187500, 62500, -125000],
 [312500, 62500, -312500],
 [312500, 62500, -187500],
 [250000, -62500, 62500],
 [250000, 0, -62500],
 [250000, 62500, 0],
 [312500, 0, 0],
 [187500, 0, 187500],
 [187500, 62500, 125000],
 [312500, 0, 125000],
 [312500, 62500, 187500],
 [187500, 62500, 187500],
 [250000, 62500, 312500],
 [250000, 0, 250000],
 [250000, 62500, 437500],
 [250000, 250000, -187500],
 [250000, 250000, -62500],
 [250000, 125000, -62500],
 [312500, 625000, -62500],
 [187500, 312500, 62500],
 [250000, 375000, -62500],
 [250000, 125000, 62500],
 [312500, 187500, -62500],
 [250000, 437500, 125000],
 [250000, 187500, 187500],
 [250000, 187500, 62500],
 [312500, 250000, 187500],
 [187500, 187500, 375000],
 [250000, 187500, 250000],
 [250000, 312500, 437500],
 [250000, 375000, 625000]]

/-- Rows 320..383 of `AmbePlusPRBA24`, src/internal/ambe3600x2400_const.h:398-569, numerators over 10^6. -/
def AmbePlusPRBA24_rows320 : List (List Int) :=
 [[312500, -250000, -125000],
 [312500, -312500, -187500],
 [312500, -187500, -62500],
 [437500, -625000, -250000],
 [312500, -312500, 62500],
 [312500, -312500, 0],
 [312500, -375000, -62500],
 [375000, -250000, 62500],
 [312500, -437500, 187500],
 [312500, -187500, 62500],
 [312500, -312500, 125000],
 [375000, -250000, 125000],
 [375000, -375000, 375000],
 [375000, -250000, 437500],
 [375000, -250000, 250000],
 [375000, -312500, 625000],
 [375000, -125000, -62500],
 [375000, -125000, -125000],
 [375000, -62500, -125000],
 [437500, 0, -312500],
 [312500, -125000, 62500],
 [312500, 0, 0],
 [375000, -62500, 0],
 [375000, -187500, 0],
 [312500, -62500, 62500],
 [375000, -62500, 187500],
 [375000, -125000, 125000],
 [437500, -62500, 62500],
 [312500, -125000, 312500],
 [375000, -62500, 562500],
 [375000, -187500, 250000],
 [437500, -62500, 187500],
 [312500, 0, -187500],
 [312500, 0, -62500],
 [375000, 62500, -187500],
 [375000, 125000, -250000],
 [312500, 62500, -62500],
 [375000, 62500, 0],
 [375000, 125000, 0],
 [437500, 0, 0],
 [312500, 62500, 62500],
 [312500, 125000, 125000],
 [375000, 0, 62500],
 [437500, 125000, 62500],
 [312500, 62500, 250000],
 [375000, 0, 312500],
 [375000, 0, 187500],
 [375000, 125000, 187500],
 [312500, 187500, -437500],
 [312500, 187500, -250000],
 [437500, 500000, -375000],
 [437500, 250000, -187500],
 [312500, 250000, -125000],
 [312500, 187500, 62500],
 [312500, 312500, 0],
 [375000, 125000, -125000],
 [312500, 250000, 62500],
 [375000, 312500, 125000],
 [375000, 187500, 125000],
 [437500, 312500, 250000],
 [312500, 437500, 312500],
 [375000, 125000, 375000],
 [375000, 750000, 687500],
 [437500, 125000, 625000]]

/-- Rows 384..447 of `AmbePlusPRBA24`, src/internal/ambe3600x2400_const.h:398-569, numerators over 10^6. -/
def AmbePlusPRBA24_rows384 : List (List Int) :=
 [[437500, -250000, -312500],
 [437500, -250000, -187500],
 [500000, -375000, -312500],
 [562500, -250000, -125000],
 [437500, -250000, 0],
 [500000, -500000, -62500],
 [500000, -312500, -125000],
 [562500, -375000, 0],
 [437500, -312500, 187500],
 [437500, -375000, 125000],
 [500000, -187500, 62500],
 [625000, -250000, 187500],
 [437500, -375000, 312500],
 [500000, -250000, 375000],
 [562500, -562500, 312500],
 [625000, -437500, 187500],
 [437500, -187500, -250000],
 [437500, -187500, -62500],
 [437500, -62500, -125000],
 [625000, -187500, -125000],
 [437500, -125000, 0],
 [500000, -125000, -62500],
 [562500, -125000, 0],
 [562500, -62500, -62500],
 [437500, -62500, 125000],
 [500000, -187500, 125000],
 [562500, -62500, 125000],
 [625000, -187500, 187500],
 [437500, -62500, 375000],
 [500000, -125000, 187500],
 [562500, -125000, 562500],
 [562500, -125000, 250000],
 [437500, 62500, -187500],
 [500000, 125000, -187500],
 [562500, 0, -187500],
 [625000, 0, -312500],
 [437500, 62500, -62500],
 [500000, 62500, 0],
 [500000, 125000, -62500],
 [500000, -62500, 0],
 [437500, 62500, 187500],
 [500000, 0, 125000],
 [500000, 62500, 125000],
 [562500, 125000, 0],
 [437500, 62500, 500000],
 [500000, -62500, 312500],
 [562500, 0, 250000],
 [562500, 62500, 375000],
 [437500, 312500, -125000],
 [437500, 187500, -125000],
 [562500, 500000, -125000],
 [562500, 312500, -125000],
 [437500, 250000, -62500],
 [437500, 250000, 62500],
 [500000, 250000, -62500],
 [625000, 125000, -125000],
 [500000, 375000, 62500],
 [500000, 125000, 125000],
 [500000, 562500, 125000],
 [562500, 187500, 125000],
 [500000, 187500, 250000],
 [500000, 625000, 375000],
 [500000, 250000, 187500],
 [562500, 312500, 375000]]

/-- Rows 448..511 of `AmbePlusPRBA24`, src/internal/ambe3600x2400_const.h:398-569, numerators over 10^6. -/
def AmbePlusPRBA24_rows448 : List (List Int) :=
 [[625000, -312500, -187500],
 [625000, -187500, -312500],
 [812500, -437500, -437500],
 [1375000, -187500, -375000],
 [687500, -312500, -62500],
 [875000, -250000, -62500],
 [1062500, -187500, 62500],
 [1062500, -437500, -62500],
 [625000, -250000, 125000],
 [750000, -125000, 62500],
 [812500, -312500, 125000],
 [1187500, -125000, 312500],
 [625000, -312500, 562500],
 [812500, -250000, 312500],
 [875000, -500000, 312500],
 [1000000, -312500, 500000],
 [625000, -62500, -187500],
 [687500, 62500, -187500],
 [812500, -62500, -187500],
 [1062500, -125000, -187500],
 [625000, 62500, -62500],
 [687500, -125000, -62500],
 [875000, -125000, 0],
 [1437500, 0, 0],
 [625000, 0, 62500],
 [687500, -62500, 187500],
 [750000, 62500, 0],
 [812500, 0, 125000],
 [625000, 62500, 250000],
 [687500, -62500, 375000],
 [687500, 0, 500000],
 [937500, -62500, 250000],
 [687500, 187500, -312500],
 [750000, 187500, -500000],
 [1000000, 187500, -312500],
 [1750000, 125000, -250000],
 [750000, 187500, -125000],
 [875000, 187500, -62500],
 [937500, 125000, 0],
 [1187500, 187500, -187500],
 [625000, 187500, 250000],
 [625000, 187500, 125000],
 [687500, 187500, 0],
 [937500, 250000, 250000],
 [687500, 187500, 437500],
 [750000, 62500, 312500],
 [937500, 125000, 437500],
 [1437500, 187500, 437500],
 [625000, 250000, -62500],
 [687500, 375000, 0],
 [1062500, 937500, -250000],
 [1375000, 375000, -250000],
 [812500, 312500, 125000],
 [875000, 500000, 0],
 [1062500, 375000, 62500],
 [1500000, 437500, 125000],
 [625000, 375000, 250000],
 [875000, 375000, 312500],
 [1125000, 625000, 187500],
 [1187500, 250000, 187500],
 [687500, 437500, 437500],
 [750000, 375000, 687500],
 [937500, 750000, 500000],
 [1312500, 687500, 625000]]

/-- `AmbePlusPRBA24`, src/internal/ambe3600x2400_const.h:398-569, numerators over 10^6. -/
def AmbePlusPRBA24 : List (List Int) :=
  AmbePlusPRBA24_rows0 ++ AmbePlusPRBA24_rows64 ++ AmbePlusPRBA24_rows128 ++ AmbePlusPRBA24_rows192 ++ AmbePlusPRBA24_rows256 ++ AmbePlusPRBA24_rows320 ++ AmbePlusPRBA24_rows384 ++ AmbePlusPRBA24_rows448

/-- Common denominator of `AmbePlusPRBA24` (src/internal/ambe3600x2400_const.h:398-569). -/
def AmbePlusPRBA24_den : Nat := 1000000

/-- Rows 0..63 of `AmbePlusPRBA58`, src/internal/ambe3600x2400_const.h:574-638, numerators over 10^6. -/
def AmbePlusPRBA58_rows0 : List (List Int) :=
 [[-460938, -265625, -281250, -62500],
 [-367188, -117188, -78125, -54688],
 [-250000, -312500, -164063, -101563],
 [-156250, -78125, -85938, -203125],
 [-468750, -85938, -171875, 164063],
 [-210938, -39063, -117188, 85938],
 [-187500, -156250, -289063, 70313],
 [-179688, -117188, -148438, -46875],
 [-320313, -31250, 140625, -132813],
 [-289063, -140625, 179688, 15625],
 [-179688, -226563, -7813, -101563],
 [-156250, -31250, 15625, -93750],
 [-390625, -273438, 46875, 31250],
 [-195313, -203125, -70313, 39063],
 [-171875, -156250, -39063, 171875],
 [-156250, -85938, 85938, 125000],
 [-304688, 54688, -210938, -85938],
 [-265625, 140625, -31250, -132813],
 [-242188, 78125, -31250, 15625],
 [-203125, 0, -85938, -70313],
 [-453125, 171875, -62500, 31250],
 [-289063, 125000, -156250, 93750],
 [-179688, 257813, -54688, 273438],
 [-171875, 226563, -109375, 15625],
 [-312500, -7813, 0, 85938],
 [-265625, 265625, 46875, 101563],
 [-234375, 109375, 125000, -46875],
 [-171875, -15625, 93750, 7813],
 [-414063, 46875, 101563, 203125],
 [-179688, 93750, 210938, 125000],
 [-179688, -7813, 7813, 273438],
 [-171875, 85938, 7813, 132813],
 [-62500, -117188, -257813, -156250],
 [-54688, -226563, -109375, -15625],
 [-46875, -164063, -70313, -117188],
 [-39063, -31250, -93750, -85938],
 [-156250, -31250, -15625, 39063],
 [-85938, 15625, -179688, 164063],
 [-78125, -78125, -70313, 46875],
 [-46875, -195313, -62500, 109375],
 [-93750, -46875, 109375, -101563],
 [-54688, -7813, 7813, -7813],
 [-39063, -132813, 31250, -31250],
 [-23438, -148438, 195313, -85938],
 [-148438, -109375, 23438, 0],
 [-39063, -85938, 31250, 85938],
 [-39063, -226563, 117188, 70313],
 [-15625, -15625, 156250, 156250],
 [-109375, 132813, -109375, -140625],
 [-93750, 23438, -187500, -7813],
 [-93750, 382813, -62500, -101563],
 [-23438, 101563, -62500, -7813],
 [-140625, 195313, -273438, 132813],
 [-109375, 125000, -117188, 62500],
 [-85938, 15625, -78125, 31250],
 [-31250, 203125, -23438, 125000],
 [-125000, 156250, 78125, -140625],
 [-117188, 85938, 312500, -101563],
 [-93750, 62500, 7813, -78125],
 [-46875, 46875, 148438, -23438],
 [-125000, 148438, 7813, 15625],
 [-85938, 46875, 54688, 39063],
 [-54688, 140625, 117188, 101563],
 [-54688, 39063, -15625, 109375]]

/-- Rows 64..127 of `AmbePlusPRBA58`, src/internal/ambe3600x2400_const.h:574-638, numerators over 10^6. -/
def AmbePlusPRBA58_rows64 : List (List Int) :=
 [[46875, -62500, -54688, -226563],
 [62500, -132813, -93750, -101563],
 [78125, -15625, -132813, -23438],
 [85938, -421875, -140625, -62500],
 [-7813, -54688, -54688, 179688],
 [15625, -78125, -203125, 54688],
 [15625, -93750, -78125, 23438],
 [62500, -179688, -187500, 148438],
 [7813, -39063, 46875, -93750],
 [23438, 31250, 117188, -179688],
 [101563, -171875, 93750, -171875],
 [101563, -23438, -23438, -125000],
 [-7813, -39063, 109375, 23438],
 [46875, -15625, 15625, 78125],
 [54688, -46875, -23438, -23438],
 [70313, -140625, 62500, -15625],
 [7813, 70313, -31250, -210938],
 [15625, 140625, -179688, -46875],
 [23438, 39063, -39063, -39063],
 [54688, 117188, -7813, -101563],
 [15625, 46875, -117188, 78125],
 [54688, 54688, -281250, 164063],
 [62500, 273438, -125000, 85938],
 [93750, 101563, -70313, 46875],
 [-15625, 125000, 46875, -31250],
 [-7813, 273438, 54688, 0],
 [70313, 39063, 70313, -23438],
 [109375, 195313, 93750, -218750],
 [46875, 78125, 39063, 70313],
 [54688, 101563, 23438, 265625],
 [70313, 125000, 273438, 31250],
 [93750, 335938, 164063, 132813],
 [195313, -101563, 15625, -46875],
 [234375, -171875, -164063, -125000],
 [296875, -85938, -117188, 31250],
 [507813, -179688, -117188, 15625],
 [109375, -179688, -46875, 46875],
 [132813, -54688, -39063, 70313],
 [171875, 7813, -117188, 179688],
 [429688, 15625, -39063, 218750],
 [132813, -15625, 156250, -85938],
 [140625, -125000, 218750, 0],
 [265625, -250000, 101563, -85938],
 [382813, -109375, 101563, -125000],
 [117188, -78125, 85938, 195313],
 [218750, -210938, 54688, 140625],
 [265625, -31250, 54688, 148438],
 [304688, 7813, 250000, 23438],
 [117188, 289063, -226563, -109375],
 [132813, 23438, -195313, -132813],
 [164063, 187500, -70313, -78125],
 [281250, 46875, -101563, -250000],
 [164063, 23438, -23438, -39063],
 [171875, 148438, -265625, 46875],
 [210938, 31250, -156250, 0],
 [390625, 179688, -101563, -31250],
 [234375, 85938, 31250, -148438],
 [250000, 265625, 156250, -70313],
 [312500, 54688, 93750, -7813],
 [531250, 210938, 85938, -15625],
 [117188, 179688, 54688, 31250],
 [132813, 39063, 140625, 70313],
 [218750, 70313, 7813, 39063],
 [226563, 242188, 7813, 148438]]

/-- `AmbePlusPRBA58`, src/internal/ambe3600x2400_const.h:574-638, numerators over 10^6. -/
def AmbePlusPRBA58 : List (List Int) :=
  AmbePlusPRBA58_rows0 ++ AmbePlusPRBA58_rows64

/-- Common denominator of `AmbePlusPRBA58` (src/internal/ambe3600x2400_const.h:574-638). -/
def AmbePlusPRBA58_den : Nat := 1000000

/-- `AmbePlusHOCb5`, src/internal/ambe3600x2400_const.h:643-651, numerators over 10^6. -/
def AmbePlusHOCb5 : List (List Int) :=
 [[-617188, -15625, 15625, -23438],
 [-507813, -382813, -312500, -117188],
 [-328125, 46875, 7813, -15625],
 [-320313, -281250, -23438, -23438],
 [-171875, 140625, -179688, -7813],
 [-148438, 226563, 39063, -39063],
 [-140625, -7813, -7813, -15625],
 [-109375, -101563, 179688, -62500],
 [-109375, -109375, -31250, 187500],
 [-109375, -218750, -273438, -140625],
 [7813, -7813, -15625, -15625],
 [78125, -265625, -7813, 7813],
 [101563, 54688, -210938, -7813],
 [164063, 242188, 93750, 39063],
 [179688, -23438, 7813, -7813],
 [460938, 15625, -15625, 7813]]

/-- Common denominator of `AmbePlusHOCb5` (src/internal/ambe3600x2400_const.h:643-651). -/
def AmbePlusHOCb5_den : Nat := 1000000

/-- `AmbePlusHOCb6`, src/internal/ambe3600x2400_const.h:656-664, numerators over 10^6. -/
def AmbePlusHOCb6 : List (List Int) :=
 [[-429688, -46875, 39063, 0],
 [-296875, 187500, 125000, 15625],
 [-203125, -218750, -39063, -7813],
 [-179688, 7813, -7813, 0],
 [-171875, 265625, -85938, -39063],
 [-46875, -70313, 203125, -23438],
 [-23438, 125000, 31250, -23438],
 [-7813, 0, -195313, -7813],
 [7813, -46875, -7813, -15625],
 [15625, -31250, 39063, 195313],
 [31250, -273438, -15625, -7813],
 [140625, 257813, 15625, 7813],
 [164063, 15625, 7813, -23438],
 [210938, -148438, -187500, 39063],
 [273438, -179688, 54688, -7813],
 [421875, 54688, -39063, 0]]

/-- Common denominator of `AmbePlusHOCb6` (src/internal/ambe3600x2400_const.h:656-664). -/
def AmbePlusHOCb6_den : Nat := 1000000

/-- `AmbePlusHOCb7`, src/internal/ambe3600x2400_const.h:669-677, numerators over 10^6. -/
def AmbePlusHOCb7 : List (List Int) :=
 [[-382813, -101563, 7813, 15625],
 [-335938, 226563, 15625, -7813],
 [-156250, 31250, -39063, -54688],
 [-156250, -15625, 187500, -15625],
 [-85938, -257813, 23438, -7813],
 [-70313, -148438, -203125, -23438],
 [-31250, 187500, -156250, 7813],
 [-23438, -7813, -15625, 179688],
 [-15625, 203125, 70313, -23438],
 [0, -39063, -7813, -23438],
 [140625, -78125, 179688, -7813],
 [164063, 23438, -7813, -15625],
 [187500, -7813, -218750, -7813],
 [218750, 242188, 23438, 31250],
 [234375, -234375, -39063, 7813],
 [445313, 54688, -7813, 0]]

/-- Common denominator of `AmbePlusHOCb7` (src/internal/ambe3600x2400_const.h:669-677). -/
def AmbePlusHOCb7_den : Nat := 1000000

/-- `AmbePlusHOCb8`, src/internal/ambe3600x2400_const.h:682-690, numerators over 10^6. -/
def AmbePlusHOCb8 : List (List Int) :=
 [[-453125, 179688, 78125, -15625],
 [-414063, -179688, -31250, 15625],
 [-281250, 187500, -203125, 46875],
 [-210938, -7813, -31250, -31250],
 [-148438, -31250, 218750, -54688],
 [-140625, -85938, 39063, 187500],
 [-117188, 234375, 31250, -54688],
 [-62500, -273438, -7813, -15625],
 [-54688, 93750, -78125, 78125],
 [-23438, -62500, -210938, -54688],
 [23438, 0, 23438, -46875],
 [125000, 234375, -187500, -15625],
 [164063, -54688, -93750, 70313],
 [187500, 179688, 93750, 15625],
 [203125, -171875, 140625, -15625],
 [421875, -39063, -46875, -7813]]

/-- Common denominator of `AmbePlusHOCb8` (src/internal/ambe3600x2400_const.h:682-690). -/
def AmbePlusHOCb8_den : Nat := 1000000

end Verif.Gen
