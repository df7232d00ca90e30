/-! Generated by tools/gen_tables.py from /repo/src/internal/imbe7200x4400_const.h; do not edit. -/

set_option maxRecDepth 20000

namespace Verif.Gen

/-- `quantstep`, src/internal/imbe7200x4400_const.h:51-51, numerators over 10^2. The initialiser has 10 entries; C zero-fills the rest. -/
def quantstep : List Int :=
 [120, 85, 65, 40, 28, 15, 8, 4, 2, 1, 0]

/-- Common denominator of `quantstep` (src/internal/imbe7200x4400_const.h:51-51). -/
def quantstep_den : Nat := 100

/-- `standdev`, src/internal/imbe7200x4400_const.h:56-56, numerators over 10^3. -/
def standdev : List Int :=
 [307, 241, 207, 190, 179, 173, 165, 170, 170]

/-- Common denominator of `standdev` (src/internal/imbe7200x4400_const.h:56-56). -/
def standdev_den : Nat := 1000

/-- `B2`, src/internal/imbe7200x4400_const.h:61-68, numerators over 10^6. -/
def B2 : List Int :=
 [-2842205, -2694235, -2558260, -2382850, -2221042, -2095574, -1980845, -1836058, -1645556, -1417658, -1261301,
  -1125631, -958207, -781591, -555837, -346976, -147249, 27755, 211495, 388380, 552873, 737223, 932197,
  1139032, 1320955, 1483433, 1648297, 1801447, 1942731, 2118613, 2321486, 2504443, 2653909, 2780654, 2925355,
  3076390, 3220825, 3402869, 3585096, 3784606, 3955521, 4155636, 4314009, 4444150, 4577542, 4735552, 4909493,
  5085264, 5254767, 5411894, 5568094, 5738523, 5919215, 6087701, 6280685, 6464201, 6647736, 6834672, 7022583,
  7211777, 7471016, 7738948, 8124863, 8695827]

/-- Common denominator of `B2` (src/internal/imbe7200x4400_const.h:61-68). -/
def B2_den : Nat := 1000000

/-- `ba`, src/internal/imbe7200x4400_const.h:73-170, numerators over 10^6. -/
def ba : List (List (List Int)) :=
 [[[10000000, 3100],
 [9000000, 4020],
 [9000000, 3360],
 [9000000, 2900],
 [9000000, 2640]],
 [[9000000, 6200],
 [9000000, 4020],
 [8000000, 6720],
 [8000000, 5800],
 [8000000, 5280]],
 [[8000000, 12400],
 [8000000, 8040],
 [8000000, 6720],
 [7000000, 11600],
 [7000000, 10560]],
 [[8000000, 12400],
 [7000000, 16080],
 [7000000, 13440],
 [7000000, 11600],
 [7000000, 10560]],
 [[7000000, 24800],
 [7000000, 16080],
 [7000000, 13440],
 [6000000, 21750],
 [6000000, 19800]],
 [[7000000, 24800],
 [6000000, 30150],
 [6000000, 25200],
 [6000000, 21750],
 [6000000, 19800]],
 [[7000000, 24800],
 [6000000, 30150],
 [6000000, 25200],
 [6000000, 21750],
 [5000000, 36960]],
 [[6000000, 46500],
 [6000000, 30150],
 [6000000, 25200],
 [5000000, 40600],
 [5000000, 36960]],
 [[6000000, 46500],
 [6000000, 30150],
 [5000000, 47040],
 [5000000, 40600],
 [5000000, 36960]],
 [[6000000, 46500],
 [5000000, 56280],
 [5000000, 47040],
 [5000000, 40600],
 [5000000, 36960]],
 [[6000000, 46500],
 [5000000, 56280],
 [5000000, 47040],
 [4000000, 58000],
 [4000000, 52800]],
 [[6000000, 46500],
 [5000000, 56280],
 [5000000, 47040],
 [4000000, 58000],
 [4000000, 52800]],
 [[5000000, 86800],
 [5000000, 56280],
 [5000000, 47040],
 [4000000, 58000],
 [4000000, 52800]],
 [[5000000, 86800],
 [5000000, 56280],
 [4000000, 67200],
 [4000000, 58000],
 [4000000, 52800]],
 [[5000000, 86800],
 [4000000, 80400],
 [4000000, 67200],
 [4000000, 68000],
 [4000000, 52800]],
 [[5000000, 86800],
 [4000000, 80400],
 [4000000, 67200],
 [4000000, 58000],
 [4000000, 52800]],
 [[5000000, 86800],
 [4000000, 80400],
 [4000000, 67200],
 [4000000, 58000],
 [3000000, 85800]],
 [[5000000, 86800],
 [4000000, 80400],
 [4000000, 67200],
 [3000000, 94250],
 [3000000, 85800]],
 [[5000000, 86800],
 [4000000, 80400],
 [4000000, 67200],
 [3000000, 94250],
 [3000000, 85800]],
 [[4000000, 124000],
 [4000000, 80400],
 [4000000, 67200],
 [3000000, 94250],
 [3000000, 85800]],
 [[4000000, 124000],
 [4000000, 80400],
 [4000000, 67200],
 [3000000, 94250],
 [3000000, 85800]],
 [[4000000, 124000],
 [4000000, 80400],
 [4000000, 67200],
 [3000000, 94250],
 [3000000, 85800]],
 [[4000000, 124000],
 [4000000, 80400],
 [3000000, 109200],
 [3000000, 94250],
 [3000000, 85800]],
 [[4000000, 124000],
 [4000000, 80400],
 [3000000, 109200],
 [3000000, 94250],
 [3000000, 85800]],
 [[4000000, 124000],
 [3000000, 130650],
 [3000000, 109200],
 [3000000, 94250],
 [3000000, 85800]],
 [[4000000, 124000],
 [3000000, 130650],
 [3000000, 109200],
 [3000000, 94250],
 [3000000, 85800]],
 [[4000000, 124000],
 [3000000, 130650],
 [3000000, 109200],
 [3000000, 94250],
 [3000000, 85800]],
 [[4000000, 124000],
 [3000000, 130650],
 [3000000, 109200],
 [3000000, 94250],
 [3000000, 85800]],
 [[4000000, 124000],
 [3000000, 130650],
 [3000000, 109200],
 [3000000, 94250],
 [2000000, 112200]],
 [[4000000, 124000],
 [3000000, 130650],
 [3000000, 109200],
 [3000000, 94250],
 [2000000, 112200]],
 [[4000000, 124000],
 [3000000, 130650],
 [3000000, 109200],
 [3000000, 94250],
 [2000000, 112200]],
 [[4000000, 124000],
 [3000000, 130650],
 [3000000, 109200],
 [3000000, 94250],
 [2000000, 112200]],
 [[4000000, 124000],
 [3000000, 130650],
 [3000000, 109200],
 [2000000, 123250],
 [2000000, 112200]],
 [[4000000, 124000],
 [3000000, 130650],
 [3000000, 109200],
 [2000000, 123250],
 [2000000, 112200]],
 [[4000000, 124000],
 [3000000, 130650],
 [3000000, 109200],
 [2000000, 123250],
 [2000000, 112200]],
 [[4000000, 124000],
 [3000000, 130650],
 [3000000, 109200],
 [2000000, 123250],
 [2000000, 112200]],
 [[4000000, 124000],
 [3000000, 130650],
 [3000000, 109200],
 [2000000, 123250],
 [2000000, 112200]],
 [[3000000, 201500],
 [3000000, 130650],
 [3000000, 109200],
 [2000000, 123250],
 [2000000, 112200]],
 [[3000000, 201500],
 [3000000, 130650],
 [3000000, 109200],
 [2000000, 123250],
 [2000000, 112200]],
 [[3000000, 201500],
 [3000000, 130650],
 [3000000, 109200],
 [2000000, 123250],
 [2000000, 112200]],
 [[3000000, 201500],
 [3000000, 130650],
 [3000000, 109200],
 [2000000, 123250],
 [2000000, 112200]],
 [[3000000, 201500],
 [3000000, 130650],
 [3000000, 109200],
 [2000000, 123250],
 [2000000, 112200]],
 [[3000000, 201500],
 [3000000, 130650],
 [3000000, 109200],
 [2000000, 123250],
 [2000000, 112200]],
 [[3000000, 201500],
 [3000000, 130650],
 [2000000, 142800],
 [2000000, 123250],
 [2000000, 112200]],
 [[3000000, 201500],
 [3000000, 130650],
 [2000000, 142800],
 [2000000, 123250],
 [2000000, 112200]],
 [[3000000, 201500],
 [3000000, 130650],
 [2000000, 142800],
 [2000000, 123250],
 [2000000, 112200]],
 [[3000000, 201500],
 [3000000, 130650],
 [2000000, 142800],
 [2000000, 123250],
 [2000000, 112200]],
 [[3000000, 201500],
 [3000000, 130650],
 [2000000, 142800],
 [2000000, 123250],
 [2000000, 112200]]]

/-- Common denominator of `ba` (src/internal/imbe7200x4400_const.h:73-170). -/
def ba_den : Nat := 1000000

/-- `hoba`, src/internal/imbe7200x4400_const.h:175-319. -/
def hoba : List (List Nat) :=
 [[9, 8, 7, 0, 0, 0, 0, 0, 0, 0, 0, 0, 0, 0, 0, 0, 0, 0, 0, 0, 0, 0, 0, 0, 0, 0, 0, 0, 0, 0, 0, 0, 0, 0, 0, 0,
  0, 0, 0, 0, 0, 0, 0, 0, 0, 0, 0, 0, 0, 0],
 [9, 7, 6, 5, 0, 0, 0, 0, 0, 0, 0, 0, 0, 0, 0, 0, 0, 0, 0, 0, 0, 0, 0, 0, 0, 0, 0, 0, 0, 0, 0, 0, 0, 0, 0, 0,
  0, 0, 0, 0, 0, 0, 0, 0, 0, 0, 0, 0, 0, 0],
 [9, 7, 6, 5, 4, 0, 0, 0, 0, 0, 0, 0, 0, 0, 0, 0, 0, 0, 0, 0, 0, 0, 0, 0, 0, 0, 0, 0, 0, 0, 0, 0, 0, 0, 0, 0,
  0, 0, 0, 0, 0, 0, 0, 0, 0, 0, 0, 0, 0, 0],
 [8, 7, 6, 5, 4, 3, 0, 0, 0, 0, 0, 0, 0, 0, 0, 0, 0, 0, 0, 0, 0, 0, 0, 0, 0, 0, 0, 0, 0, 0, 0, 0, 0, 0, 0, 0,
  0, 0, 0, 0, 0, 0, 0, 0, 0, 0, 0, 0, 0, 0],
 [7, 7, 6, 5, 4, 3, 3, 0, 0, 0, 0, 0, 0, 0, 0, 0, 0, 0, 0, 0, 0, 0, 0, 0, 0, 0, 0, 0, 0, 0, 0, 0, 0, 0, 0, 0,
  0, 0, 0, 0, 0, 0, 0, 0, 0, 0, 0, 0, 0, 0],
 [7, 7, 5, 4, 4, 3, 4, 3, 0, 0, 0, 0, 0, 0, 0, 0, 0, 0, 0, 0, 0, 0, 0, 0, 0, 0, 0, 0, 0, 0, 0, 0, 0, 0, 0, 0,
  0, 0, 0, 0, 0, 0, 0, 0, 0, 0, 0, 0, 0, 0],
 [6, 7, 5, 4, 4, 3, 3, 3, 3, 0, 0, 0, 0, 0, 0, 0, 0, 0, 0, 0, 0, 0, 0, 0, 0, 0, 0, 0, 0, 0, 0, 0, 0, 0, 0, 0,
  0, 0, 0, 0, 0, 0, 0, 0, 0, 0, 0, 0, 0, 0],
 [6, 6, 5, 4, 4, 3, 3, 3, 3, 2, 0, 0, 0, 0, 0, 0, 0, 0, 0, 0, 0, 0, 0, 0, 0, 0, 0, 0, 0, 0, 0, 0, 0, 0, 0, 0,
  0, 0, 0, 0, 0, 0, 0, 0, 0, 0, 0, 0, 0, 0],
 [5, 5, 5, 4, 4, 4, 3, 3, 2, 3, 2, 0, 0, 0, 0, 0, 0, 0, 0, 0, 0, 0, 0, 0, 0, 0, 0, 0, 0, 0, 0, 0, 0, 0, 0, 0,
  0, 0, 0, 0, 0, 0, 0, 0, 0, 0, 0, 0, 0, 0],
 [5, 4, 5, 5, 4, 3, 3, 3, 3, 2, 2, 2, 0, 0, 0, 0, 0, 0, 0, 0, 0, 0, 0, 0, 0, 0, 0, 0, 0, 0, 0, 0, 0, 0, 0, 0,
  0, 0, 0, 0, 0, 0, 0, 0, 0, 0, 0, 0, 0, 0],
 [5, 4, 5, 4, 4, 3, 3, 3, 3, 2, 3, 2, 1, 0, 0, 0, 0, 0, 0, 0, 0, 0, 0, 0, 0, 0, 0, 0, 0, 0, 0, 0, 0, 0, 0, 0,
  0, 0, 0, 0, 0, 0, 0, 0, 0, 0, 0, 0, 0, 0],
 [5, 4, 5, 4, 4, 3, 3, 2, 3, 2, 1, 3, 2, 1, 0, 0, 0, 0, 0, 0, 0, 0, 0, 0, 0, 0, 0, 0, 0, 0, 0, 0, 0, 0, 0, 0,
  0, 0, 0, 0, 0, 0, 0, 0, 0, 0, 0, 0, 0, 0],
 [4, 4, 5, 4, 4, 3, 3, 2, 2, 3, 2, 1, 3, 2, 1, 0, 0, 0, 0, 0, 0, 0, 0, 0, 0, 0, 0, 0, 0, 0, 0, 0, 0, 0, 0, 0,
  0, 0, 0, 0, 0, 0, 0, 0, 0, 0, 0, 0, 0, 0],
 [4, 4, 4, 4, 4, 3, 2, 3, 2, 2, 3, 2, 1, 2, 2, 1, 0, 0, 0, 0, 0, 0, 0, 0, 0, 0, 0, 0, 0, 0, 0, 0, 0, 0, 0, 0,
  0, 0, 0, 0, 0, 0, 0, 0, 0, 0, 0, 0, 0, 0],
 [4, 3, 4, 4, 3, 4, 3, 2, 3, 2, 2, 2, 2, 1, 2, 2, 1, 0, 0, 0, 0, 0, 0, 0, 0, 0, 0, 0, 0, 0, 0, 0, 0, 0, 0, 0,
  0, 0, 0, 0, 0, 0, 0, 0, 0, 0, 0, 0, 0, 0],
 [4, 3, 3, 4, 3, 3, 3, 3, 2, 3, 2, 1, 2, 2, 1, 2, 2, 1, 0, 0, 0, 0, 0, 0, 0, 0, 0, 0, 0, 0, 0, 0, 0, 0, 0, 0,
  0, 0, 0, 0, 0, 0, 0, 0, 0, 0, 0, 0, 0, 0],
 [4, 3, 3, 4, 3, 3, 3, 3, 2, 3, 2, 1, 2, 2, 1, 2, 1, 1, 1, 0, 0, 0, 0, 0, 0, 0, 0, 0, 0, 0, 0, 0, 0, 0, 0, 0,
  0, 0, 0, 0, 0, 0, 0, 0, 0, 0, 0, 0, 0, 0],
 [4, 3, 3, 4, 3, 3, 3, 2, 2, 3, 2, 1, 2, 2, 1, 1, 2, 2, 1, 1, 0, 0, 0, 0, 0, 0, 0, 0, 0, 0, 0, 0, 0, 0, 0, 0,
  0, 0, 0, 0, 0, 0, 0, 0, 0, 0, 0, 0, 0, 0],
 [4, 3, 2, 4, 3, 2, 3, 2, 2, 3, 2, 2, 1, 2, 2, 1, 1, 2, 2, 1, 1, 0, 0, 0, 0, 0, 0, 0, 0, 0, 0, 0, 0, 0, 0, 0,
  0, 0, 0, 0, 0, 0, 0, 0, 0, 0, 0, 0, 0, 0],
 [4, 3, 2, 4, 3, 2, 3, 2, 2, 2, 3, 2, 1, 1, 2, 2, 1, 1, 2, 1, 1, 1, 0, 0, 0, 0, 0, 0, 0, 0, 0, 0, 0, 0, 0, 0,
  0, 0, 0, 0, 0, 0, 0, 0, 0, 0, 0, 0, 0, 0],
 [3, 3, 2, 4, 3, 2, 2, 3, 2, 2, 2, 3, 2, 1, 1, 2, 1, 1, 1, 2, 1, 1, 1, 0, 0, 0, 0, 0, 0, 0, 0, 0, 0, 0, 0, 0,
  0, 0, 0, 0, 0, 0, 0, 0, 0, 0, 0, 0, 0, 0],
 [3, 3, 2, 2, 3, 3, 2, 2, 3, 2, 2, 1, 3, 2, 1, 1, 2, 1, 1, 1, 2, 1, 1, 1, 0, 0, 0, 0, 0, 0, 0, 0, 0, 0, 0, 0,
  0, 0, 0, 0, 0, 0, 0, 0, 0, 0, 0, 0, 0, 0],
 [3, 3, 2, 2, 3, 3, 2, 2, 3, 2, 2, 1, 2, 2, 1, 1, 2, 1, 1, 1, 2, 1, 1, 1, 1, 0, 0, 0, 0, 0, 0, 0, 0, 0, 0, 0,
  0, 0, 0, 0, 0, 0, 0, 0, 0, 0, 0, 0, 0, 0],
 [3, 3, 2, 2, 3, 3, 2, 2, 3, 2, 2, 1, 2, 2, 1, 1, 2, 1, 1, 1, 1, 2, 1, 1, 1, 0, 0, 0, 0, 0, 0, 0, 0, 0, 0, 0,
  0, 0, 0, 0, 0, 0, 0, 0, 0, 0, 0, 0, 0, 0],
 [3, 3, 2, 2, 3, 3, 2, 2, 3, 2, 1, 1, 2, 2, 1, 1, 1, 2, 1, 1, 1, 1, 2, 1, 1, 1, 1, 0, 0, 0, 0, 0, 0, 0, 0, 0,
  0, 0, 0, 0, 0, 0, 0, 0, 0, 0, 0, 0, 0, 0],
 [3, 2, 2, 2, 3, 2, 2, 2, 3, 2, 2, 1, 1, 2, 2, 1, 1, 1, 2, 1, 1, 1, 1, 2, 1, 1, 1, 0, 0, 0, 0, 0, 0, 0, 0, 0,
  0, 0, 0, 0, 0, 0, 0, 0, 0, 0, 0, 0, 0, 0],
 [3, 2, 2, 2, 3, 2, 2, 2, 2, 3, 2, 1, 1, 1, 2, 2, 1, 1, 1, 2, 1, 1, 1, 0, 2, 1, 1, 1, 0, 0, 0, 0, 0, 0, 0, 0,
  0, 0, 0, 0, 0, 0, 0, 0, 0, 0, 0, 0, 0, 0],
 [3, 2, 2, 2, 1, 3, 2, 2, 2, 1, 3, 2, 1, 1, 1, 2, 2, 1, 1, 1, 2, 1, 1, 1, 0, 2, 1, 1, 1, 0, 0, 0, 0, 0, 0, 0,
  0, 0, 0, 0, 0, 0, 0, 0, 0, 0, 0, 0, 0, 0],
 [3, 2, 2, 2, 1, 3, 2, 2, 2, 2, 3, 2, 1, 1, 1, 2, 1, 1, 1, 1, 2, 1, 1, 1, 0, 2, 1, 1, 1, 1, 0, 0, 0, 0, 0, 0,
  0, 0, 0, 0, 0, 0, 0, 0, 0, 0, 0, 0, 0, 0],
 [3, 2, 2, 2, 1, 3, 2, 2, 2, 1, 3, 2, 1, 1, 1, 2, 1, 1, 1, 1, 2, 1, 1, 1, 1, 0, 2, 1, 1, 1, 1, 0, 0, 0, 0, 0,
  0, 0, 0, 0, 0, 0, 0, 0, 0, 0, 0, 0, 0, 0],
 [3, 2, 2, 2, 1, 3, 2, 2, 2, 1, 3, 2, 1, 1, 1, 2, 2, 1, 1, 1, 0, 2, 1, 1, 1, 1, 0, 2, 1, 1, 1, 0, 0, 0, 0, 0,
  0, 0, 0, 0, 0, 0, 0, 0, 0, 0, 0, 0, 0, 0],
 [3, 2, 2, 2, 1, 3, 2, 2, 1, 1, 3, 2, 1, 1, 1, 1, 2, 2, 1, 1, 1, 0, 2, 1, 1, 1, 1, 0, 2, 1, 1, 1, 0, 0, 0, 0,
  0, 0, 0, 0, 0, 0, 0, 0, 0, 0, 0, 0, 0, 0],
 [3, 2, 2, 1, 1, 3, 2, 2, 2, 1, 1, 3, 2, 1, 1, 1, 1, 2, 2, 1, 1, 1, 0, 2, 1, 1, 1, 1, 0, 2, 1, 1, 1, 0, 0, 0,
  0, 0, 0, 0, 0, 0, 0, 0, 0, 0, 0, 0, 0, 0],
 [3, 2, 2, 2, 1, 1, 3, 2, 2, 2, 1, 1, 2, 2, 1, 1, 1, 1, 2, 2, 1, 1, 1, 0, 2, 1, 1, 1, 0, 0, 2, 1, 1, 1, 0, 0,
  0, 0, 0, 0, 0, 0, 0, 0, 0, 0, 0, 0, 0, 0],
 [3, 2, 2, 2, 1, 1, 3, 2, 2, 2, 1, 1, 2, 2, 1, 1, 1, 1, 2, 1, 1, 1, 1, 0, 2, 1, 1, 1, 0, 0, 2, 1, 1, 1, 1, 0,
  0, 0, 0, 0, 0, 0, 0, 0, 0, 0, 0, 0, 0, 0],
 [3, 2, 2, 1, 1, 1, 3, 2, 2, 2, 1, 1, 2, 2, 1, 1, 1, 1, 2, 1, 1, 1, 1, 0, 2, 1, 1, 1, 1, 0, 0, 2, 1, 1, 1, 1,
  0, 0, 0, 0, 0, 0, 0, 0, 0, 0, 0, 0, 0, 0],
 [3, 2, 2, 1, 1, 1, 3, 2, 2, 1, 1, 1, 2, 2, 1, 1, 1, 1, 2, 2, 1, 1, 1, 0, 0, 2, 1, 1, 1, 1, 0, 0, 2, 1, 1, 1,
  1, 0, 0, 0, 0, 0, 0, 0, 0, 0, 0, 0, 0, 0],
 [3, 2, 2, 1, 1, 1, 3, 2, 2, 1, 1, 1, 2, 2, 1, 1, 1, 1, 1, 2, 2, 1, 1, 1, 0, 0, 2, 1, 1, 1, 1, 0, 0, 2, 1, 1,
  1, 1, 0, 0, 0, 0, 0, 0, 0, 0, 0, 0, 0, 0],
 [3, 2, 2, 1, 1, 1, 3, 2, 2, 1, 1, 1, 1, 2, 2, 1, 1, 1, 1, 1, 2, 2, 1, 1, 1, 0, 0, 2, 1, 1, 1, 1, 0, 0, 2, 1,
  1, 1, 0, 0, 0, 0, 0, 0, 0, 0, 0, 0, 0, 0],
 [3, 2, 2, 1, 1, 1, 1, 3, 2, 2, 1, 1, 1, 1, 2, 2, 1, 1, 1, 1, 1, 2, 2, 1, 1, 1, 0, 0, 2, 1, 1, 1, 0, 0, 0, 2,
  1, 1, 1, 0, 0, 0, 0, 0, 0, 0, 0, 0, 0, 0],
 [3, 2, 2, 1, 1, 1, 1, 3, 2, 2, 1, 1, 1, 1, 2, 2, 1, 1, 1, 1, 0, 2, 2, 1, 1, 1, 0, 0, 2, 1, 1, 1, 0, 0, 0, 2,
  1, 1, 1, 1, 0, 0, 0, 0, 0, 0, 0, 0, 0, 0],
 [3, 2, 2, 1, 1, 1, 1, 3, 2, 2, 1, 1, 1, 1, 2, 2, 1, 1, 1, 1, 0, 2, 2, 1, 1, 1, 0, 0, 2, 1, 1, 1, 1, 0, 0, 0,
  2, 1, 1, 1, 0, 0, 0, 0, 0, 0, 0, 0, 0, 0],
 [3, 2, 2, 1, 1, 1, 1, 3, 2, 1, 1, 1, 1, 1, 2, 2, 1, 1, 1, 1, 0, 2, 2, 1, 1, 1, 0, 0, 0, 2, 1, 1, 1, 1, 0, 0,
  0, 2, 1, 1, 1, 1, 0, 0, 0, 0, 0, 0, 0, 0],
 [3, 2, 1, 1, 1, 1, 1, 3, 2, 2, 1, 1, 1, 1, 2, 2, 1, 1, 1, 1, 1, 0, 2, 2, 1, 1, 1, 0, 0, 0, 2, 1, 1, 1, 1, 0,
  0, 0, 2, 1, 1, 1, 1, 0, 0, 0, 0, 0, 0, 0],
 [3, 2, 1, 1, 1, 1, 1, 3, 2, 2, 1, 1, 1, 1, 1, 2, 2, 1, 1, 1, 1, 1, 0, 2, 2, 1, 1, 1, 0, 0, 0, 2, 1, 1, 1, 1,
  0, 0, 0, 2, 1, 1, 1, 0, 0, 0, 0, 0, 0, 0],
 [3, 2, 2, 1, 1, 1, 1, 0, 3, 2, 2, 1, 1, 1, 1, 0, 2, 2, 1, 1, 1, 1, 1, 0, 2, 2, 1, 1, 1, 0, 0, 0, 2, 1, 1, 1,
  1, 0, 0, 0, 2, 1, 1, 1, 0, 0, 0, 0, 0, 0],
 [3, 2, 2, 1, 1, 1, 1, 0, 3, 2, 2, 1, 1, 1, 1, 0, 2, 2, 1, 1, 1, 1, 1, 0, 2, 2, 1, 1, 1, 0, 0, 0, 2, 1, 1, 1,
  0, 0, 0, 0, 2, 1, 1, 1, 1, 0, 0, 0, 0, 0],
 [3, 2, 2, 1, 1, 1, 1, 0, 3, 2, 2, 1, 1, 1, 1, 0, 2, 2, 1, 1, 1, 1, 1, 0, 2, 2, 1, 1, 1, 0, 0, 0, 2, 1, 1, 1,
  1, 0, 0, 0, 0, 2, 1, 1, 1, 0, 0, 0, 0, 0]]

/-- `bo`, src/internal/imbe7200x4400_const.h:326-660. -/
def bo : List (List (List Nat)) :=
 [[[2, 5],
 [2, 4],
 [2, 3],
 [3, 9],
 [3, 8],
 [4, 8],
 [5, 8],
 [6, 8],
 [7, 8],
 [8, 8],
 [3, 7],
 [4, 7],
 [5, 7],
 [6, 7],
 [7, 7],
 [8, 7],
 [9, 7],
 [3, 6],
 [4, 6],
 [5, 6],
 [6, 6],
 [7, 6],
 [8, 6],
 [9, 6],
 [10, 6],
 [3, 5],
 [4, 5],
 [5, 5],
 [6, 5],
 [7, 5],
 [8, 5],
 [9, 5],
 [10, 5],
 [3, 4],
 [4, 4],
 [5, 4],
 [6, 4],
 [7, 4],
 [8, 4],
 [9, 4],
 [10, 4],
 [3, 3],
 [1, 2],
 [1, 1],
 [1, 0],
 [2, 2],
 [2, 1],
 [4, 3],
 [5, 3],
 [6, 3],
 [7, 3],
 [8, 3],
 [9, 3],
 [10, 3],
 [3, 2],
 [4, 2],
 [5, 2],
 [6, 2],
 [7, 2],
 [8, 2],
 [9, 2],
 [10, 2],
 [3, 1],
 [4, 1],
 [5, 1],
 [6, 1],
 [7, 1],
 [8, 1],
 [9, 1],
 [10, 1],
 [3, 0],
 [4, 0],
 [5, 0],
 [6, 0],
 [7, 0],
 [8, 0],
 [9, 0],
 [10, 0],
 [2, 0]],
 [[2, 5],
 [2, 4],
 [2, 3],
 [3, 8],
 [4, 8],
 [8, 8],
 [3, 7],
 [4, 7],
 [5, 7],
 [6, 7],
 [7, 7],
 [8, 7],
 [3, 6],
 [4, 6],
 [5, 6],
 [6, 6],
 [7, 6],
 [8, 6],
 [9, 6],
 [3, 5],
 [4, 5],
 [5, 5],
 [6, 5],
 [7, 5],
 [8, 5],
 [9, 5],
 [10, 5],
 [3, 4],
 [4, 4],
 [5, 4],
 [6, 4],
 [7, 4],
 [8, 4],
 [9, 4],
 [10, 4],
 [11, 4],
 [3, 3],
 [4, 3],
 [5, 3],
 [6, 3],
 [7, 3],
 [8, 3],
 [1, 3],
 [1, 2],
 [1, 1],
 [1, 0],
 [2, 2],
 [2, 1],
 [9, 3],
 [10, 3],
 [11, 3],
 [3, 2],
 [4, 2],
 [5, 2],
 [6, 2],
 [7, 2],
 [8, 2],
 [9, 2],
 [10, 2],
 [11, 2],
 [3, 1],
 [4, 1],
 [5, 1],
 [6, 1],
 [7, 1],
 [8, 1],
 [9, 1],
 [10, 1],
 [11, 1],
 [3, 0],
 [4, 0],
 [5, 0],
 [6, 0],
 [7, 0],
 [8, 0],
 [9, 0],
 [10, 0],
 [11, 0],
 [2, 0]],
 [[2, 5],
 [2, 4],
 [2, 3],
 [8, 8],
 [3, 7],
 [4, 7],
 [5, 7],
 [8, 7],
 [3, 6],
 [4, 6],
 [5, 6],
 [6, 6],
 [7, 6],
 [8, 6],
 [9, 6],
 [3, 5],
 [4, 5],
 [5, 5],
 [6, 5],
 [7, 5],
 [8, 5],
 [9, 5],
 [10, 5],
 [3, 4],
 [4, 4],
 [5, 4],
 [6, 4],
 [7, 4],
 [8, 4],
 [9, 4],
 [10, 4],
 [11, 4],
 [3, 3],
 [4, 3],
 [5, 3],
 [6, 3],
 [7, 3],
 [8, 3],
 [9, 3],
 [10, 3],
 [11, 3],
 [12, 3],
 [1, 3],
 [1, 2],
 [1, 1],
 [1, 0],
 [2, 2],
 [2, 1],
 [3, 2],
 [4, 2],
 [5, 2],
 [6, 2],
 [7, 2],
 [8, 2],
 [9, 2],
 [10, 2],
 [11, 2],
 [12, 2],
 [3, 1],
 [4, 1],
 [5, 1],
 [6, 1],
 [7, 1],
 [8, 1],
 [9, 1],
 [10, 1],
 [11, 1],
 [12, 1],
 [3, 0],
 [4, 0],
 [5, 0],
 [6, 0],
 [7, 0],
 [8, 0],
 [9, 0],
 [10, 0],
 [11, 0],
 [12, 0],
 [2, 0]],
 [[2, 5],
 [2, 4],
 [2, 3],
 [3, 7],
 [8, 7],
 [3, 6],
 [4, 6],
 [5, 6],
 [6, 6],
 [7, 6],
 [8, 6],
 [9, 6],
 [3, 5],
 [4, 5],
 [5, 5],
 [6, 5],
 [7, 5],
 [8, 5],
 [9, 5],
 [10, 5],
 [3, 4],
 [4, 4],
 [5, 4],
 [6, 4],
 [7, 4],
 [8, 4],
 [9, 4],
 [10, 4],
 [11, 4],
 [3, 3],
 [4, 3],
 [5, 3],
 [6, 3],
 [7, 3],
 [8, 3],
 [9, 3],
 [10, 3],
 [11, 3],
 [12, 3],
 [3, 2],
 [4, 2],
 [5, 2],
 [1, 3],
 [1, 2],
 [1, 1],
 [1, 0],
 [2, 2],
 [2, 1],
 [6, 2],
 [7, 2],
 [8, 2],
 [9, 2],
 [10, 2],
 [11, 2],
 [12, 2],
 [13, 2],
 [3, 1],
 [4, 1],
 [5, 1],
 [6, 1],
 [7, 1],
 [8, 1],
 [9, 1],
 [10, 1],
 [11, 1],
 [12, 1],
 [13, 1],
 [3, 0],
 [4, 0],
 [5, 0],
 [6, 0],
 [7, 0],
 [8, 0],
 [9, 0],
 [10, 0],
 [11, 0],
 [12, 0],
 [13, 0],
 [2, 0]],
 [[2, 5],
 [2, 4],
 [2, 3],
 [3, 6],
 [4, 6],
 [5, 6],
 [8, 6],
 [9, 6],
 [3, 5],
 [4, 5],
 [5, 5],
 [6, 5],
 [7, 5],
 [8, 5],
 [9, 5],
 [10, 5],
 [3, 4],
 [4, 4],
 [5, 4],
 [6, 4],
 [7, 4],
 [8, 4],
 [9, 4],
 [10, 4],
 [11, 4],
 [3, 3],
 [4, 3],
 [5, 3],
 [6, 3],
 [7, 3],
 [8, 3],
 [9, 3],
 [10, 3],
 [11, 3],
 [12, 3],
 [3, 2],
 [4, 2],
 [5, 2],
 [6, 2],
 [7, 2],
 [8, 2],
 [9, 2],
 [1, 4],
 [1, 3],
 [1, 2],
 [1, 1],
 [1, 0],
 [2, 2],
 [2, 1],
 [10, 2],
 [11, 2],
 [12, 2],
 [13, 2],
 [14, 2],
 [3, 1],
 [4, 1],
 [5, 1],
 [6, 1],
 [7, 1],
 [8, 1],
 [9, 1],
 [10, 1],
 [11, 1],
 [12, 1],
 [13, 1],
 [14, 1],
 [3, 0],
 [4, 0],
 [5, 0],
 [6, 0],
 [7, 0],
 [8, 0],
 [9, 0],
 [10, 0],
 [11, 0],
 [12, 0],
 [13, 0],
 [14, 0],
 [2, 0]],
 [[2, 5],
 [2, 4],
 [2, 3],
 [3, 6],
 [8, 6],
 [9, 6],
 [3, 5],
 [4, 5],
 [5, 5],
 [6, 5],
 [7, 5],
 [8, 5],
 [9, 5],
 [3, 4],
 [4, 4],
 [5, 4],
 [6, 4],
 [7, 4],
 [8, 4],
 [9, 4],
 [10, 4],
 [3, 3],
 [4, 3],
 [5, 3],
 [6, 3],
 [7, 3],
 [8, 3],
 [9, 3],
 [10, 3],
 [11, 3],
 [12, 3],
 [14, 3],
 [3, 2],
 [4, 2],
 [5, 2],
 [6, 2],
 [7, 2],
 [8, 2],
 [9, 2],
 [10, 2],
 [11, 2],
 [12, 2],
 [1, 4],
 [1, 3],
 [1, 2],
 [1, 1],
 [1, 0],
 [2, 2],
 [2, 1],
 [13, 2],
 [14, 2],
 [15, 2],
 [3, 1],
 [4, 1],
 [5, 1],
 [6, 1],
 [7, 1],
 [8, 1],
 [9, 1],
 [10, 1],
 [11, 1],
 [12, 1],
 [13, 1],
 [14, 1],
 [15, 1],
 [3, 0],
 [4, 0],
 [5, 0],
 [6, 0],
 [7, 0],
 [8, 0],
 [9, 0],
 [10, 0],
 [11, 0],
 [12, 0],
 [13, 0],
 [14, 0],
 [15, 0],
 [2, 0]],
 [[2, 5],
 [2, 4],
 [2, 3],
 [3, 6],
 [9, 6],
 [3, 5],
 [4, 5],
 [5, 5],
 [6, 5],
 [8, 5],
 [9, 5],
 [3, 4],
 [4, 4],
 [5, 4],
 [6, 4],
 [7, 4],
 [8, 4],
 [9, 4],
 [10, 4],
 [3, 3],
 [4, 3],
 [5, 3],
 [6, 3],
 [7, 3],
 [8, 3],
 [9, 3],
 [10, 3],
 [11, 3],
 [12, 3],
 [3, 2],
 [4, 2],
 [5, 2],
 [6, 2],
 [7, 2],
 [8, 2],
 [9, 2],
 [10, 2],
 [11, 2],
 [12, 2],
 [13, 2],
 [14, 2],
 [15, 2],
 [1, 4],
 [1, 3],
 [1, 2],
 [1, 1],
 [1, 0],
 [2, 2],
 [2, 1],
 [16, 2],
 [3, 1],
 [4, 1],
 [5, 1],
 [6, 1],
 [7, 1],
 [8, 1],
 [9, 1],
 [10, 1],
 [11, 1],
 [12, 1],
 [13, 1],
 [14, 1],
 [15, 1],
 [16, 1],
 [3, 0],
 [4, 0],
 [5, 0],
 [6, 0],
 [7, 0],
 [8, 0],
 [9, 0],
 [10, 0],
 [11, 0],
 [12, 0],
 [13, 0],
 [14, 0],
 [15, 0],
 [16, 0],
 [2, 0]],
 [[2, 5],
 [2, 4],
 [2, 3],
 [3, 5],
 [4, 5],
 [5, 5],
 [8, 5],
 [9, 5],
 [3, 4],
 [4, 4],
 [5, 4],
 [6, 4],
 [7, 4],
 [8, 4],
 [9, 4],
 [10, 4],
 [3, 3],
 [4, 3],
 [5, 3],
 [6, 3],
 [7, 3],
 [8, 3],
 [9, 3],
 [10, 3],
 [11, 3],
 [12, 3],
 [3, 2],
 [4, 2],
 [5, 2],
 [6, 2],
 [7, 2],
 [8, 2],
 [9, 2],
 [10, 2],
 [11, 2],
 [12, 2],
 [13, 2],
 [14, 2],
 [15, 2],
 [16, 2],
 [3, 1],
 [4, 1],
 [1, 5],
 [1, 4],
 [1, 3],
 [1, 2],
 [1, 1],
 [1, 0],
 [2, 2],
 [2, 1],
 [5, 1],
 [6, 1],
 [7, 1],
 [8, 1],
 [9, 1],
 [10, 1],
 [11, 1],
 [12, 1],
 [13, 1],
 [14, 1],
 [15, 1],
 [16, 1],
 [17, 1],
 [3, 0],
 [4, 0],
 [5, 0],
 [6, 0],
 [7, 0],
 [8, 0],
 [9, 0],
 [10, 0],
 [11, 0],
 [12, 0],
 [13, 0],
 [14, 0],
 [15, 0],
 [16, 0],
 [17, 0],
 [2, 0]],
 [[2, 5],
 [2, 4],
 [2, 3],
 [3, 5],
 [4, 5],
 [3, 4],
 [4, 4],
 [5, 4],
 [6, 4],
 [7, 4],
 [8, 4],
 [9, 4],
 [10, 4],
 [3, 3],
 [4, 3],
 [5, 3],
 [6, 3],
 [7, 3],
 [8, 3],
 [9, 3],
 [10, 3],
 [11, 3],
 [12, 3],
 [13, 3],
 [3, 2],
 [4, 2],
 [5, 2],
 [6, 2],
 [7, 2],
 [8, 2],
 [9, 2],
 [10, 2],
 [11, 2],
 [12, 2],
 [13, 2],
 [14, 2],
 [15, 2],
 [17, 2],
 [3, 1],
 [4, 1],
 [5, 1],
 [6, 1],
 [1, 5],
 [1, 4],
 [1, 3],
 [1, 2],
 [1, 1],
 [1, 0],
 [2, 2],
 [2, 1],
 [7, 1],
 [8, 1],
 [9, 1],
 [10, 1],
 [11, 1],
 [12, 1],
 [13, 1],
 [14, 1],
 [15, 1],
 [16, 1],
 [17, 1],
 [18, 1],
 [3, 0],
 [4, 0],
 [5, 0],
 [6, 0],
 [7, 0],
 [8, 0],
 [9, 0],
 [10, 0],
 [11, 0],
 [12, 0],
 [13, 0],
 [14, 0],
 [15, 0],
 [16, 0],
 [17, 0],
 [18, 0],
 [2, 0]],
 [[2, 5],
 [2, 4],
 [2, 3],
 [3, 5],
 [3, 4],
 [4, 4],
 [5, 4],
 [6, 4],
 [7, 4],
 [8, 4],
 [10, 4],
 [11, 4],
 [3, 3],
 [4, 3],
 [5, 3],
 [6, 3],
 [7, 3],
 [8, 3],
 [9, 3],
 [10, 3],
 [11, 3],
 [12, 3],
 [3, 2],
 [4, 2],
 [5, 2],
 [6, 2],
 [7, 2],
 [8, 2],
 [9, 2],
 [10, 2],
 [11, 2],
 [12, 2],
 [13, 2],
 [14, 2],
 [15, 2],
 [16, 2],
 [3, 1],
 [4, 1],
 [5, 1],
 [6, 1],
 [7, 1],
 [8, 1],
 [1, 5],
 [1, 4],
 [1, 3],
 [1, 2],
 [1, 1],
 [1, 0],
 [2, 2],
 [2, 1],
 [9, 1],
 [10, 1],
 [11, 1],
 [12, 1],
 [13, 1],
 [14, 1],
 [15, 1],
 [16, 1],
 [17, 1],
 [18, 1],
 [19, 1],
 [3, 0],
 [4, 0],
 [5, 0],
 [6, 0],
 [7, 0],
 [8, 0],
 [9, 0],
 [10, 0],
 [11, 0],
 [12, 0],
 [13, 0],
 [14, 0],
 [15, 0],
 [16, 0],
 [17, 0],
 [18, 0],
 [19, 0],
 [2, 0]],
 [[2, 5],
 [2, 4],
 [2, 3],
 [3, 5],
 [3, 4],
 [4, 4],
 [5, 4],
 [8, 4],
 [10, 4],
 [3, 3],
 [4, 3],
 [5, 3],
 [6, 3],
 [7, 3],
 [8, 3],
 [9, 3],
 [10, 3],
 [11, 3],
 [12, 3],
 [3, 2],
 [4, 2],
 [5, 2],
 [6, 2],
 [7, 2],
 [8, 2],
 [9, 2],
 [10, 2],
 [11, 2],
 [12, 2],
 [13, 2],
 [14, 2],
 [15, 2],
 [16, 2],
 [18, 2],
 [3, 1],
 [4, 1],
 [5, 1],
 [6, 1],
 [7, 1],
 [8, 1],
 [9, 1],
 [10, 1],
 [1, 6],
 [1, 5],
 [1, 4],
 [1, 3],
 [1, 2],
 [1, 1],
 [1, 0],
 [2, 2],
 [2, 1],
 [11, 1],
 [12, 1],
 [13, 1],
 [14, 1],
 [15, 1],
 [16, 1],
 [17, 1],
 [18, 1],
 [19, 1],
 [3, 0],
 [4, 0],
 [5, 0],
 [6, 0],
 [7, 0],
 [8, 0],
 [9, 0],
 [10, 0],
 [11, 0],
 [12, 0],
 [13, 0],
 [14, 0],
 [15, 0],
 [16, 0],
 [17, 0],
 [18, 0],
 [19, 0],
 [20, 0],
 [2, 0]],
 [[2, 5],
 [2, 4],
 [2, 3],
 [3, 5],
 [3, 4],
 [4, 4],
 [5, 4],
 [8, 4],
 [10, 4],
 [3, 3],
 [4, 3],
 [5, 3],
 [6, 3],
 [7, 3],
 [8, 3],
 [9, 3],
 [10, 3],
 [11, 3],
 [12, 3],
 [3, 2],
 [4, 2],
 [5, 2],
 [6, 2],
 [7, 2],
 [8, 2],
 [9, 2],
 [10, 2],
 [11, 2],
 [12, 2],
 [13, 2],
 [14, 2],
 [16, 2],
 [19, 2],
 [3, 1],
 [4, 1],
 [5, 1],
 [6, 1],
 [7, 1],
 [8, 1],
 [9, 1],
 [10, 1],
 [11, 1],
 [1, 6],
 [1, 5],
 [1, 4],
 [1, 3],
 [1, 2],
 [1, 1],
 [1, 0],
 [2, 2],
 [2, 1],
 [12, 1],
 [13, 1],
 [14, 1],
 [15, 1],
 [16, 1],
 [17, 1],
 [19, 1],
 [20, 1],
 [3, 0],
 [4, 0],
 [5, 0],
 [6, 0],
 [7, 0],
 [8, 0],
 [9, 0],
 [10, 0],
 [11, 0],
 [12, 0],
 [13, 0],
 [14, 0],
 [15, 0],
 [16, 0],
 [17, 0],
 [18, 0],
 [19, 0],
 [20, 0],
 [21, 0],
 [2, 0]],
 [[2, 5],
 [2, 4],
 [2, 3],
 [3, 4],
 [4, 4],
 [5, 4],
 [10, 4],
 [3, 3],
 [4, 3],
 [5, 3],
 [6, 3],
 [7, 3],
 [8, 3],
 [9, 3],
 [10, 3],
 [11, 3],
 [12, 3],
 [3, 2],
 [4, 2],
 [5, 2],
 [6, 2],
 [7, 2],
 [8, 2],
 [9, 2],
 [10, 2],
 [11, 2],
 [12, 2],
 [13, 2],
 [14, 2],
 [17, 2],
 [20, 2],
 [3, 1],
 [4, 1],
 [5, 1],
 [6, 1],
 [7, 1],
 [8, 1],
 [9, 1],
 [10, 1],
 [11, 1],
 [12, 1],
 [13, 1],
 [1, 6],
 [1, 5],
 [1, 4],
 [1, 3],
 [1, 2],
 [1, 1],
 [1, 0],
 [2, 2],
 [2, 1],
 [14, 1],
 [15, 1],
 [16, 1],
 [17, 1],
 [18, 1],
 [20, 1],
 [21, 1],
 [3, 0],
 [4, 0],
 [5, 0],
 [6, 0],
 [7, 0],
 [8, 0],
 [9, 0],
 [10, 0],
 [11, 0],
 [12, 0],
 [13, 0],
 [14, 0],
 [15, 0],
 [16, 0],
 [17, 0],
 [18, 0],
 [19, 0],
 [20, 0],
 [21, 0],
 [22, 0],
 [2, 0]],
 [[2, 5],
 [2, 4],
 [2, 3],
 [3, 4],
 [4, 4],
 [3, 3],
 [4, 3],
 [5, 3],
 [6, 3],
 [7, 3],
 [8, 3],
 [9, 3],
 [10, 3],
 [11, 3],
 [12, 3],
 [3, 2],
 [4, 2],
 [5, 2],
 [6, 2],
 [7, 2],
 [8, 2],
 [9, 2],
 [10, 2],
 [11, 2],
 [12, 2],
 [13, 2],
 [15, 2],
 [18, 2],
 [3, 1],
 [4, 1],
 [5, 1],
 [6, 1],
 [7, 1],
 [8, 1],
 [9, 1],
 [10, 1],
 [11, 1],
 [12, 1],
 [13, 1],
 [14, 1],
 [15, 1],
 [16, 1],
 [1, 7],
 [1, 6],
 [1, 5],
 [1, 4],
 [1, 3],
 [1, 2],
 [1, 1],
 [1, 0],
 [2, 2],
 [2, 1],
 [17, 1],
 [18, 1],
 [19, 1],
 [21, 1],
 [22, 1],
 [3, 0],
 [4, 0],
 [5, 0],
 [6, 0],
 [7, 0],
 [8, 0],
 [9, 0],
 [10, 0],
 [11, 0],
 [12, 0],
 [13, 0],
 [14, 0],
 [15, 0],
 [16, 0],
 [17, 0],
 [18, 0],
 [19, 0],
 [20, 0],
 [21, 0],
 [22, 0],
 [23, 0],
 [2, 0]],
 [[2, 5],
 [2, 4],
 [2, 3],
 [3, 4],
 [3, 3],
 [4, 3],
 [5, 3],
 [6, 3],
 [7, 3],
 [8, 3],
 [10, 3],
 [11, 3],
 [13, 3],
 [3, 2],
 [4, 2],
 [5, 2],
 [6, 2],
 [7, 2],
 [8, 2],
 [9, 2],
 [10, 2],
 [11, 2],
 [12, 2],
 [13, 2],
 [14, 2],
 [16, 2],
 [3, 1],
 [4, 1],
 [5, 1],
 [6, 1],
 [7, 1],
 [8, 1],
 [9, 1],
 [10, 1],
 [11, 1],
 [12, 1],
 [13, 1],
 [14, 1],
 [15, 1],
 [16, 1],
 [17, 1],
 [18, 1],
 [1, 7],
 [1, 6],
 [1, 5],
 [1, 4],
 [1, 3],
 [1, 2],
 [1, 1],
 [1, 0],
 [2, 2],
 [2, 1],
 [19, 1],
 [20, 1],
 [22, 1],
 [23, 1],
 [3, 0],
 [4, 0],
 [5, 0],
 [6, 0],
 [7, 0],
 [8, 0],
 [9, 0],
 [10, 0],
 [11, 0],
 [12, 0],
 [13, 0],
 [14, 0],
 [15, 0],
 [16, 0],
 [17, 0],
 [18, 0],
 [19, 0],
 [20, 0],
 [21, 0],
 [22, 0],
 [23, 0],
 [24, 0],
 [2, 0]],
 [[2, 5],
 [2, 4],
 [2, 3],
 [3, 4],
 [3, 3],
 [4, 3],
 [5, 3],
 [6, 3],
 [7, 3],
 [8, 3],
 [11, 3],
 [3, 2],
 [4, 2],
 [5, 2],
 [6, 2],
 [7, 2],
 [8, 2],
 [9, 2],
 [10, 2],
 [11, 2],
 [12, 2],
 [13, 2],
 [14, 2],
 [15, 2],
 [17, 2],
 [3, 1],
 [4, 1],
 [5, 1],
 [6, 1],
 [7, 1],
 [8, 1],
 [9, 1],
 [10, 1],
 [11, 1],
 [12, 1],
 [13, 1],
 [14, 1],
 [15, 1],
 [16, 1],
 [17, 1],
 [18, 1],
 [20, 1],
 [1, 7],
 [1, 6],
 [1, 5],
 [1, 4],
 [1, 3],
 [1, 2],
 [1, 1],
 [1, 0],
 [2, 2],
 [2, 1],
 [21, 1],
 [23, 1],
 [24, 1],
 [3, 0],
 [4, 0],
 [5, 0],
 [6, 0],
 [7, 0],
 [8, 0],
 [9, 0],
 [10, 0],
 [11, 0],
 [12, 0],
 [13, 0],
 [14, 0],
 [15, 0],
 [16, 0],
 [17, 0],
 [18, 0],
 [19, 0],
 [20, 0],
 [21, 0],
 [22, 0],
 [23, 0],
 [24, 0],
 [25, 0],
 [2, 0]],
 [[2, 5],
 [2, 4],
 [2, 3],
 [3, 4],
 [3, 3],
 [4, 3],
 [5, 3],
 [6, 3],
 [8, 3],
 [11, 3],
 [3, 2],
 [4, 2],
 [5, 2],
 [6, 2],
 [7, 2],
 [8, 2],
 [9, 2],
 [10, 2],
 [11, 2],
 [12, 2],
 [13, 2],
 [14, 2],
 [15, 2],
 [17, 2],
 [3, 1],
 [4, 1],
 [5, 1],
 [6, 1],
 [7, 1],
 [8, 1],
 [9, 1],
 [10, 1],
 [11, 1],
 [12, 1],
 [13, 1],
 [14, 1],
 [15, 1],
 [16, 1],
 [17, 1],
 [18, 1],
 [20, 1],
 [21, 1],
 [1, 8],
 [1, 7],
 [1, 6],
 [1, 5],
 [1, 4],
 [1, 3],
 [1, 2],
 [1, 1],
 [1, 0],
 [2, 2],
 [2, 1],
 [23, 1],
 [3, 0],
 [4, 0],
 [5, 0],
 [6, 0],
 [7, 0],
 [8, 0],
 [9, 0],
 [10, 0],
 [11, 0],
 [12, 0],
 [13, 0],
 [14, 0],
 [15, 0],
 [16, 0],
 [17, 0],
 [18, 0],
 [19, 0],
 [20, 0],
 [21, 0],
 [22, 0],
 [23, 0],
 [24, 0],
 [25, 0],
 [26, 0],
 [2, 0]],
 [[2, 5],
 [2, 4],
 [2, 3],
 [3, 4],
 [3, 3],
 [4, 3],
 [5, 3],
 [8, 3],
 [11, 3],
 [3, 2],
 [4, 2],
 [5, 2],
 [6, 2],
 [7, 2],
 [8, 2],
 [9, 2],
 [10, 2],
 [11, 2],
 [12, 2],
 [13, 2],
 [14, 2],
 [17, 2],
 [3, 1],
 [4, 1],
 [5, 1],
 [6, 1],
 [7, 1],
 [8, 1],
 [9, 1],
 [10, 1],
 [11, 1],
 [12, 1],
 [13, 1],
 [14, 1],
 [15, 1],
 [16, 1],
 [17, 1],
 [18, 1],
 [20, 1],
 [21, 1],
 [24, 1],
 [25, 1],
 [1, 8],
 [1, 7],
 [1, 6],
 [1, 5],
 [1, 4],
 [1, 3],
 [1, 2],
 [1, 1],
 [1, 0],
 [2, 2],
 [2, 1],
 [3, 0],
 [4, 0],
 [5, 0],
 [6, 0],
 [7, 0],
 [8, 0],
 [9, 0],
 [10, 0],
 [11, 0],
 [12, 0],
 [13, 0],
 [14, 0],
 [15, 0],
 [16, 0],
 [17, 0],
 [18, 0],
 [19, 0],
 [20, 0],
 [21, 0],
 [22, 0],
 [23, 0],
 [24, 0],
 [25, 0],
 [26, 0],
 [27, 0],
 [2, 0]],
 [[2, 5],
 [2, 4],
 [2, 3],
 [3, 4],
 [3, 3],
 [4, 3],
 [5, 3],
 [8, 3],
 [11, 3],
 [3, 2],
 [4, 2],
 [5, 2],
 [6, 2],
 [7, 2],
 [8, 2],
 [9, 2],
 [11, 2],
 [12, 2],
 [14, 2],
 [17, 2],
 [3, 1],
 [4, 1],
 [5, 1],
 [6, 1],
 [7, 1],
 [8, 1],
 [9, 1],
 [10, 1],
 [11, 1],
 [12, 1],
 [13, 1],
 [14, 1],
 [15, 1],
 [16, 1],
 [17, 1],
 [18, 1],
 [19, 1],
 [21, 1],
 [22, 1],
 [25, 1],
 [26, 1],
 [3, 0],
 [1, 8],
 [1, 7],
 [1, 6],
 [1, 5],
 [1, 4],
 [1, 3],
 [1, 2],
 [1, 1],
 [1, 0],
 [2, 2],
 [2, 1],
 [4, 0],
 [5, 0],
 [6, 0],
 [7, 0],
 [8, 0],
 [9, 0],
 [10, 0],
 [11, 0],
 [12, 0],
 [13, 0],
 [14, 0],
 [15, 0],
 [16, 0],
 [17, 0],
 [18, 0],
 [19, 0],
 [20, 0],
 [21, 0],
 [22, 0],
 [23, 0],
 [24, 0],
 [25, 0],
 [26, 0],
 [27, 0],
 [28, 0],
 [2, 0]],
 [[2, 5],
 [2, 4],
 [2, 3],
 [3, 3],
 [4, 3],
 [5, 3],
 [8, 3],
 [11, 3],
 [3, 2],
 [4, 2],
 [5, 2],
 [6, 2],
 [7, 2],
 [8, 2],
 [9, 2],
 [11, 2],
 [12, 2],
 [14, 2],
 [18, 2],
 [3, 1],
 [4, 1],
 [5, 1],
 [6, 1],
 [7, 1],
 [8, 1],
 [9, 1],
 [10, 1],
 [11, 1],
 [12, 1],
 [13, 1],
 [14, 1],
 [15, 1],
 [16, 1],
 [17, 1],
 [18, 1],
 [19, 1],
 [22, 1],
 [23, 1],
 [26, 1],
 [3, 0],
 [4, 0],
 [5, 0],
 [1, 9],
 [1, 8],
 [1, 7],
 [1, 6],
 [1, 5],
 [1, 4],
 [1, 3],
 [1, 2],
 [1, 1],
 [1, 0],
 [2, 2],
 [2, 1],
 [6, 0],
 [7, 0],
 [8, 0],
 [9, 0],
 [10, 0],
 [11, 0],
 [12, 0],
 [13, 0],
 [14, 0],
 [15, 0],
 [16, 0],
 [17, 0],
 [18, 0],
 [19, 0],
 [20, 0],
 [21, 0],
 [22, 0],
 [23, 0],
 [24, 0],
 [25, 0],
 [26, 0],
 [27, 0],
 [28, 0],
 [29, 0],
 [2, 0]],
 [[2, 5],
 [2, 4],
 [2, 3],
 [3, 3],
 [4, 3],
 [5, 3],
 [11, 3],
 [3, 2],
 [4, 2],
 [5, 2],
 [6, 2],
 [7, 2],
 [8, 2],
 [9, 2],
 [11, 2],
 [12, 2],
 [15, 2],
 [19, 2],
 [3, 1],
 [4, 1],
 [5, 1],
 [6, 1],
 [7, 1],
 [8, 1],
 [9, 1],
 [10, 1],
 [11, 1],
 [12, 1],
 [13, 1],
 [14, 1],
 [15, 1],
 [16, 1],
 [17, 1],
 [18, 1],
 [19, 1],
 [20, 1],
 [23, 1],
 [27, 1],
 [3, 0],
 [4, 0],
 [5, 0],
 [6, 0],
 [1, 9],
 [1, 8],
 [1, 7],
 [1, 6],
 [1, 5],
 [1, 4],
 [1, 3],
 [1, 2],
 [1, 1],
 [1, 0],
 [2, 2],
 [2, 1],
 [7, 0],
 [8, 0],
 [9, 0],
 [10, 0],
 [11, 0],
 [12, 0],
 [13, 0],
 [14, 0],
 [15, 0],
 [16, 0],
 [17, 0],
 [18, 0],
 [19, 0],
 [20, 0],
 [21, 0],
 [22, 0],
 [23, 0],
 [24, 0],
 [25, 0],
 [26, 0],
 [27, 0],
 [28, 0],
 [29, 0],
 [30, 0],
 [2, 0]],
 [[2, 5],
 [2, 4],
 [2, 3],
 [3, 3],
 [4, 3],
 [5, 3],
 [3, 2],
 [4, 2],
 [5, 2],
 [6, 2],
 [7, 2],
 [8, 2],
 [9, 2],
 [12, 2],
 [13, 2],
 [16, 2],
 [20, 2],
 [3, 1],
 [4, 1],
 [5, 1],
 [6, 1],
 [7, 1],
 [8, 1],
 [9, 1],
 [10, 1],
 [11, 1],
 [12, 1],
 [13, 1],
 [14, 1],
 [15, 1],
 [16, 1],
 [17, 1],
 [18, 1],
 [20, 1],
 [21, 1],
 [24, 1],
 [28, 1],
 [3, 0],
 [4, 0],
 [5, 0],
 [6, 0],
 [7, 0],
 [1, 9],
 [1, 8],
 [1, 7],
 [1, 6],
 [1, 5],
 [1, 4],
 [1, 3],
 [1, 2],
 [1, 1],
 [1, 0],
 [2, 2],
 [2, 1],
 [8, 0],
 [9, 0],
 [10, 0],
 [11, 0],
 [12, 0],
 [13, 0],
 [14, 0],
 [15, 0],
 [16, 0],
 [17, 0],
 [18, 0],
 [19, 0],
 [20, 0],
 [21, 0],
 [22, 0],
 [23, 0],
 [24, 0],
 [25, 0],
 [26, 0],
 [27, 0],
 [28, 0],
 [29, 0],
 [30, 0],
 [31, 0],
 [2, 0]],
 [[2, 5],
 [2, 4],
 [2, 3],
 [3, 3],
 [4, 3],
 [3, 2],
 [4, 2],
 [5, 2],
 [6, 2],
 [7, 2],
 [8, 2],
 [9, 2],
 [12, 2],
 [13, 2],
 [16, 2],
 [3, 1],
 [4, 1],
 [5, 1],
 [6, 1],
 [7, 1],
 [8, 1],
 [9, 1],
 [10, 1],
 [11, 1],
 [12, 1],
 [13, 1],
 [14, 1],
 [15, 1],
 [16, 1],
 [17, 1],
 [18, 1],
 [20, 1],
 [21, 1],
 [24, 1],
 [28, 1],
 [3, 0],
 [4, 0],
 [5, 0],
 [6, 0],
 [7, 0],
 [8, 0],
 [9, 0],
 [1, 10],
 [1, 9],
 [1, 8],
 [1, 7],
 [1, 6],
 [1, 5],
 [1, 4],
 [1, 3],
 [1, 2],
 [1, 1],
 [1, 0],
 [2, 2],
 [2, 1],
 [10, 0],
 [11, 0],
 [12, 0],
 [13, 0],
 [14, 0],
 [15, 0],
 [16, 0],
 [17, 0],
 [18, 0],
 [19, 0],
 [20, 0],
 [21, 0],
 [22, 0],
 [23, 0],
 [24, 0],
 [25, 0],
 [26, 0],
 [27, 0],
 [28, 0],
 [29, 0],
 [30, 0],
 [31, 0],
 [32, 0],
 [2, 0]],
 [[2, 5],
 [2, 4],
 [2, 3],
 [3, 3],
 [4, 3],
 [3, 2],
 [4, 2],
 [5, 2],
 [6, 2],
 [7, 2],
 [8, 2],
 [9, 2],
 [12, 2],
 [13, 2],
 [16, 2],
 [3, 1],
 [4, 1],
 [5, 1],
 [6, 1],
 [7, 1],
 [8, 1],
 [9, 1],
 [10, 1],
 [11, 1],
 [12, 1],
 [13, 1],
 [14, 1],
 [15, 1],
 [16, 1],
 [17, 1],
 [18, 1],
 [20, 1],
 [21, 1],
 [24, 1],
 [29, 1],
 [3, 0],
 [4, 0],
 [5, 0],
 [6, 0],
 [7, 0],
 [8, 0],
 [9, 0],
 [1, 10],
 [1, 9],
 [1, 8],
 [1, 7],
 [1, 6],
 [1, 5],
 [1, 4],
 [1, 3],
 [1, 2],
 [1, 1],
 [1, 0],
 [2, 2],
 [2, 1],
 [10, 0],
 [11, 0],
 [12, 0],
 [13, 0],
 [14, 0],
 [15, 0],
 [16, 0],
 [17, 0],
 [18, 0],
 [19, 0],
 [20, 0],
 [21, 0],
 [22, 0],
 [23, 0],
 [24, 0],
 [25, 0],
 [26, 0],
 [27, 0],
 [28, 0],
 [29, 0],
 [30, 0],
 [31, 0],
 [32, 0],
 [2, 0]],
 [[2, 5],
 [2, 4],
 [2, 3],
 [3, 3],
 [3, 2],
 [4, 2],
 [5, 2],
 [6, 2],
 [7, 2],
 [8, 2],
 [9, 2],
 [12, 2],
 [13, 2],
 [16, 2],
 [3, 1],
 [4, 1],
 [5, 1],
 [6, 1],
 [7, 1],
 [8, 1],
 [9, 1],
 [10, 1],
 [11, 1],
 [12, 1],
 [13, 1],
 [14, 1],
 [15, 1],
 [16, 1],
 [17, 1],
 [20, 1],
 [21, 1],
 [25, 1],
 [30, 1],
 [3, 0],
 [4, 0],
 [5, 0],
 [6, 0],
 [7, 0],
 [8, 0],
 [9, 0],
 [10, 0],
 [11, 0],
 [1, 10],
 [1, 9],
 [1, 8],
 [1, 7],
 [1, 6],
 [1, 5],
 [1, 4],
 [1, 3],
 [1, 2],
 [1, 1],
 [1, 0],
 [2, 2],
 [2, 1],
 [12, 0],
 [13, 0],
 [14, 0],
 [15, 0],
 [16, 0],
 [17, 0],
 [18, 0],
 [19, 0],
 [20, 0],
 [21, 0],
 [22, 0],
 [23, 0],
 [24, 0],
 [25, 0],
 [26, 0],
 [27, 0],
 [28, 0],
 [29, 0],
 [30, 0],
 [31, 0],
 [32, 0],
 [33, 0],
 [34, 0],
 [2, 0]],
 [[2, 5],
 [2, 4],
 [2, 3],
 [3, 3],
 [3, 2],
 [4, 2],
 [5, 2],
 [6, 2],
 [7, 2],
 [8, 2],
 [12, 2],
 [16, 2],
 [3, 1],
 [4, 1],
 [5, 1],
 [6, 1],
 [7, 1],
 [8, 1],
 [9, 1],
 [10, 1],
 [11, 1],
 [12, 1],
 [13, 1],
 [14, 1],
 [15, 1],
 [16, 1],
 [17, 1],
 [18, 1],
 [21, 1],
 [22, 1],
 [26, 1],
 [31, 1],
 [3, 0],
 [4, 0],
 [5, 0],
 [6, 0],
 [7, 0],
 [8, 0],
 [9, 0],
 [10, 0],
 [11, 0],
 [12, 0],
 [1, 11],
 [1, 10],
 [1, 9],
 [1, 8],
 [1, 7],
 [1, 6],
 [1, 5],
 [1, 4],
 [1, 3],
 [1, 2],
 [1, 1],
 [1, 0],
 [2, 2],
 [2, 1],
 [13, 0],
 [14, 0],
 [15, 0],
 [16, 0],
 [17, 0],
 [18, 0],
 [19, 0],
 [20, 0],
 [21, 0],
 [22, 0],
 [23, 0],
 [24, 0],
 [25, 0],
 [26, 0],
 [27, 0],
 [28, 0],
 [29, 0],
 [30, 0],
 [31, 0],
 [32, 0],
 [33, 0],
 [34, 0],
 [2, 0]],
 [[2, 5],
 [2, 4],
 [2, 3],
 [3, 3],
 [3, 2],
 [4, 2],
 [5, 2],
 [6, 2],
 [7, 2],
 [8, 2],
 [12, 2],
 [17, 2],
 [3, 1],
 [4, 1],
 [5, 1],
 [6, 1],
 [7, 1],
 [8, 1],
 [9, 1],
 [10, 1],
 [11, 1],
 [12, 1],
 [13, 1],
 [14, 1],
 [15, 1],
 [16, 1],
 [17, 1],
 [18, 1],
 [22, 1],
 [23, 1],
 [27, 1],
 [32, 1],
 [3, 0],
 [4, 0],
 [5, 0],
 [6, 0],
 [7, 0],
 [8, 0],
 [9, 0],
 [10, 0],
 [11, 0],
 [12, 0],
 [1, 11],
 [1, 10],
 [1, 9],
 [1, 8],
 [1, 7],
 [1, 6],
 [1, 5],
 [1, 4],
 [1, 3],
 [1, 2],
 [1, 1],
 [1, 0],
 [2, 2],
 [2, 1],
 [13, 0],
 [14, 0],
 [15, 0],
 [16, 0],
 [17, 0],
 [18, 0],
 [19, 0],
 [20, 0],
 [21, 0],
 [22, 0],
 [23, 0],
 [24, 0],
 [25, 0],
 [26, 0],
 [27, 0],
 [28, 0],
 [29, 0],
 [30, 0],
 [32, 0],
 [33, 0],
 [34, 0],
 [35, 0],
 [2, 0]],
 [[2, 5],
 [2, 4],
 [2, 3],
 [3, 3],
 [3, 2],
 [4, 2],
 [5, 2],
 [6, 2],
 [7, 2],
 [8, 2],
 [13, 2],
 [18, 2],
 [3, 1],
 [4, 1],
 [5, 1],
 [6, 1],
 [7, 1],
 [8, 1],
 [9, 1],
 [10, 1],
 [11, 1],
 [13, 1],
 [14, 1],
 [15, 1],
 [16, 1],
 [18, 1],
 [19, 1],
 [23, 1],
 [24, 1],
 [28, 1],
 [33, 1],
 [3, 0],
 [4, 0],
 [5, 0],
 [6, 0],
 [7, 0],
 [8, 0],
 [9, 0],
 [10, 0],
 [11, 0],
 [12, 0],
 [13, 0],
 [1, 11],
 [1, 10],
 [1, 9],
 [1, 8],
 [1, 7],
 [1, 6],
 [1, 5],
 [1, 4],
 [1, 3],
 [1, 2],
 [1, 1],
 [1, 0],
 [2, 2],
 [2, 1],
 [14, 0],
 [15, 0],
 [16, 0],
 [17, 0],
 [18, 0],
 [19, 0],
 [20, 0],
 [21, 0],
 [22, 0],
 [23, 0],
 [24, 0],
 [25, 0],
 [26, 0],
 [27, 0],
 [28, 0],
 [29, 0],
 [30, 0],
 [31, 0],
 [33, 0],
 [34, 0],
 [35, 0],
 [36, 0],
 [2, 0]],
 [[2, 5],
 [2, 4],
 [2, 3],
 [3, 3],
 [3, 2],
 [4, 2],
 [5, 2],
 [6, 2],
 [8, 2],
 [13, 2],
 [18, 2],
 [3, 1],
 [4, 1],
 [5, 1],
 [6, 1],
 [7, 1],
 [8, 1],
 [9, 1],
 [10, 1],
 [11, 1],
 [13, 1],
 [14, 1],
 [15, 1],
 [16, 1],
 [17, 1],
 [18, 1],
 [19, 1],
 [23, 1],
 [28, 1],
 [33, 1],
 [3, 0],
 [4, 0],
 [5, 0],
 [6, 0],
 [7, 0],
 [8, 0],
 [9, 0],
 [10, 0],
 [11, 0],
 [12, 0],
 [13, 0],
 [14, 0],
 [1, 11],
 [1, 10],
 [1, 9],
 [1, 8],
 [1, 7],
 [1, 6],
 [1, 5],
 [1, 4],
 [1, 3],
 [1, 2],
 [1, 1],
 [1, 0],
 [2, 2],
 [2, 1],
 [15, 0],
 [16, 0],
 [17, 0],
 [18, 0],
 [19, 0],
 [20, 0],
 [21, 0],
 [22, 0],
 [23, 0],
 [24, 0],
 [25, 0],
 [26, 0],
 [27, 0],
 [28, 0],
 [29, 0],
 [30, 0],
 [31, 0],
 [33, 0],
 [34, 0],
 [35, 0],
 [36, 0],
 [37, 0],
 [2, 0]],
 [[2, 5],
 [2, 4],
 [2, 3],
 [3, 3],
 [3, 2],
 [4, 2],
 [5, 2],
 [6, 2],
 [8, 2],
 [13, 2],
 [18, 2],
 [3, 1],
 [4, 1],
 [5, 1],
 [6, 1],
 [7, 1],
 [8, 1],
 [9, 1],
 [10, 1],
 [11, 1],
 [13, 1],
 [14, 1],
 [15, 1],
 [16, 1],
 [18, 1],
 [19, 1],
 [23, 1],
 [28, 1],
 [34, 1],
 [3, 0],
 [4, 0],
 [5, 0],
 [6, 0],
 [7, 0],
 [8, 0],
 [9, 0],
 [10, 0],
 [11, 0],
 [12, 0],
 [13, 0],
 [14, 0],
 [15, 0],
 [1, 11],
 [1, 10],
 [1, 9],
 [1, 8],
 [1, 7],
 [1, 6],
 [1, 5],
 [1, 4],
 [1, 3],
 [1, 2],
 [1, 1],
 [1, 0],
 [2, 2],
 [2, 1],
 [16, 0],
 [17, 0],
 [18, 0],
 [19, 0],
 [20, 0],
 [21, 0],
 [22, 0],
 [23, 0],
 [24, 0],
 [25, 0],
 [26, 0],
 [27, 0],
 [28, 0],
 [29, 0],
 [30, 0],
 [31, 0],
 [32, 0],
 [34, 0],
 [35, 0],
 [36, 0],
 [37, 0],
 [38, 0],
 [2, 0]],
 [[2, 5],
 [2, 4],
 [2, 3],
 [3, 3],
 [3, 2],
 [4, 2],
 [5, 2],
 [6, 2],
 [8, 2],
 [13, 2],
 [18, 2],
 [3, 1],
 [4, 1],
 [5, 1],
 [6, 1],
 [7, 1],
 [8, 1],
 [9, 1],
 [10, 1],
 [11, 1],
 [13, 1],
 [14, 1],
 [15, 1],
 [16, 1],
 [18, 1],
 [19, 1],
 [23, 1],
 [24, 1],
 [29, 1],
 [35, 1],
 [3, 0],
 [4, 0],
 [5, 0],
 [6, 0],
 [7, 0],
 [8, 0],
 [9, 0],
 [10, 0],
 [11, 0],
 [12, 0],
 [13, 0],
 [14, 0],
 [1, 11],
 [1, 10],
 [1, 9],
 [1, 8],
 [1, 7],
 [1, 6],
 [1, 5],
 [1, 4],
 [1, 3],
 [1, 2],
 [1, 1],
 [1, 0],
 [2, 2],
 [2, 1],
 [15, 0],
 [16, 0],
 [17, 0],
 [18, 0],
 [19, 0],
 [20, 0],
 [21, 0],
 [22, 0],
 [23, 0],
 [24, 0],
 [25, 0],
 [26, 0],
 [27, 0],
 [29, 0],
 [30, 0],
 [31, 0],
 [32, 0],
 [33, 0],
 [35, 0],
 [36, 0],
 [37, 0],
 [38, 0],
 [2, 0]],
 [[2, 5],
 [2, 4],
 [2, 3],
 [3, 3],
 [3, 2],
 [4, 2],
 [5, 2],
 [6, 2],
 [8, 2],
 [13, 2],
 [18, 2],
 [3, 1],
 [4, 1],
 [5, 1],
 [6, 1],
 [7, 1],
 [8, 1],
 [9, 1],
 [10, 1],
 [11, 1],
 [13, 1],
 [14, 1],
 [15, 1],
 [18, 1],
 [19, 1],
 [24, 1],
 [25, 1],
 [30, 1],
 [36, 1],
 [3, 0],
 [4, 0],
 [5, 0],
 [6, 0],
 [7, 0],
 [8, 0],
 [9, 0],
 [10, 0],
 [11, 0],
 [12, 0],
 [13, 0],
 [14, 0],
 [15, 0],
 [1, 11],
 [1, 10],
 [1, 9],
 [1, 8],
 [1, 7],
 [1, 6],
 [1, 5],
 [1, 4],
 [1, 3],
 [1, 2],
 [1, 1],
 [1, 0],
 [2, 2],
 [2, 1],
 [16, 0],
 [17, 0],
 [18, 0],
 [19, 0],
 [20, 0],
 [21, 0],
 [22, 0],
 [23, 0],
 [24, 0],
 [25, 0],
 [26, 0],
 [27, 0],
 [28, 0],
 [30, 0],
 [31, 0],
 [32, 0],
 [33, 0],
 [34, 0],
 [36, 0],
 [37, 0],
 [38, 0],
 [39, 0],
 [2, 0]],
 [[2, 5],
 [2, 4],
 [2, 3],
 [3, 3],
 [3, 2],
 [4, 2],
 [5, 2],
 [8, 2],
 [13, 2],
 [19, 2],
 [3, 1],
 [4, 1],
 [5, 1],
 [6, 1],
 [7, 1],
 [8, 1],
 [9, 1],
 [10, 1],
 [13, 1],
 [14, 1],
 [15, 1],
 [16, 1],
 [19, 1],
 [20, 1],
 [25, 1],
 [26, 1],
 [31, 1],
 [37, 1],
 [3, 0],
 [4, 0],
 [5, 0],
 [6, 0],
 [7, 0],
 [8, 0],
 [9, 0],
 [10, 0],
 [11, 0],
 [12, 0],
 [13, 0],
 [14, 0],
 [15, 0],
 [16, 0],
 [1, 11],
 [1, 10],
 [1, 9],
 [1, 8],
 [1, 7],
 [1, 6],
 [1, 5],
 [1, 4],
 [1, 3],
 [1, 2],
 [1, 1],
 [1, 0],
 [2, 2],
 [2, 1],
 [17, 0],
 [18, 0],
 [19, 0],
 [20, 0],
 [21, 0],
 [22, 0],
 [23, 0],
 [24, 0],
 [25, 0],
 [26, 0],
 [27, 0],
 [28, 0],
 [29, 0],
 [31, 0],
 [32, 0],
 [33, 0],
 [34, 0],
 [35, 0],
 [37, 0],
 [38, 0],
 [39, 0],
 [40, 0],
 [2, 0]],
 [[2, 5],
 [2, 4],
 [2, 3],
 [3, 3],
 [3, 2],
 [4, 2],
 [5, 2],
 [8, 2],
 [14, 2],
 [3, 1],
 [4, 1],
 [5, 1],
 [6, 1],
 [7, 1],
 [8, 1],
 [9, 1],
 [10, 1],
 [11, 1],
 [14, 1],
 [15, 1],
 [16, 1],
 [17, 1],
 [20, 1],
 [21, 1],
 [26, 1],
 [27, 1],
 [32, 1],
 [38, 1],
 [3, 0],
 [4, 0],
 [5, 0],
 [6, 0],
 [7, 0],
 [8, 0],
 [9, 0],
 [10, 0],
 [11, 0],
 [12, 0],
 [13, 0],
 [14, 0],
 [15, 0],
 [16, 0],
 [1, 11],
 [1, 10],
 [1, 9],
 [1, 8],
 [1, 7],
 [1, 6],
 [1, 5],
 [1, 4],
 [1, 3],
 [1, 2],
 [1, 1],
 [1, 0],
 [2, 2],
 [2, 1],
 [17, 0],
 [18, 0],
 [19, 0],
 [20, 0],
 [21, 0],
 [22, 0],
 [23, 0],
 [24, 0],
 [25, 0],
 [26, 0],
 [27, 0],
 [28, 0],
 [29, 0],
 [30, 0],
 [32, 0],
 [33, 0],
 [34, 0],
 [35, 0],
 [38, 0],
 [39, 0],
 [40, 0],
 [41, 0],
 [2, 0]],
 [[2, 5],
 [2, 4],
 [2, 3],
 [3, 3],
 [3, 2],
 [4, 2],
 [5, 2],
 [8, 2],
 [14, 2],
 [3, 1],
 [4, 1],
 [5, 1],
 [6, 1],
 [7, 1],
 [8, 1],
 [9, 1],
 [10, 1],
 [11, 1],
 [14, 1],
 [15, 1],
 [16, 1],
 [17, 1],
 [20, 1],
 [21, 1],
 [26, 1],
 [32, 1],
 [38, 1],
 [3, 0],
 [4, 0],
 [5, 0],
 [6, 0],
 [7, 0],
 [8, 0],
 [9, 0],
 [10, 0],
 [11, 0],
 [12, 0],
 [13, 0],
 [14, 0],
 [15, 0],
 [16, 0],
 [17, 0],
 [1, 11],
 [1, 10],
 [1, 9],
 [1, 8],
 [1, 7],
 [1, 6],
 [1, 5],
 [1, 4],
 [1, 3],
 [1, 2],
 [1, 1],
 [1, 0],
 [2, 2],
 [2, 1],
 [18, 0],
 [19, 0],
 [20, 0],
 [21, 0],
 [22, 0],
 [23, 0],
 [24, 0],
 [25, 0],
 [26, 0],
 [27, 0],
 [28, 0],
 [29, 0],
 [30, 0],
 [32, 0],
 [33, 0],
 [34, 0],
 [35, 0],
 [38, 0],
 [39, 0],
 [40, 0],
 [41, 0],
 [42, 0],
 [2, 0]],
 [[2, 5],
 [2, 4],
 [2, 3],
 [3, 3],
 [3, 2],
 [4, 2],
 [5, 2],
 [8, 2],
 [14, 2],
 [3, 1],
 [4, 1],
 [5, 1],
 [6, 1],
 [7, 1],
 [8, 1],
 [9, 1],
 [10, 1],
 [14, 1],
 [15, 1],
 [16, 1],
 [17, 1],
 [20, 1],
 [21, 1],
 [26, 1],
 [32, 1],
 [39, 1],
 [3, 0],
 [4, 0],
 [5, 0],
 [6, 0],
 [7, 0],
 [8, 0],
 [9, 0],
 [10, 0],
 [11, 0],
 [12, 0],
 [13, 0],
 [14, 0],
 [15, 0],
 [16, 0],
 [17, 0],
 [18, 0],
 [1, 11],
 [1, 10],
 [1, 9],
 [1, 8],
 [1, 7],
 [1, 6],
 [1, 5],
 [1, 4],
 [1, 3],
 [1, 2],
 [1, 1],
 [1, 0],
 [2, 2],
 [2, 1],
 [19, 0],
 [20, 0],
 [21, 0],
 [22, 0],
 [23, 0],
 [24, 0],
 [25, 0],
 [26, 0],
 [27, 0],
 [28, 0],
 [29, 0],
 [30, 0],
 [32, 0],
 [33, 0],
 [34, 0],
 [35, 0],
 [36, 0],
 [39, 0],
 [40, 0],
 [41, 0],
 [42, 0],
 [43, 0],
 [2, 0]],
 [[2, 5],
 [2, 4],
 [2, 3],
 [3, 3],
 [3, 2],
 [4, 2],
 [5, 2],
 [8, 2],
 [14, 2],
 [3, 1],
 [4, 1],
 [5, 1],
 [6, 1],
 [7, 1],
 [8, 1],
 [9, 1],
 [10, 1],
 [14, 1],
 [15, 1],
 [16, 1],
 [20, 1],
 [21, 1],
 [26, 1],
 [27, 1],
 [33, 1],
 [40, 1],
 [3, 0],
 [4, 0],
 [5, 0],
 [6, 0],
 [7, 0],
 [8, 0],
 [9, 0],
 [10, 0],
 [11, 0],
 [12, 0],
 [13, 0],
 [14, 0],
 [15, 0],
 [16, 0],
 [17, 0],
 [18, 0],
 [1, 11],
 [1, 10],
 [1, 9],
 [1, 8],
 [1, 7],
 [1, 6],
 [1, 5],
 [1, 4],
 [1, 3],
 [1, 2],
 [1, 1],
 [1, 0],
 [2, 2],
 [2, 1],
 [19, 0],
 [20, 0],
 [21, 0],
 [22, 0],
 [23, 0],
 [24, 0],
 [25, 0],
 [26, 0],
 [27, 0],
 [28, 0],
 [29, 0],
 [30, 0],
 [33, 0],
 [34, 0],
 [35, 0],
 [36, 0],
 [37, 0],
 [40, 0],
 [41, 0],
 [42, 0],
 [43, 0],
 [44, 0],
 [2, 0]],
 [[2, 5],
 [2, 4],
 [2, 3],
 [3, 2],
 [4, 2],
 [5, 2],
 [8, 2],
 [14, 2],
 [3, 1],
 [4, 1],
 [5, 1],
 [6, 1],
 [7, 1],
 [8, 1],
 [9, 1],
 [10, 1],
 [14, 1],
 [15, 1],
 [16, 1],
 [20, 1],
 [21, 1],
 [27, 1],
 [28, 1],
 [34, 1],
 [41, 1],
 [3, 0],
 [4, 0],
 [5, 0],
 [6, 0],
 [7, 0],
 [8, 0],
 [9, 0],
 [10, 0],
 [11, 0],
 [12, 0],
 [13, 0],
 [14, 0],
 [15, 0],
 [16, 0],
 [17, 0],
 [18, 0],
 [19, 0],
 [1, 11],
 [1, 10],
 [1, 9],
 [1, 8],
 [1, 7],
 [1, 6],
 [1, 5],
 [1, 4],
 [1, 3],
 [1, 2],
 [1, 1],
 [1, 0],
 [2, 2],
 [2, 1],
 [20, 0],
 [21, 0],
 [22, 0],
 [23, 0],
 [24, 0],
 [25, 0],
 [26, 0],
 [27, 0],
 [28, 0],
 [29, 0],
 [30, 0],
 [31, 0],
 [34, 0],
 [35, 0],
 [36, 0],
 [37, 0],
 [38, 0],
 [41, 0],
 [42, 0],
 [43, 0],
 [44, 0],
 [45, 0],
 [2, 0]],
 [[2, 5],
 [2, 4],
 [2, 3],
 [3, 2],
 [4, 2],
 [5, 2],
 [8, 2],
 [14, 2],
 [3, 1],
 [4, 1],
 [5, 1],
 [6, 1],
 [7, 1],
 [8, 1],
 [9, 1],
 [10, 1],
 [14, 1],
 [15, 1],
 [16, 1],
 [21, 1],
 [22, 1],
 [28, 1],
 [29, 1],
 [35, 1],
 [42, 1],
 [3, 0],
 [4, 0],
 [5, 0],
 [6, 0],
 [7, 0],
 [8, 0],
 [9, 0],
 [10, 0],
 [11, 0],
 [12, 0],
 [13, 0],
 [14, 0],
 [15, 0],
 [16, 0],
 [17, 0],
 [18, 0],
 [19, 0],
 [1, 11],
 [1, 10],
 [1, 9],
 [1, 8],
 [1, 7],
 [1, 6],
 [1, 5],
 [1, 4],
 [1, 3],
 [1, 2],
 [1, 1],
 [1, 0],
 [2, 2],
 [2, 1],
 [20, 0],
 [21, 0],
 [22, 0],
 [23, 0],
 [24, 0],
 [25, 0],
 [26, 0],
 [27, 0],
 [28, 0],
 [29, 0],
 [30, 0],
 [31, 0],
 [32, 0],
 [35, 0],
 [36, 0],
 [37, 0],
 [38, 0],
 [39, 0],
 [42, 0],
 [43, 0],
 [44, 0],
 [45, 0],
 [2, 0]],
 [[2, 5],
 [2, 4],
 [2, 3],
 [3, 2],
 [4, 2],
 [5, 2],
 [8, 2],
 [15, 2],
 [3, 1],
 [4, 1],
 [5, 1],
 [6, 1],
 [7, 1],
 [8, 1],
 [9, 1],
 [10, 1],
 [15, 1],
 [16, 1],
 [17, 1],
 [22, 1],
 [23, 1],
 [29, 1],
 [30, 1],
 [36, 1],
 [43, 1],
 [3, 0],
 [4, 0],
 [5, 0],
 [6, 0],
 [7, 0],
 [8, 0],
 [9, 0],
 [10, 0],
 [11, 0],
 [12, 0],
 [13, 0],
 [14, 0],
 [15, 0],
 [16, 0],
 [17, 0],
 [18, 0],
 [19, 0],
 [1, 11],
 [1, 10],
 [1, 9],
 [1, 8],
 [1, 7],
 [1, 6],
 [1, 5],
 [1, 4],
 [1, 3],
 [1, 2],
 [1, 1],
 [1, 0],
 [2, 2],
 [2, 1],
 [20, 0],
 [21, 0],
 [22, 0],
 [23, 0],
 [24, 0],
 [25, 0],
 [26, 0],
 [27, 0],
 [28, 0],
 [29, 0],
 [30, 0],
 [31, 0],
 [32, 0],
 [33, 0],
 [36, 0],
 [37, 0],
 [38, 0],
 [39, 0],
 [43, 0],
 [44, 0],
 [45, 0],
 [46, 0],
 [2, 0]],
 [[2, 5],
 [2, 4],
 [2, 3],
 [3, 2],
 [4, 2],
 [5, 2],
 [8, 2],
 [15, 2],
 [3, 1],
 [4, 1],
 [5, 1],
 [6, 1],
 [7, 1],
 [8, 1],
 [9, 1],
 [10, 1],
 [15, 1],
 [16, 1],
 [17, 1],
 [22, 1],
 [23, 1],
 [29, 1],
 [30, 1],
 [36, 1],
 [43, 1],
 [3, 0],
 [4, 0],
 [5, 0],
 [6, 0],
 [7, 0],
 [8, 0],
 [9, 0],
 [10, 0],
 [11, 0],
 [12, 0],
 [13, 0],
 [14, 0],
 [15, 0],
 [16, 0],
 [17, 0],
 [18, 0],
 [19, 0],
 [1, 11],
 [1, 10],
 [1, 9],
 [1, 8],
 [1, 7],
 [1, 6],
 [1, 5],
 [1, 4],
 [1, 3],
 [1, 2],
 [1, 1],
 [1, 0],
 [2, 2],
 [2, 1],
 [20, 0],
 [21, 0],
 [22, 0],
 [23, 0],
 [24, 0],
 [25, 0],
 [26, 0],
 [27, 0],
 [29, 0],
 [30, 0],
 [31, 0],
 [32, 0],
 [33, 0],
 [36, 0],
 [37, 0],
 [38, 0],
 [39, 0],
 [43, 0],
 [44, 0],
 [45, 0],
 [46, 0],
 [47, 0],
 [2, 0]],
 [[2, 5],
 [2, 4],
 [2, 3],
 [3, 2],
 [4, 2],
 [5, 2],
 [8, 2],
 [15, 2],
 [3, 1],
 [4, 1],
 [5, 1],
 [6, 1],
 [7, 1],
 [8, 1],
 [9, 1],
 [10, 1],
 [15, 1],
 [16, 1],
 [17, 1],
 [22, 1],
 [23, 1],
 [29, 1],
 [30, 1],
 [36, 1],
 [44, 1],
 [3, 0],
 [4, 0],
 [5, 0],
 [6, 0],
 [7, 0],
 [8, 0],
 [9, 0],
 [10, 0],
 [11, 0],
 [12, 0],
 [13, 0],
 [14, 0],
 [15, 0],
 [16, 0],
 [17, 0],
 [18, 0],
 [19, 0],
 [1, 11],
 [1, 10],
 [1, 9],
 [1, 8],
 [1, 7],
 [1, 6],
 [1, 5],
 [1, 4],
 [1, 3],
 [1, 2],
 [1, 1],
 [1, 0],
 [2, 2],
 [2, 1],
 [20, 0],
 [21, 0],
 [22, 0],
 [23, 0],
 [24, 0],
 [25, 0],
 [26, 0],
 [27, 0],
 [29, 0],
 [30, 0],
 [31, 0],
 [32, 0],
 [33, 0],
 [36, 0],
 [37, 0],
 [38, 0],
 [39, 0],
 [40, 0],
 [44, 0],
 [45, 0],
 [46, 0],
 [47, 0],
 [2, 0]],
 [[2, 5],
 [2, 4],
 [2, 3],
 [3, 2],
 [4, 2],
 [5, 2],
 [8, 2],
 [15, 2],
 [3, 1],
 [4, 1],
 [5, 1],
 [6, 1],
 [7, 1],
 [8, 1],
 [9, 1],
 [10, 1],
 [15, 1],
 [16, 1],
 [22, 1],
 [23, 1],
 [29, 1],
 [30, 1],
 [37, 1],
 [45, 1],
 [3, 0],
 [4, 0],
 [5, 0],
 [6, 0],
 [7, 0],
 [8, 0],
 [9, 0],
 [10, 0],
 [11, 0],
 [12, 0],
 [13, 0],
 [14, 0],
 [15, 0],
 [16, 0],
 [17, 0],
 [18, 0],
 [19, 0],
 [20, 0],
 [1, 11],
 [1, 10],
 [1, 9],
 [1, 8],
 [1, 7],
 [1, 6],
 [1, 5],
 [1, 4],
 [1, 3],
 [1, 2],
 [1, 1],
 [1, 0],
 [2, 2],
 [2, 1],
 [21, 0],
 [22, 0],
 [23, 0],
 [24, 0],
 [25, 0],
 [26, 0],
 [27, 0],
 [29, 0],
 [30, 0],
 [31, 0],
 [32, 0],
 [33, 0],
 [37, 0],
 [38, 0],
 [39, 0],
 [40, 0],
 [41, 0],
 [45, 0],
 [46, 0],
 [47, 0],
 [48, 0],
 [49, 0],
 [2, 0]],
 [[2, 5],
 [2, 4],
 [2, 3],
 [3, 2],
 [4, 2],
 [8, 2],
 [15, 2],
 [3, 1],
 [4, 1],
 [5, 1],
 [6, 1],
 [7, 1],
 [8, 1],
 [9, 1],
 [15, 1],
 [16, 1],
 [17, 1],
 [22, 1],
 [23, 1],
 [30, 1],
 [31, 1],
 [38, 1],
 [46, 1],
 [3, 0],
 [4, 0],
 [5, 0],
 [6, 0],
 [7, 0],
 [8, 0],
 [9, 0],
 [10, 0],
 [11, 0],
 [12, 0],
 [13, 0],
 [14, 0],
 [15, 0],
 [16, 0],
 [17, 0],
 [18, 0],
 [19, 0],
 [20, 0],
 [21, 0],
 [1, 11],
 [1, 10],
 [1, 9],
 [1, 8],
 [1, 7],
 [1, 6],
 [1, 5],
 [1, 4],
 [1, 3],
 [1, 2],
 [1, 1],
 [1, 0],
 [2, 2],
 [2, 1],
 [22, 0],
 [23, 0],
 [24, 0],
 [25, 0],
 [26, 0],
 [27, 0],
 [28, 0],
 [30, 0],
 [31, 0],
 [32, 0],
 [33, 0],
 [34, 0],
 [38, 0],
 [39, 0],
 [40, 0],
 [41, 0],
 [42, 0],
 [46, 0],
 [47, 0],
 [48, 0],
 [49, 0],
 [50, 0],
 [2, 0]],
 [[2, 5],
 [2, 4],
 [2, 3],
 [3, 2],
 [4, 2],
 [8, 2],
 [15, 2],
 [3, 1],
 [4, 1],
 [5, 1],
 [6, 1],
 [7, 1],
 [8, 1],
 [9, 1],
 [15, 1],
 [16, 1],
 [17, 1],
 [23, 1],
 [24, 1],
 [31, 1],
 [32, 1],
 [39, 1],
 [47, 1],
 [3, 0],
 [4, 0],
 [5, 0],
 [6, 0],
 [7, 0],
 [8, 0],
 [9, 0],
 [10, 0],
 [11, 0],
 [12, 0],
 [13, 0],
 [14, 0],
 [15, 0],
 [16, 0],
 [17, 0],
 [18, 0],
 [19, 0],
 [20, 0],
 [21, 0],
 [1, 11],
 [1, 10],
 [1, 9],
 [1, 8],
 [1, 7],
 [1, 6],
 [1, 5],
 [1, 4],
 [1, 3],
 [1, 2],
 [1, 1],
 [1, 0],
 [2, 2],
 [2, 1],
 [22, 0],
 [23, 0],
 [24, 0],
 [25, 0],
 [26, 0],
 [27, 0],
 [28, 0],
 [29, 0],
 [31, 0],
 [32, 0],
 [33, 0],
 [34, 0],
 [35, 0],
 [39, 0],
 [40, 0],
 [41, 0],
 [42, 0],
 [43, 0],
 [47, 0],
 [48, 0],
 [49, 0],
 [50, 0],
 [2, 0]],
 [[2, 5],
 [2, 4],
 [2, 3],
 [3, 2],
 [4, 2],
 [8, 2],
 [16, 2],
 [3, 1],
 [4, 1],
 [5, 1],
 [6, 1],
 [7, 1],
 [8, 1],
 [9, 1],
 [10, 1],
 [16, 1],
 [17, 1],
 [18, 1],
 [24, 1],
 [25, 1],
 [32, 1],
 [33, 1],
 [40, 1],
 [48, 1],
 [3, 0],
 [4, 0],
 [5, 0],
 [6, 0],
 [7, 0],
 [8, 0],
 [9, 0],
 [10, 0],
 [11, 0],
 [12, 0],
 [13, 0],
 [14, 0],
 [16, 0],
 [17, 0],
 [18, 0],
 [19, 0],
 [20, 0],
 [21, 0],
 [1, 11],
 [1, 10],
 [1, 9],
 [1, 8],
 [1, 7],
 [1, 6],
 [1, 5],
 [1, 4],
 [1, 3],
 [1, 2],
 [1, 1],
 [1, 0],
 [2, 2],
 [2, 1],
 [22, 0],
 [24, 0],
 [25, 0],
 [26, 0],
 [27, 0],
 [28, 0],
 [29, 0],
 [30, 0],
 [32, 0],
 [33, 0],
 [34, 0],
 [35, 0],
 [36, 0],
 [40, 0],
 [41, 0],
 [42, 0],
 [43, 0],
 [44, 0],
 [48, 0],
 [49, 0],
 [50, 0],
 [51, 0],
 [2, 0]],
 [[2, 5],
 [2, 4],
 [2, 3],
 [3, 2],
 [4, 2],
 [8, 2],
 [16, 2],
 [3, 1],
 [4, 1],
 [5, 1],
 [6, 1],
 [7, 1],
 [8, 1],
 [9, 1],
 [10, 1],
 [16, 1],
 [17, 1],
 [18, 1],
 [24, 1],
 [25, 1],
 [32, 1],
 [33, 1],
 [40, 1],
 [48, 1],
 [3, 0],
 [4, 0],
 [5, 0],
 [6, 0],
 [7, 0],
 [8, 0],
 [9, 0],
 [10, 0],
 [11, 0],
 [12, 0],
 [13, 0],
 [14, 0],
 [16, 0],
 [17, 0],
 [18, 0],
 [19, 0],
 [20, 0],
 [21, 0],
 [1, 11],
 [1, 10],
 [1, 9],
 [1, 8],
 [1, 7],
 [1, 6],
 [1, 5],
 [1, 4],
 [1, 3],
 [1, 2],
 [1, 1],
 [1, 0],
 [2, 2],
 [2, 1],
 [22, 0],
 [24, 0],
 [25, 0],
 [26, 0],
 [27, 0],
 [28, 0],
 [29, 0],
 [30, 0],
 [32, 0],
 [33, 0],
 [34, 0],
 [35, 0],
 [36, 0],
 [40, 0],
 [41, 0],
 [42, 0],
 [43, 0],
 [48, 0],
 [49, 0],
 [50, 0],
 [51, 0],
 [52, 0],
 [2, 0]],
 [[2, 5],
 [2, 4],
 [2, 3],
 [3, 2],
 [4, 2],
 [8, 2],
 [16, 2],
 [3, 1],
 [4, 1],
 [5, 1],
 [6, 1],
 [7, 1],
 [8, 1],
 [9, 1],
 [10, 1],
 [16, 1],
 [17, 1],
 [18, 1],
 [24, 1],
 [25, 1],
 [32, 1],
 [33, 1],
 [40, 1],
 [49, 1],
 [3, 0],
 [4, 0],
 [5, 0],
 [6, 0],
 [7, 0],
 [8, 0],
 [9, 0],
 [10, 0],
 [11, 0],
 [12, 0],
 [13, 0],
 [14, 0],
 [16, 0],
 [17, 0],
 [18, 0],
 [19, 0],
 [20, 0],
 [21, 0],
 [1, 11],
 [1, 10],
 [1, 9],
 [1, 8],
 [1, 7],
 [1, 6],
 [1, 5],
 [1, 4],
 [1, 3],
 [1, 2],
 [1, 1],
 [1, 0],
 [2, 2],
 [2, 1],
 [22, 0],
 [24, 0],
 [25, 0],
 [26, 0],
 [27, 0],
 [28, 0],
 [29, 0],
 [30, 0],
 [32, 0],
 [33, 0],
 [34, 0],
 [35, 0],
 [36, 0],
 [40, 0],
 [41, 0],
 [42, 0],
 [43, 0],
 [44, 0],
 [49, 0],
 [50, 0],
 [51, 0],
 [52, 0],
 [2, 0]]]

/-- `ImbeJi`, src/internal/imbe7200x4400_const.h:665-675. -/
def ImbeJi : List (List Nat) :=
 [[1, 1, 1, 2, 2, 2],
 [1, 1, 2, 2, 2, 2],
 [1, 2, 2, 2, 2, 2],
 [2, 2, 2, 2, 2, 2],
 [2, 2, 2, 2, 2, 3],
 [2, 2, 2, 2, 3, 3],
 [2, 2, 2, 3, 3, 3],
 [2, 2, 3, 3, 3, 3],
 [2, 3, 3, 3, 3, 3],
 [3, 3, 3, 3, 3, 3],
 [3, 3, 3, 3, 3, 4],
 [3, 3, 3, 3, 4, 4],
 [3, 3, 3, 4, 4, 4],
 [3, 3, 4, 4, 4, 4],
 [3, 4, 4, 4, 4, 4],
 [4, 4, 4, 4, 4, 4],
 [4, 4, 4, 4, 4, 5],
 [4, 4, 4, 4, 5, 5],
 [4, 4, 4, 5, 5, 5],
 [4, 4, 5, 5, 5, 5],
 [4, 5, 5, 5, 5, 5],
 [5, 5, 5, 5, 5, 5],
 [5, 5, 5, 5, 5, 6],
 [5, 5, 5, 5, 6, 6],
 [5, 5, 5, 6, 6, 6],
 [5, 5, 6, 6, 6, 6],
 [5, 6, 6, 6, 6, 6],
 [6, 6, 6, 6, 6, 6],
 [6, 6, 6, 6, 6, 7],
 [6, 6, 6, 6, 7, 7],
 [6, 6, 6, 7, 7, 7],
 [6, 6, 7, 7, 7, 7],
 [6, 7, 7, 7, 7, 7],
 [7, 7, 7, 7, 7, 7],
 [7, 7, 7, 7, 7, 8],
 [7, 7, 7, 7, 8, 8],
 [7, 7, 7, 8, 8, 8],
 [7, 7, 8, 8, 8, 8],
 [7, 8, 8, 8, 8, 8],
 [8, 8, 8, 8, 8, 8],
 [8, 8, 8, 8, 8, 9],
 [8, 8, 8, 8, 9, 9],
 [8, 8, 8, 9, 9, 9],
 [8, 8, 9, 9, 9, 9],
 [8, 9, 9, 9, 9, 9],
 [9, 9, 9, 9, 9, 9],
 [9, 9, 9, 9, 9, 10],
 [9, 9, 9, 9, 10, 10]]

end Verif.Gen
