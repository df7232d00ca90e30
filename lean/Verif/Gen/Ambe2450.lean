/-! Generated by tools/gen_tables.py from /repo/src/internal/ambe3600x2450_const.h; do not edit. -/

set_option maxRecDepth 20000

namespace Verif.Gen

/-- `AmbeW0table`, src/internal/ambe3600x2450_const.h:29-40, numerators over 10^6. -/
def AmbeW0table : List Int :=
 [49971, 49215, 48471, 47739, 47010, 46299, 45601, 44905, 44226, 43558, 42900, 42246, 41609, 40979, 40356,
  39747, 39148, 38559, 37971, 37399, 36839, 36278, 35732, 35198, 34672, 34145, 33636, 33133, 32635, 32148,
  31670, 31122, 30647, 30184, 29728, 29272, 28831, 28395, 27966, 27538, 27122, 26712, 26304, 25906, 25515,
  25129, 24746, 24372, 24002, 23636, 23279, 22926, 22581, 22236, 21900, 21570, 21240, 20920, 20605, 20294,
  19983, 19684, 19386, 19094, 18805, 18520, 18242, 17965, 17696, 17431, 17170, 16911, 16657, 16409, 16163,
  15923, 15686, 15411, 15177, 14946, 14721, 14496, 14277, 14061, 13847, 13636, 13430, 13227, 13025, 12829,
  12634, 12444, 12253, 12068, 11887, 11703, 11528, 11353, 11183, 11011, 10845, 10681, 10517, 10359, 10202,
  10050, 9895, 9747, 9600, 9453, 9312, 9172, 9033, 8896, 8762, 8633, 8501, 8375, 8249, 8125]

/-- Common denominator of `AmbeW0table` (src/internal/ambe3600x2450_const.h:29-40). -/
def AmbeW0table_den : Nat := 1000000

/-- `AmbeLtable`, src/internal/ambe3600x2450_const.h:42-47, numerators over 10^0. -/
def AmbeLtable : List Int :=
 [9, 9, 9, 9, 9, 9, 10, 10, 10, 10, 10, 10, 11, 11, 11, 11, 11, 11, 12, 12, 12, 12, 12, 13, 13, 13, 13, 13, 14,
  14, 14, 14, 15, 15, 15, 15, 16, 16, 16, 16, 17, 17, 17, 17, 18, 18, 18, 18, 19, 19, 19, 20, 20, 20, 21, 21,
  21, 22, 22, 22, 23, 23, 23, 24, 24, 24, 25, 25, 26, 26, 26, 27, 27, 28, 28, 29, 29, 30, 30, 30, 31, 31, 32,
  32, 33, 33, 34, 34, 35, 36, 36, 37, 37, 38, 38, 39, 40, 40, 41, 42, 42, 43, 43, 44, 45, 46, 46, 47, 48, 48,
  49, 50, 51, 52, 52, 53, 54, 55, 56, 56]

/-- Common denominator of `AmbeLtable` (src/internal/ambe3600x2450_const.h:42-47). -/
def AmbeLtable_den : Nat := 1

/-- `AmbeVuv`, src/internal/ambe3600x2450_const.h:52-60. -/
def AmbeVuv : List (List Nat) :=
 [[1, 1, 1, 1, 1, 1, 1, 1],
 [1, 1, 1, 1, 1, 1, 1, 1],
 [1, 1, 1, 1, 1, 1, 1, 0],
 [1, 1, 1, 1, 1, 1, 1, 1],
 [1, 1, 1, 1, 1, 1, 0, 0],
 [1, 1, 0, 1, 1, 1, 1, 1],
 [1, 1, 1, 0, 1, 1, 1, 1],
 [1, 1, 1, 1, 1, 0, 1, 1],
 [1, 1, 1, 1, 0, 0, 0, 0],
 [1, 1, 1, 1, 1, 0, 0, 0],
 [1, 1, 1, 0, 0, 0, 0, 0],
 [1, 1, 1, 0, 0, 0, 0, 1],
 [1, 1, 0, 0, 0, 0, 0, 0],
 [1, 1, 1, 0, 0, 0, 0, 0],
 [1, 0, 0, 0, 0, 0, 0, 0],
 [1, 1, 1, 0, 0, 0, 0, 0],
 [0, 0, 0, 0, 0, 0, 0, 0],
 [0, 0, 0, 0, 0, 0, 0, 0],
 [0, 0, 0, 0, 0, 0, 0, 0],
 [0, 0, 0, 0, 0, 0, 0, 0],
 [0, 0, 0, 0, 0, 0, 0, 0],
 [0, 0, 0, 0, 0, 0, 0, 0],
 [0, 0, 0, 0, 0, 0, 0, 0],
 [0, 0, 0, 0, 0, 0, 0, 0],
 [0, 0, 0, 0, 0, 0, 0, 0],
 [0, 0, 0, 0, 0, 0, 0, 0],
 [0, 0, 0, 0, 0, 0, 0, 0],
 [0, 0, 0, 0, 0, 0, 0, 0],
 [0, 0, 0, 0, 0, 0, 0, 0],
 [0, 0, 0, 0, 0, 0, 0, 0],
 [0, 0, 0, 0, 0, 0, 0, 0],
 [0, 0, 0, 0, 0, 0, 0, 0]]

/-- `AmbeLmprbl`, src/internal/ambe3600x2450_const.h:106-442. -/
def AmbeLmprbl : List (List Nat) :=
 [[0, 0, 0, 0],
 [0, 0, 0, 0],
 [0, 0, 0, 0],
 [0, 0, 0, 0],
 [0, 0, 0, 0],
 [0, 0, 0, 0],
 [0, 0, 0, 0],
 [0, 0, 0, 0],
 [0, 0, 0, 0],
 [2, 2, 2, 3],
 [2, 2, 3, 3],
 [2, 3, 3, 3],
 [2, 3, 3, 4],
 [3, 3, 3, 4],
 [3, 3, 4, 4],
 [3, 3, 4, 5],
 [3, 4, 4, 5],
 [3, 4, 5, 5],
 [4, 4, 5, 5],
 [4, 4, 5, 6],
 [4, 4, 6, 6],
 [4, 5, 6, 6],
 [4, 5, 6, 7],
 [5, 5, 6, 7],
 [5, 5, 7, 7],
 [5, 6, 7, 7],
 [5, 6, 7, 8],
 [5, 6, 8, 8],
 [6, 6, 8, 8],
 [6, 6, 8, 9],
 [6, 7, 8, 9],
 [6, 7, 9, 9],
 [6, 7, 9, 10],
 [7, 7, 9, 10],
 [7, 8, 9, 10],
 [7, 8, 10, 10],
 [7, 8, 10, 11],
 [8, 8, 10, 11],
 [8, 9, 10, 11],
 [8, 9, 11, 11],
 [8, 9, 11, 12],
 [8, 9, 11, 13],
 [8, 9, 12, 13],
 [8, 10, 12, 13],
 [9, 10, 12, 13],
 [9, 10, 12, 14],
 [9, 10, 13, 14],
 [9, 11, 13, 14],
 [10, 11, 13, 14],
 [10, 11, 13, 15],
 [10, 11, 14, 15],
 [10, 12, 14, 15],
 [10, 12, 14, 16],
 [11, 12, 14, 16],
 [11, 12, 15, 16],
 [11, 12, 15, 17],
 [11, 13, 15, 17]]

/-- `AmbeDg`, src/internal/ambe3600x2450_const.h:447-450, numerators over 10^6. -/
def AmbeDg : List Int :=
 [-2000000, -670000, 297941, 663728, 1036829, 1438136, 1890077, 2227970, 2478289, 2667544, 2793619, 2893261,
  3020630, 3138586, 3237579, 3322570, 3432367, 3571863, 3696650, 3814917, 3920932, 4022503, 4123569, 4228291,
  4370569, 4543700, 4707695, 4848879, 5056757, 5326468, 5777581, 6874496]

/-- Common denominator of `AmbeDg` (src/internal/ambe3600x2450_const.h:447-450). -/
def AmbeDg_den : Nat := 1000000

/-- Rows 0..63 of `AmbePRBA24`, src/internal/ambe3600x2450_const.h:455-626, numerators over 10^6. -/
def AmbePRBA24_rows0 : List (List Int) :=
 [[526055, -328567, -304727],
 [441044, -303127, -201114],
 [1030896, -324730, -397204],
 [839696, -351933, -224909],
 [272958, -176118, -98893],
 [221466, -160045, -61026],
 [496555, -211499, 47305],
 [424376, -223752, 69911],
 [264531, -353355, -330505],
 [273650, -253004, -250241],
 [484531, -297627, -71051],
 [410814, -224961, -84998],
 [39519, -252904, -115128],
 [17423, -296519, -45921],
 [225113, -224371, 37882],
 [183424, -260492, 50491],
 [308704, -73205, -405880],
 [213125, -101632, -333208],
 [617735, -137299, -213670],
 [514382, -126485, -170204],
 [130009, -76955, -229303],
 [61740, -108259, -203887],
 [244473, -110094, -51689],
 [230452, -76147, -28190],
 [59837, -254595, -562704],
 [11630, -135223, -432791],
 [207077, -152248, -148391],
 [158078, -128800, -122150],
 [-265982, -144742, -199894],
 [-356479, -204740, -156465],
 [324, -139549, -66471],
 [1888, -170557, -25025],
 [402913, -581478, -274626],
 [191289, -540335, -193040],
 [632914, -401410, -6636],
 [471086, -463144, 61489],
 [44829, -438487, 33433],
 [15513, -539475, -6719],
 [336218, -351311, 214087],
 [239967, -380836, 157681],
 [347609, -901619, -688432],
 [64067, -826753, -492089],
 [303089, -396757, -108446],
 [235590, -446122, 6437],
 [-236964, -652532, -135520],
 [-418285, -793014, -34730],
 [-38262, -516984, 273681],
 [-37419, -958198, 214749],
 [61624, -238233, -237184],
 [-13944, -235704, -204811],
 [286428, -210542, -29587],
 [257656, -261837, -56566],
 [-235852, -310760, -165147],
 [-334949, -385870, -197362],
 [94870, -241144, 59122],
 [60177, -225884, 31140],
 [-301184, -306545, -446189],
 [-293528, -504146, -429844],
 [-55084, -379015, -125887],
 [-115434, -375008, -59939],
 [-777425, -592163, -107585],
 [-950500, -893847, -181762],
 [-259402, -396726, 10357],
 [-368905, -449026, 38299]]

/-- Rows 64..127 of `AmbePRBA24`, src/internal/ambe3600x2450_const.h:455-626, numerators over 10^6. -/
def AmbePRBA24_rows64 : List (List Int) :=
 [[279719, -63196, -184628],
 [255265, -67248, -121124],
 [458433, -103777, 10074],
 [437231, -92496, -31028],
 [82265, -28050, -41262],
 [45920, -51719, -30155],
 [271149, -43613, 112085],
 [246881, -65274, 105436],
 [56590, -117773, -142283],
 [58824, -104418, -99608],
 [213781, -111974, 31269],
 [187554, -70340, 11834],
 [-185701, -81106, -73803],
 [-266112, -74133, -85370],
 [-29368, -46490, 124679],
 [-17378, -102882, 140482],
 [114700, 92738, -244271],
 [72922, 7863, -231476],
 [270022, 31819, -94208],
 [254403, 24805, -50389],
 [-182905, 21629, -168481],
 [-225864, -10109, -130374],
 [40089, 13969, 16028],
 [1442, 10551, 32942],
 [-287472, -36130, -296798],
 [-332344, -108862, -342196],
 [12700, 22917, -52501],
 [-40681, -1805, -50548],
 [-718522, -61234, -278820],
 [-879205, -213588, -303508],
 [-234102, -65407, 13686],
 [-281223, -76139, 46830],
 [141967, -193679, -55697],
 [100318, -161222, -63062],
 [265859, -132747, 78209],
 [244805, -139776, 122123],
 [-121802, -179976, 31732],
 [-185318, -214011, 18117],
 [47014, -153961, 218068],
 [47305, -187402, 282114],
 [-27533, -415868, -333841],
 [-125886, -334492, -290317],
 [-30602, -190918, 97454],
 [-54936, -209948, 158977],
 [-507223, -295876, -217183],
 [-581733, -403194, -208936],
 [-299719, -289679, 297101],
 [-363169, -362718, 436529],
 [-124627, -42100, -157011],
 [-161571, -92846, -183636],
 [84520, -100217, -901],
 [55655, -136381, 32764],
 [-545087, -197713, -26888],
 [-662772, -179815, 26419],
 [-165583, -148913, 90382],
 [-240772, -182830, 105474],
 [-576315, -359473, -456844],
 [-713430, -554156, -476739],
 [-275628, -223640, -51584],
 [-359501, -230758, -27006],
 [-1282559, -284807, -233743],
 [-1060476, -399911, -562698],
 [-871952, -272197, 16126],
 [-747922, -329404, 276696]]

/-- Rows 128..191 of `AmbePRBA24`, src/internal/ambe3600x2450_const.h:455-626, numerators over 10^6. -/
def AmbePRBA24_rows128 : List (List Int) :=
 [[643086, 46175, -660078],
 [738204, -127844, -433708],
 [1158072, 25571, -177856],
 [974840, -9417, -112337],
 [418014, 32741, -124545],
 [381422, -1557, -85504],
 [768280, 56085, 95375],
 [680004, 52035, 152318],
 [473182, 12560, -264221],
 [345153, 36627, -248756],
 [746238, -25880, -106050],
 [644319, -58256, -95133],
 [185924, -22230, -70540],
 [146068, -9550, -57871],
 [338488, 13022, 69961],
 [298969, 47403, 52598],
 [346002, 256253, -380261],
 [313092, 163821, -314004],
 [719154, 103108, -252648],
 [621429, 172423, -265180],
 [240461, 104684, -202582],
 [206946, 139642, -138016],
 [359915, 101273, -52997],
 [318117, 125888, -3486],
 [150452, 50219, -409155],
 [188753, 91894, -325733],
 [334922, 29098, -98587],
 [324508, 15809, -135408],
 [-42506, 38667, -208535],
 [-83003, 94758, -174054],
 [94773, 102653, -25701],
 [63284, 118703, -71],
 [355965, -139239, -191705],
 [392742, -105496, -132103],
 [663678, -204627, -31242],
 [609381, -146914, 79610],
 [151855, -132843, -7125],
 [146404, -161917, 24842],
 [400524, -135221, 232289],
 [324931, -116605, 253458],
 [169066, -215132, -185604],
 [128681, -189394, -160279],
 [356194, -116992, -38381],
 [342866, -144687, 20265],
 [-65545, -202593, -43688],
 [-124296, -260225, -35370],
 [83224, -235149, 153301],
 [46256, -309608, 190944],
 [187385, -8168, -198575],
 [190401, -18699, -136858],
 [398009, -25700, -7458],
 [346948, -22258, -20905],
 [-47064, -85629, -80677],
 [-67523, -128972, -119538],
 [186086, -16828, 70014],
 [187364, 17133, 75949],
 [-112669, -37433, -298944],
 [-68276, -114504, -265795],
 [147510, -40616, -13687],
 [133084, -62849, -32637],
 [-416571, -41544, -125088],
 [-505337, -44193, -157651],
 [-154132, -75106, 50466],
 [-148036, -59719, 121516]]

/-- Rows 192..255 of `AmbePRBA24`, src/internal/ambe3600x2450_const.h:455-626, numerators over 10^6. -/
def AmbePRBA24_rows192 : List (List Int) :=
 [[490555, 157659, -222208],
 [436700, 120500, -205869],
 [754525, 269323, 45810],
 [645077, 271923, 13942],
 [237023, 115337, -26429],
 [204895, 121020, -8541],
 [383999, 153963, 171763],
 [385026, 222074, 239731],
 [198232, 72972, -108179],
 [147882, 74743, -123341],
 [390929, 75205, 81828],
 [341623, 89405, 69389],
 [-3381, 159694, -16026],
 [-43653, 206860, -40729],
 [135515, 107824, 179310],
 [81086, 119673, 174282],
 [192637, 400335, -341906],
 [171196, 284921, -221516],
 [377807, 359087, -151523],
 [411052, 297925, -99774],
 [-10060, 261887, -149567],
 [-107877, 287756, -116982],
 [158003, 209727, 77988],
 [109710, 232272, 88135],
 [698, 209353, -395208],
 [-94015, 230322, -279928],
 [137355, 230881, -124115],
 [103058, 166855, -100386],
 [-305058, 305422, -176026],
 [-422049, 337137, -293297],
 [-121744, 185124, 48115],
 [-171052, 200312, 52812],
 [224091, -10673, -19727],
 [200266, -20167, 1798],
 [382742, 32362, 161665],
 [345631, -19705, 164451],
 [29431, 45010, 71518],
 [31940, 10876, 87037],
 [181935, 39112, 202316],
 [181810, 33189, 253435],
 [-8677, -66679, -144737],
 [-21768, -21288, -125903],
 [136766, 100, 59449],
 [135405, -20446, 103793],
 [-289115, 39747, -12256],
 [-338683, 25909, -34058],
 [-16515, 48584, 197981],
 [-46790, 11816, 199964],
 [94214, 127422, -169936],
 [48279, 96189, -148153],
 [217391, 81732, 13677],
 [179656, 84671, 31434],
 [-227367, 118176, -39803],
 [-327096, 159747, -18931],
 [834, 113118, 125325],
 [-14617, 128924, 163776],
 [-254570, 154329, -232018],
 [-353068, 124341, -174409],
 [-61004, 107744, 37257],
 [-100991, 80302, 62701],
 [-927022, 285660, -240549],
 [-1153224, 277232, -322538],
 [-569012, 108135, 172634],
 [-555273, 131461, 325930]]

/-- Rows 256..319 of `AmbePRBA24`, src/internal/ambe3600x2450_const.h:455-626, numerators over 10^6. -/
def AmbePRBA24_rows256 : List (List Int) :=
 [[518847, 65683, -132877],
 [501324, -6585, -94884],
 [1066190, -150380, 201791],
 [858377, -166415, 81686],
 [320584, -31499, 39534],
 [311442, -75120, 26013],
 [625829, -19856, 346041],
 [525271, -3948, 284868],
 [312594, -75673, -66642],
 [295732, -57895, -42207],
 [550446, -29110, 46850],
 [465467, -68987, 96167],
 [122669, -51786, 44283],
 [79669, -44145, 45805],
 [238778, -31835, 171694],
 [200734, -72619, 178726],
 [342512, 131270, -163021],
 [294028, 111759, -125793],
 [589523, 121808, -49372],
 [550506, 132318, 17485],
 [164280, 47560, -58383],
 [120110, 49242, -52403],
 [269181, 35000, 103494],
 [297466, 38517, 139289],
 [94549, -30880, -153376],
 [80363, 24359, -127578],
 [281351, 55178, 155],
 [234900, 39477, 13957],
 [-118161, 11976, -34270],
 [-157654, 27765, -5010],
 [102631, 27283, 99723],
 [77285, 52532, 115583],
 [329398, -278552, 16316],
 [305993, -267896, 94952],
 [775270, -394995, 290748],
 [583180, -252159, 285391],
 [192226, -182242, 126859],
 [185908, -245779, 159940],
 [346293, -250404, 355682],
 [354160, -364521, 472337],
 [134942, -313666, -115181],
 [126077, -286568, -39927],
 [405618, -211792, 199095],
 [312099, -213642, 190972],
 [-71392, -297366, 81426],
 [-165839, -301986, 160640],
 [147808, -290712, 298198],
 [63302, -310149, 396302],
 [141444, -81377, -76621],
 [115936, -104440, -39885],
 [367023, -87281, 96390],
 [330038, -117958, 127050],
 [2897, -62454, 25151],
 [-52404, -82200, 41975],
 [181553, -137004, 230489],
 [140768, -94604, 265928],
 [-101763, -209566, -135964],
 [-159056, -191005, -95509],
 [45016, -81562, 75942],
 [16808, -112482, 68593],
 [-408578, -132377, 79163],
 [-431534, -214646, 157714],
 [-96931, -101938, 200304],
 [-167867, -114851, 262964]]

/-- Rows 320..383 of `AmbePRBA24`, src/internal/ambe3600x2450_const.h:455-626, numerators over 10^6. -/
def AmbePRBA24_rows320 : List (List Int) :=
 [[393882, 86002, 8961],
 [338747, 48405, -4187],
 [877844, 374373, 171008],
 [740790, 324525, 242248],
 [200218, 70150, 85891],
 [171760, 90531, 102579],
 [314263, 126417, 322833],
 [313523, 65445, 403855],
 [164261, 57745, -5490],
 [122141, 24122, 9190],
 [308248, 78401, 180577],
 [251222, 73868, 160457],
 [-47526, 23725, 86336],
 [-91643, 5539, 93179],
 [79339, 44135, 206697],
 [104213, 11277, 240060],
 [226607, 186234, -56881],
 [173281, 158131, -59413],
 [339400, 214501, 52905],
 [309166, 188181, 58028],
 [14442, 194715, 48945],
 [-28793, 194766, 89078],
 [69564, 206743, 193568],
 [91532, 202786, 269680],
 [-71196, 135604, -103744],
 [-118288, 152837, -60151],
 [146856, 143174, 61789],
 [104379, 143672, 56797],
 [-541832, 250034, -17602],
 [-641583, 278411, -111909],
 [-94447, 159393, 164848],
 [-113612, 120702, 221656],
 [204918, -78894, 75524],
 [161232, -90256, 88701],
 [378460, -33687, 309964],
 [311701, -49984, 316881],
 [19311, -50048, 212387],
 [2473, -62855, 278462],
 [151448, -90652, 410031],
 [162778, -71291, 531252],
 [-83704, -76839, -20798],
 [-92832, -43492, 29202],
 [136844, -77791, 186493],
 [89536, -86826, 184711],
 [-270255, -58858, 173048],
 [-350416, -9219, 273260],
 [-105248, -205534, 425159],
 [-135030, -197464, 623550],
 [-51717, 69756, -43829],
 [-81050, 56947, -205],
 [190388, 16366, 145922],
 [142662, 2575, 159182],
 [-352890, 11117, 91040],
 [-367374, 56547, 147209],
 [-3179, 26570, 282541],
 [-69934, -5171, 337678],
 [-496181, 26464, 19432],
 [-690384, 69313, -4175],
 [-146138, 46372, 161839],
 [-197581, 34093, 241003],
 [-989567, 40993, 49384],
 [-1151075, 210556, 237374],
 [-335366, -58208, 480168],
 [-502419, -93761, 675240]]

/-- Rows 384..447 of `AmbePRBA24`, src/internal/ambe3600x2450_const.h:455-626, numerators over 10^6. -/
def AmbePRBA24_rows384 : List (List Int) :=
 [[862548, 264137, -294905],
 [782668, 251324, -122108],
 [1597797, 463818, -133153],
 [1615756, 60653, 84764],
 [435588, 209832, 95050],
 [431013, 165328, 47909],
 [1248164, 265923, 488086],
 [1009933, 345440, 473702],
 [477017, 194237, -58012],
 [401362, 186915, -54137],
 [1202158, 284782, -66531],
 [1064907, 203766, 46383],
 [255848, 133398, 46049],
 [218680, 128833, 65326],
 [490817, 182041, 286583],
 [440714, 106576, 301120],
 [604263, 522925, -238629],
 [526329, 377577, -198100],
 [1038632, 606242, -121253],
 [995283, 552202, 110700],
 [262232, 313664, -86909],
 [230835, 273385, -54268],
 [548466, 490721, 278201],
 [466984, 355859, 289160],
 [367137, 236160, -228114],
 [309359, 233843, -171325],
 [465268, 276569, 10951],
 [378124, 250237, 11131],
 [61885, 296810, -11420],
 [125, 350029, -11277],
 [163815, 261191, 175863],
 [165132, 308797, 227800],
 [461418, 52075, -16543],
 [472372, 46962, 45746],
 [856406, 136415, 245074],
 [834616, 3254, 372643],
 [337869, 36994, 232513],
 [267414, 27593, 252779],
 [584983, 113046, 583119],
 [475406, -24234, 655070],
 [264823, -29292, 4270],
 [246071, -19109, 30048],
 [477401, 21039, 155448],
 [458453, -43959, 187850],
 [67059, -61227, 126904],
 [44608, -34575, 150205],
 [191304, -3810, 316776],
 [153078, 29915, 361303],
 [320704, 178950, -88835],
 [300866, 137645, -56893],
 [553442, 162339, 131987],
 [490083, 123682, 146163],
 [118950, 83109, 34052],
 [99344, 66212, 54329],
 [228325, 122445, 309219],
 [172093, 135754, 323361],
 [64213, 63405, -58243],
 [11906, 88795, -69678],
 [194232, 129185, 125708],
 [155182, 174013, 144099],
 [-217068, 112731, 93497],
 [-307590, 171146, 110735],
 [-14897, 138094, 232455],
 [-36936, 170135, 279166]]

/-- Rows 448..511 of `AmbePRBA24`, src/internal/ambe3600x2450_const.h:455-626, numerators over 10^6. -/
def AmbePRBA24_rows448 : List (List Int) :=
 [[681886, 437121, 78458],
 [548559, 376914, 92485],
 [1259194, 901494, 256085],
 [1296139, 607949, 302184],
 [319619, 307231, 99647],
 [287232, 359355, 186844],
 [751306, 676688, 499386],
 [479609, 553030, 560447],
 [276377, 214032, -3661],
 [238146, 223595, 28806],
 [542688, 266205, 171393],
 [460188, 283979, 158288],
 [57385, 309853, 144517],
 [-6881, 348152, 97310],
 [244434, 247298, 322601],
 [253992, 335420, 402241],
 [354006, 579776, -130176],
 [267043, 461976, -58178],
 [534049, 626549, 46747],
 [441835, 468260, 57556],
 [110477, 628795, 102950],
 [31409, 489068, 90605],
 [229564, 525640, 325454],
 [105570, 582151, 509738],
 [5690, 521474, -157885],
 [104463, 424022, -80647],
 [223784, 389860, 60904],
 [159806, 340571, 62061],
 [-173976, 573425, 27383],
 [-376008, 587868, 133042],
 [-51773, 348339, 231923],
 [-122571, 473049, 251159],
 [324321, 148510, 116006],
 [282263, 121730, 114016],
 [690108, 256346, 418128],
 [542523, 294427, 461973],
 [56944, 107667, 281797],
 [27844, 106858, 355071],
 [160456, 177656, 528819],
 [227537, 177976, 689465],
 [111585, 97896, 109244],
 [83994, 133245, 115789],
 [208740, 142084, 208953],
 [156072, 143303, 231368],
 [-185830, 214347, 309774],
 [-311053, 240517, 328512],
 [-41749, 90901, 511373],
 [-156164, 98486, 478020],
 [151543, 263073, -33471],
 [126322, 213004, -7014],
 [245313, 217564, 120210],
 [259136, 225542, 176601],
 [-190632, 260214, 141755],
 [-189271, 331768, 170606],
 [54763, 294766, 357775],
 [-33724, 257645, 365069],
 [-184971, 396532, 57728],
 [-293313, 400259, 1123],
 [-15219, 232287, 177913],
 [-22524, 244724, 240753],
 [-520342, 347950, 249265],
 [-671997, 410782, 153434],
 [-253089, 412356, 489854],
 [-410922, 562454, 543891]]

/-- `AmbePRBA24`, src/internal/ambe3600x2450_const.h:455-626, numerators over 10^6. -/
def AmbePRBA24 : List (List Int) :=
  AmbePRBA24_rows0 ++ AmbePRBA24_rows64 ++ AmbePRBA24_rows128 ++ AmbePRBA24_rows192 ++ AmbePRBA24_rows256 ++ AmbePRBA24_rows320 ++ AmbePRBA24_rows384 ++ AmbePRBA24_rows448

/-- Common denominator of `AmbePRBA24` (src/internal/ambe3600x2450_const.h:455-626). -/
def AmbePRBA24_den : Nat := 1000000

/-- Rows 0..63 of `AmbePRBA58`, src/internal/ambe3600x2450_const.h:631-695, numerators over 10^6. -/
def AmbePRBA58_rows0 : List (List Int) :=
 [[-103660, 94597, -13149, 81501],
 [-170709, 129958, -57316, 112324],
 [-95113, 80892, -27554, 3371],
 [-154153, 113437, -74522, 3446],
 [-109553, 153519, 6858, 40930],
 [-181931, 217882, -19042, 40049],
 [-96246, 144191, -24147, -35120],
 [-174811, 193357, -54261, -71700],
 [-183241, -52840, 117923, 30960],
 [-242634, 9075, 98007, 91643],
 [-143847, -28529, 40171, -2812],
 [-198809, 6990, 20668, 26641],
 [-233172, -28793, 140130, -71927],
 [-309313, 56873, 108262, -18930],
 [-172782, -2037, 48755, -87065],
 [-242901, 36076, 15064, -64366],
 [77107, 172685, 159939, 97456],
 [24820, 209676, 87347, 105204],
 [85113, 151639, 84272, 22747],
 [47975, 196695, 38770, 29953],
 [113925, 236813, 176121, 16635],
 [9708, 267969, 127660, 15872],
 [114044, 202311, 96892, -43071],
 [47219, 260395, 50952, -46996],
 [-55095, 34041, 200464, 39050],
 [-61582, 69566, 113048, 27511],
 [-25469, 40440, 132777, -39098],
 [-31388, 64010, 67559, -17117],
 [-74386, 86579, 228232, -55461],
 [-107352, 120874, 137364, -30252],
 [-36897, 89972, 155831, -128475],
 [-59070, 97879, 84489, -75821],
 [-50865, -25167, -86636, 11256],
 [-51426, 13301, -144665, 38541],
 [-73831, -28917, -142416, -25268],
 [-83910, 15004, -227113, -2808],
 [-30840, -9326, -70517, -41304],
 [-22018, 29381, -124961, -31624],
 [-64222, -14640, -108798, -92342],
 [-38801, 38133, -188992, -94221],
 [-154059, -183932, -19894, 82105],
 [-188022, -113072, -117380, 90911],
 [-243301, -207086, -53735, -1975],
 [-275931, -121035, -161261, 4231],
 [-118142, -157537, -36594, -8679],
 [-153627, -111372, -103095, -9460],
 [-173458, -180158, -57130, -103198],
 [-208509, -127679, -149336, -109289],
 [96310, 47927, -24094, -57018],
 [44289, 75486, -8505, -67635],
 [76751, 25560, -66428, -102991],
 [25215, 90417, -58616, -114284],
 [125980, 70078, 16282, -112355],
 [70859, 118988, 1180, -116359],
 [97520, 59219, -26821, -172850],
 [48226, 145459, -50093, -188853],
 [7242, -135796, 147832, -34080],
 [12843, -69616, 77139, -47909],
 [-50911, -116323, 82521, -56362],
 [-39630, -55678, 36066, -67992],
 [42694, -91527, 150940, -124225],
 [29225, -39401, 71664, -113665],
 [-25085, -99013, 74622, -138674],
 [-31220, -35717, 20870, -143376]]

/-- Rows 64..127 of `AmbePRBA58`, src/internal/ambe3600x2450_const.h:631-695, numerators over 10^6. -/
def AmbePRBA58_rows64 : List (List Int) :=
 [[40638, 87903, -49500, 94607],
 [26860, 125924, -103449, 140882],
 [75166, 110186, -115173, 67330],
 [36642, 163193, -188762, 103724],
 [28179, 95124, -53258, 28900],
 [2307, 148211, -96037, 46189],
 [72227, 137595, -95629, 1339],
 [33308, 221480, -152201, 12125],
 [3458, -85112, 41850, 113836],
 [-40610, -44880, 29732, 177011],
 [11404, -54324, -12426, 77815],
 [-42413, -30930, -34844, 122946],
 [-2206, -45698, 50651, 54886],
 [-41729, -16110, 48005, 102125],
 [13963, -22204, 1613, 28997],
 [-30218, -2052, -4365, 65343],
 [299049, 46260, 76320, 70784],
 [250160, 98440, 12590, 137479],
 [254170, 95310, 18749, 4288],
 [218892, 145554, -35161, 69784],
 [303486, 101424, 135996, -13096],
 [262919, 165133, 77237, 71721],
 [319358, 170283, 54554, -72210],
 [272983, 231181, -14471, 11689],
 [134116, -26693, 161400, 110292],
 [100379, 26517, 86236, 130478],
 [144718, -895, 93767, 44514],
 [114943, 22145, 35871, 69193],
 [122051, 11043, 192803, 22796],
 [79482, 26156, 117725, 56565],
 [124641, 27387, 122956, -25369],
 [90708, 27357, 64450, 13058],
 [159781, -55202, -90597, 151598],
 [84577, -37203, -126698, 119739],
 [192484, -100195, -162066, 104148],
 [114579, -46270, -219547, 100067],
 [153083, -10127, -86266, 68648],
 [88202, -10515, -102196, 46281],
 [164494, -57325, -132860, 24093],
 [109419, -13999, -169596, 20412],
 [39180, -209168, -35872, 87949],
 [12790, -177723, -129986, 73364],
 [45261, -256694, -88186, 4212],
 [-5314, -231202, -191671, -2628],
 [37963, -153227, -45364, 3322],
 [30800, -126452, -114266, -10414],
 [44125, -184146, -81400, -77341],
 [29204, -157393, -172017, -89814],
 [393519, -43228, -111365, -740],
 [289581, 18928, -123140, 713],
 [311229, -59735, -198982, -81664],
 [258659, 52505, -211913, -34928],
 [300693, 11381, -83545, -86683],
 [214523, 53878, -101199, -61018],
 [253422, 28496, -156752, -163342],
 [199123, 113877, -166220, -102584],
 [249134, -165135, 28917, 51838],
 [156434, -123708, 17053, 43043],
 [214763, -101243, -5581, -20703],
 [140554, -72067, -15063, -11165],
 [241791, -152048, 106403, -46857],
 [142316, -131899, 54076, -26485],
 [206535, -86116, 46640, -97615],
 [129759, -81874, 4693, -73169]]

/-- `AmbePRBA58`, src/internal/ambe3600x2450_const.h:631-695, numerators over 10^6. -/
def AmbePRBA58 : List (List Int) :=
  AmbePRBA58_rows0 ++ AmbePRBA58_rows64

/-- Common denominator of `AmbePRBA58` (src/internal/ambe3600x2450_const.h:631-695). -/
def AmbePRBA58_den : Nat := 1000000

/-- `AmbeHOCb5`, src/internal/ambe3600x2450_const.h:700-716, numerators over 10^6. -/
def AmbeHOCb5 : List (List Int) :=
 [[264108, 45976, -200999, -122344],
 [479006, 227924, -16114, -6835],
 [77297, 80775, -68936, 41733],
 [185486, 231840, 182410, 101613],
 [-12442, 223718, -277803, -34370],
 [-59507, 139621, -24708, -104205],
 [-248676, 255502, -134894, -58338],
 [-55122, 427253, 25059, -45051],
 [-58898, -61945, 28030, -22242],
 [84153, 25327, 66780, -180839],
 [-193125, -82632, 140899, -89559],
 [0, 33758, 276623, 2493],
 [-396582, -49543, -118100, -208305],
 [-287112, 96620, 49650, -79312],
 [-543760, 171107, -62173, -10483],
 [-353572, 227440, 230128, -32089],
 [248579, -279824, -209589, 70903],
 [377604, -119639, 8463, -5589],
 [102127, -93666, -61325, 52082],
 [154134, -105724, 99317, 187972],
 [-139232, -91146, -275479, -38435],
 [-144169, 34314, -30840, 22207],
 [-143985, 79414, -194701, 175312],
 [-195329, 87467, 67711, 186783],
 [-123515, -377873, -209929, -212677],
 [68698, -255933, 120463, -95629],
 [-106810, -319964, -89322, 106947],
 [-158605, -309606, 190900, 89340],
 [-489162, -432784, -151215, -5786],
 [-370883, -154342, -22545, 114054],
 [-742866, -204364, -123865, -38888],
 [-573077, -115287, 208879, -27698]]

/-- Common denominator of `AmbeHOCb5` (src/internal/ambe3600x2450_const.h:700-716). -/
def AmbeHOCb5_den : Nat := 1000000

/-- `AmbeHOCb6`, src/internal/ambe3600x2450_const.h:721-729, numerators over 10^6. -/
def AmbeHOCb6 : List (List Int) :=
 [[-143886, 235528, -116707, 25541],
 [-170182, -63822, -96934, 109704],
 [232915, 269793, 47064, -32761],
 [153458, 68130, -33513, 126553],
 [-440712, 132952, 81378, -13210],
 [-480433, -249687, -12280, 7112],
 [-88001, 167609, 148323, -119892],
 [-104628, 102639, 183560, 121674],
 [47408, -908, -214196, -109372],
 [113418, -240340, -121420, 41117],
 [385609, 42913, -184584, -17851],
 [453830, -180745, 50455, 30984],
 [-155984, -144212, 18226, -146356],
 [-104028, -260377, 146472, 101389],
 [12376, -267, 6657, -13941],
 [165852, -103467, 119713, -75455]]

/-- Common denominator of `AmbeHOCb6` (src/internal/ambe3600x2450_const.h:721-729). -/
def AmbeHOCb6_den : Nat := 1000000

/-- `AmbeHOCb7`, src/internal/ambe3600x2450_const.h:734-742, numerators over 10^6. -/
def AmbeHOCb7 : List (List Int) :=
 [[182478, 271794, -57639, 26115],
 [110795, 92854, 78125, -82726],
 [57964, 833, 176048, 135404],
 [-27315, 98668, -65801, 116421],
 [-222796, 62967, 201740, -89975],
 [-193571, 309225, -14101, -34574],
 [-389053, -181476, 107682, 50169],
 [-345604, 64900, -65014, 65642],
 [319393, -55491, -220727, -67499],
 [460572, 84686, 48453, -11050],
 [201623, -68994, -67101, 108320],
 [227528, -173900, 92417, -66515],
 [-16927, 47757, -177686, -102163],
 [-52553, -65689, 19328, -33060],
 [-144910, -238617, -195206, -63917],
 [-24159, -338822, 3581, 60995]]

/-- Common denominator of `AmbeHOCb7` (src/internal/ambe3600x2450_const.h:734-742). -/
def AmbeHOCb7_den : Nat := 1000000

/-- `AmbeHOCb8`, src/internal/ambe3600x2450_const.h:747-751, numerators over 10^6. -/
def AmbeHOCb8 : List (List Int) :=
 [[323968, 8964, -63117, 27909],
 [10900, -4030, -125016, -80818],
 [109969, 256272, 42470, 749],
 [-135446, 201769, -83426, 93888],
 [-441995, 38159, 22784, 3943],
 [-155951, 32467, 145309, -41725],
 [-149182, -223356, -65793, 75016],
 [96949, -96400, 83194, 49306]]

/-- Common denominator of `AmbeHOCb8` (src/internal/ambe3600x2450_const.h:747-751). -/
def AmbeHOCb8_den : Nat := 1000000

end Verif.Gen
