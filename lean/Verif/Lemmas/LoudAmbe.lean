import Verif.Lemmas.IvlAmbe

/-!
# A loud AMBE 2450 payload

Interval bounds on the log amplitudes that the decoder computes when the same payload, with the largest gain and a spectrum
that favours the first harmonic, is received again and again.
-/

namespace Verif.Model
open Verif Verif.Gen Verif.Num Arith

/-- The 49 bits of the payload: `b0 .. b8` = 99, 0, 31, 450, 86, 1, 5, 6, 4. -/
def loudABits : List Int :=
  [1, 1, 0, 0, 0, 0, 0, 0, 1, 1, 1, 1, 1, 1, 1, 0, 0, 0, 0, 1, 1, 0, 1, 0, 0, 0, 0, 0, 0, 1, 0, 0, 1, 1, 1, 0, 1, 0, 1, 1, 0, 1, 1, 0,
   1, 1, 0, 0, 0]

/-- The payload as an array. -/
def loudA (i : Nat) : Int := loudABits.getD i 0

/-- Its fields. -/
def loudAF : AmbeFields := ⟨31, 450, 86, 1, 5, 6, 4⟩

/-- The interval `lo/65536 .. hi/65536`. -/
def micro (e : Int × Int) : Ivl := .mk (mkRat e.1 65536) (mkRat e.2 65536)

/-- An array with `z` at subscript 0, the intervals `l` from subscript 1 on and zero elsewhere. -/
def microArr (z : Ivl) (l : List (Int × Int)) : Arr 57 Ivl := fun i => if i.val = 0 then z else micro (l.getD (i.val - 1) (0, 0))

/-- The previous frame as the prediction sees it: entry 0 is a copy of entry 1. -/
def microPrev (L : Int) (l : List (Int × Int)) : Parms Ivl := { milliParms L [] with log2Ml := microArr (micro (l.getD 0 (0, 0))) l }

/-- The current frame before the prediction, with 42 voiced harmonics. -/
def microCur (l : List (Int × Int)) : Parms Ivl :=
  { milliParms 42 [] with log2Ml := microArr .top l, Vl := fun i => if 1 ≤ i.val ∧ i.val ≤ 42 then 1 else 0 }

/-- The binary logarithm of 42, with an error of up to `2^-16`. -/
def lg42 : Ivl := .mk (mkRat 353389 65536) (mkRat 353392 65536)

/-- The gain after `n` receptions. -/
def gam : Nat → Ivl
  | 0 => lit 0 1
  | n + 1 => ftab (tabs2450.dg.getD 31 0) tabs2450.dgDen +ᶠ (toF (dlit 5 10) *ᶠ gam n)

/-- Bounds on the residual amplitudes of the payload, in 1/65536. -/
def loudAT : List (Int × Int) :=
  [(465002, 465055), (381622, 381672), (266365, 266409), (185771, 185808), (160096, 160133), (153426, 153470),
   (134269, 134319), (112869, 112922), (-95632, -95592), (-41318, -41279), (26230, 26264), (57036, 57063),
   (34419, 34440), (-15009, -14982), (-55234, -55200), (-73947, -73909), (-79086, -79046), (-177555, -177511),
   (-171428, -171386), (-146567, -146527), (-101605, -101569), (-59550, -59518), (-49031, -49005), (-75200, -75174),
   (-115529, -115498), (-143645, -143609), (-151479, -151440), (-147894, -147852), (-143719, -143676),
   (-162891, -162849), (-153305, -153264), (-133330, -133291), (-103890, -103854), (-69905, -69874), (-39607, -39580),
   (-21027, -21005), (-18303, -18277), (-30296, -30264), (-51849, -51814), (-76137, -76098), (-96614, -96573),
   (-108233, -108190)]

/-- Bounds on the log amplitudes after 1 reception, in 1/65536. -/
def loudA1 : List (Int × Int) :=
  [(760979, 761071), (677599, 677688), (562342, 562425), (481748, 481825), (456073, 456150), (449403, 449487),
   (430246, 430336), (408846, 408939), (200345, 200425), (254659, 254738), (322207, 322281), (353013, 353080),
   (330396, 330457), (280968, 281035), (240743, 240817), (222030, 222108), (216891, 216971), (118422, 118506),
   (124549, 124631), (149410, 149490), (194372, 194448), (236427, 236499), (246946, 247012), (220777, 220843),
   (180448, 180519), (152332, 152408), (144498, 144577), (148083, 148165), (152258, 152341), (133086, 133168),
   (142672, 142753), (162647, 162726), (192087, 192163), (226072, 226143), (256370, 256437), (274950, 275012),
   (277674, 277740), (265681, 265753), (244128, 244203), (219840, 219919), (199363, 199444), (187744, 187827)]

/-- Bounds on the log amplitudes after 2 receptions, in 1/65536. -/
def loudA2 : List (Int × Int) :=
  [(1302863, 1303065), (1165286, 1165483), (975112, 975299), (842132, 842308), (799768, 799945), (788763, 788951),
   (757153, 757352), (721843, 722047), (377817, 377999), (467435, 467615), (578889, 579061), (629719, 629879),
   (592401, 592551), (510845, 511005), (444474, 444645), (413597, 413775), (405118, 405299), (242644, 242832),
   (252753, 252938), (293774, 293956), (367961, 368136), (437352, 437521), (454708, 454867), (411530, 411688),
   (344987, 345154), (298595, 298770), (285669, 285849), (291585, 291770), (298473, 298660), (266839, 267024),
   (282656, 282840), (315615, 315795), (364191, 364366), (420266, 420433), (470258, 470418), (500915, 501067),
   (505410, 505568), (485621, 485790), (450059, 450232), (409984, 410164), (376197, 376380), (357025, 357212)]

/-- Bounds on the log amplitudes after 3 receptions, in 1/65536. -/
def loudA3 : List (Int × Int) :=
  [(1621266, 1621605), (1448461, 1448793), (1209591, 1209911), (1042560, 1042866), (989348, 989655), (975525, 975845),
   (935821, 936155), (891470, 891810), (459352, 459665), (571918, 572228), (711911, 712211), (775756, 776042),
   (728883, 729155), (626443, 626729), (543077, 543377), (504294, 504602), (493644, 493956), (289566, 289887),
   (302264, 302581), (353789, 354102), (446973, 447277), (534132, 534428), (555932, 556216), (501697, 501981),
   (418115, 418409), (359845, 360149), (343609, 343919), (351039, 351356), (359691, 360010), (319957, 320274),
   (339824, 340139), (381223, 381533), (442237, 442541), (512671, 512965), (575464, 575749), (613971, 614246),
   (619616, 619900), (594761, 595057), (550092, 550394), (499755, 500066), (457317, 457631), (433236, 433555)]

/-- Bounds on the log amplitudes after 4 receptions, in 1/65536. -/
def loudA4 : List (Int × Int) :=
  [(1811291, 1811803), (1615588, 1616092), (1345065, 1345556), (1155901, 1156376), (1095638, 1096113),
   (1079983, 1080474), (1035019, 1035524), (984790, 985303), (495413, 495895), (622895, 623374), (781438, 781906),
   (853743, 854195), (800659, 801095), (684645, 685097), (590232, 590700), (546310, 546787), (534249, 534730),
   (303129, 303620), (317510, 317996), (375862, 376344), (481393, 481866), (580102, 580565), (604791, 605240),
   (543369, 543818), (448712, 449173), (382720, 383193), (364333, 364812), (372747, 373234), (382546, 383035),
   (337547, 338034), (360047, 360531), (406931, 407410), (476030, 476502), (555797, 556258), (626911, 627362),
   (670520, 670960), (676913, 677363), (648765, 649228), (598177, 598647), (541170, 541650), (493108, 493592),
   (465836, 466325)]

/-- Bounds on the log amplitudes after 5 receptions, in 1/65536. -/
def loudA5 : List (Int × Int) :=
  [(1926305, 1927039), (1715718, 1716444), (1424621, 1425332), (1221070, 1221764), (1156224, 1156919),
   (1139379, 1140090), (1090995, 1091722), (1036946, 1037681), (510350, 511052), (647527, 648226), (818128, 818815),
   (895933, 896602), (838811, 839464), (713974, 714643), (612380, 613067), (565118, 565815), (552140, 552841),
   (303443, 304154), (318917, 319624), (381707, 382409), (495264, 495956), (601480, 602161), (628047, 628713),
   (561954, 562620), (460097, 460777), (389087, 389779), (369301, 370000), (378355, 379062), (388900, 389609),
   (340478, 341185), (364689, 365393), (415139, 415838), (489493, 490184), (575327, 576006), (651849, 652517),
   (698775, 699431), (705654, 706321), (675365, 676046), (620930, 621619), (559587, 560287), (507870, 508574),
   (478524, 479233)]

/-- Bounds on the log amplitudes after 6 receptions, in 1/65536. -/
def loudA6 : List (Int × Int) :=
  [(1996769, 1997790), (1776508, 1777520), (1472038, 1473034), (1259135, 1260114), (1191310, 1192290),
   (1173691, 1174688), (1123085, 1124098), (1066553, 1067574), (515764, 516751), (659243, 660227), (837682, 838653),
   (919061, 920014), (859315, 860251), (728743, 729696), (622482, 623453), (573049, 574030), (559474, 560460),
   (299352, 300349), (315537, 316529), (381211, 382198), (499985, 500962), (611081, 612046), (638868, 639818),
   (569739, 570689), (463203, 464167), (388930, 389907), (368235, 369220), (377706, 378698), (388735, 389729),
   (338089, 339081), (363412, 364401), (416179, 417163), (493949, 494925), (583726, 584689), (663764, 664716),
   (712846, 713785), (720041, 720991), (688360, 689325), (631424, 632398), (567263, 568248), (513170, 514160),
   (482476, 483471)]

/-- Bounds on the log amplitudes after 7 receptions, in 1/65536. -/
def loudA7 : List (Int × Int) :=
  [(2040366, 2041759), (1813817, 1815200), (1500654, 1502021), (1281673, 1283023), (1211912, 1213262),
   (1193790, 1195158), (1141739, 1143123), (1083593, 1084986), (517079, 518437), (664655, 666009), (848188, 849529),
   (931890, 933213), (870438, 871744), (736139, 737461), (626844, 628185), (575999, 577351), (562037, 563394),
   (294488, 295856), (311136, 312498), (378685, 380042), (500850, 502197), (615117, 616452), (643698, 645017),
   (572595, 573914), (463017, 464351), (386624, 387971), (365338, 366694), (375079, 376442), (386423, 387788),
   (334331, 335694), (360377, 361737), (414651, 416005), (494641, 495988), (586981, 588314), (669304, 670626),
   (719787, 721096), (727188, 728508), (694603, 695938), (636041, 637385), (570049, 571404), (514411, 515772),
   (482841, 484207)]

/-- Bounds on the log amplitudes after 8 receptions, in 1/65536. -/
def loudA8 : List (Int × Int) :=
  [(2067528, 2069403), (1836891, 1838757), (1518078, 1519928), (1295147, 1296978), (1224127, 1225958),
   (1205678, 1207528), (1152687, 1154554), (1093493, 1095368), (516757, 518597), (666996, 668832), (853840, 855663),
   (939053, 940856), (876492, 878279), (739769, 741573), (628503, 630325), (576740, 578574), (562526, 564365),
   (290150, 292000), (307098, 308943), (375866, 377705), (500236, 502064), (616564, 618381), (645661, 647461),
   (573275, 575075), (461720, 463535), (383949, 385777), (362279, 364116), (372195, 374040), (383744, 385591),
   (330712, 332557), (357228, 359070), (412481, 414317), (493915, 495743), (587921, 589735), (671729, 673532),
   (723123, 724912), (730657, 732458), (697484, 699301), (637866, 639691), (570683, 572520), (514041, 515884),
   (481902, 483750)]

/-- Bounds on the log amplitudes after 9 receptions, in 1/65536. -/
def loudA9 : List (Int × Int) :=
  [(2084499, 2087000), (1851205, 1853697), (1528719, 1531196), (1303220, 1305677), (1231382, 1233839),
   (1212720, 1215197), (1159119, 1161613), (1099243, 1101745), (515864, 518330), (667833, 670295), (856830, 859278),
   (943024, 945453), (879742, 882155), (741444, 743874), (628897, 631345), (576538, 578998), (562159, 564625),
   (286646, 289123), (303789, 306260), (373349, 375815), (499152, 501606), (616820, 619263), (646252, 648678),
   (573032, 575458), (460193, 462633), (381525, 383980), (359606, 362069), (369636, 372107), (381318, 383792),
   (327675, 330147), (354497, 356965), (410386, 412849), (492758, 495212), (587847, 590287), (672620, 675049),
   (724607, 727021), (732228, 734654), (698672, 701115), (638367, 640819), (570411, 572873), (513116, 515585),
   (480607, 483081)]

/-- Bounds on the log amplitudes after 10 receptions, in 1/65536. -/
def loudA10 : List (Int × Int) :=
  [(2095063, 2098378), (1860042, 1863348), (1535168, 1538459), (1308000, 1311271), (1235630, 1238901),
   (1216830, 1220121), (1162833, 1166140), (1102513, 1105829), (514816, 518095), (667910, 671186), (858306, 861568),
   (945138, 948380), (881387, 884614), (742066, 745309), (628685, 631947), (575939, 579213), (561454, 564733),
   (283901, 287192), (301171, 304456), (371246, 374526), (497980, 501248), (616519, 619776), (646169, 649409),
   (572407, 575647), (458733, 461986), (379482, 382751), (357401, 360678), (367506, 370790), (379274, 382562),
   (325234, 328519), (352254, 355536), (408557, 411834), (491539, 494807), (587332, 590585), (672732, 675975),
   (725104, 728331), (732781, 736021), (698977, 702234), (638226, 641491), (569766, 573042), (512048, 515330),
   (479298, 482586)]

/-- The interval run of the residual stays within the table. -/
def residualAChk : Bool :=
  match ambeResidual (fillCache 9 18 : DctCache Ivl 9 18) tabs2450 loudAF 42 with
  | .ok a => withinArr a (microArr (.mk 0 0) loudAT)
  | .error _ => false

/-- The interval run of the prediction with gain `gam n`, from the table `l` (with `L` harmonics). -/
def stepA (L : Int) (n : Nat) (l : List (Int × Int)) : Exec (Parms Ivl) :=
  ambeRun false 42 (microPrev L l) (microArr (.mk 0 0) loudAT) lg42 (gam n) .top (microCur l)

/-- It stays within the table `l'`. -/
def stepAChk (L : Int) (n : Nat) (l l' : List (Int × Int)) : Bool :=
  match stepA L n l with
  | .ok p => withinArr p.log2Ml (microArr .top l')
  | .error _ => false

set_option maxRecDepth 10000 in
theorem residualA_ok : residualAChk = true := by decide +kernel
set_option maxRecDepth 10000 in
theorem stepA1_ok : stepAChk 15 1 [] loudA1 = true := by decide +kernel
set_option maxRecDepth 10000 in
theorem stepA2_ok : stepAChk 42 2 loudA1 loudA2 = true := by decide +kernel
set_option maxRecDepth 10000 in
theorem stepA3_ok : stepAChk 42 3 loudA2 loudA3 = true := by decide +kernel
set_option maxRecDepth 10000 in
theorem stepA4_ok : stepAChk 42 4 loudA3 loudA4 = true := by decide +kernel
set_option maxRecDepth 10000 in
theorem stepA5_ok : stepAChk 42 5 loudA4 loudA5 = true := by decide +kernel
set_option maxRecDepth 10000 in
theorem stepA6_ok : stepAChk 42 6 loudA5 loudA6 = true := by decide +kernel
set_option maxRecDepth 10000 in
theorem stepA7_ok : stepAChk 42 7 loudA6 loudA7 = true := by decide +kernel
set_option maxRecDepth 10000 in
theorem stepA8_ok : stepAChk 42 8 loudA7 loudA8 = true := by decide +kernel
set_option maxRecDepth 10000 in
theorem stepA9_ok : stepAChk 42 9 loudA8 loudA9 = true := by decide +kernel
set_option maxRecDepth 10000 in
theorem stepA10_ok : stepAChk 42 10 loudA9 loudA10 = true := by decide +kernel

end Verif.Model
