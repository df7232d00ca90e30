import Verif.Lemmas.IvlRun

/-!
# A loud payload

Interval bounds on the log amplitudes that the IMBE decoder computes when the same payload, whose quantiser indices all sit
at the end of their range that favours harmonic 4, is received again and again.
-/

namespace Verif.Model
open Verif Verif.Gen Verif.Num Arith

/-- The 88 bits of the payload. -/
def loudBits : List Int :=
  [0, 1, 0, 0, 1, 0, 1, 1, 1, 1, 1, 1, 1, 1, 0, 0, 1, 1, 1, 1, 1, 0, 1, 0, 0, 1, 1, 0, 1, 0, 1, 1, 1, 1, 1, 0, 1, 0, 0, 1, 1, 0, 1, 1,
   0, 1, 0, 1, 1, 1, 1, 1, 1, 1, 1, 1, 1, 1, 1, 0, 1, 1, 1, 1, 1, 0, 1, 0, 0, 1, 1, 0, 1, 1, 0, 1, 1, 0, 1, 1, 0, 1, 0, 1, 1, 0, 0, 0]

/-- The payload as an array. -/
def loud (i : Nat) : Int := loudBits.getD i 0

/-- The interval `lo/1024 .. hi/1024`. -/
def milli (e : Int × Int) : Ivl := .mk (mkRat e.1 1024) (mkRat e.2 1024)

/-- An array with the intervals `l` from subscript 1 on and zero elsewhere. -/
def milliArr (l : List (Int × Int)) : Arr 57 Ivl := fun i => if i.val = 0 then .mk 0 0 else milli (l.getD (i.val - 1) (0, 0))

/-- A parameter set of which only `L` and the log amplitudes are known. -/
def milliParms (L : Int) (l : List (Int × Int)) : Parms Ivl where
  w0 := .top
  L := L
  K := 0
  Vl := fun _ => 0
  Ml := fun _ => .top
  log2Ml := milliArr l
  PHIl := fun _ => .top
  PSIl := fun _ => .top
  gamma := .top
  un := 0
  repeat_ := 0
  swn := 0
  localEnergy := .top
  amplitudeThreshold := 0
  errorRate := .top
  errorCountTotal := 0
  errorCount4 := 0
  repeatCount := 0
  mutingThreshold := .top
  previousUw := fun _ => .top
  noiseSeed := .top
  noiseOverlap := fun _ => .top

/-- Bounds on the residual amplitudes of the payload, in 1/1024. -/
def loudT : List (Int × Int) :=
  [(12651, 12654), (13344, 13347), (13005, 13008), (16874, 16877), (8216, 8219), (6389, 6392), (9615, 9618),
   (10963, 10966), (8536, 8539), (7016, 7018), (9109, 9112), (10765, 10768), (6923, 6925), (6474, 6477),
   (8039, 8042), (9371, 9374), (7030, 7033), (6242, 6245), (7326, 7328), (8317, 8320), (6267, 6270), (6358, 6361),
   (6805, 6808), (6816, 6819), (8091, 8094)]

/-- Bounds on the log amplitudes after 1 receptions, in 1/1024. -/
def loud1 : List (Int × Int) :=
  [(12651, 12654), (13344, 13347), (13005, 13008), (16874, 16877), (8216, 8219), (6389, 6392), (9615, 9618),
   (10963, 10966), (8536, 8539), (7016, 7018), (9109, 9112), (10765, 10768), (6923, 6925), (6474, 6477),
   (8039, 8042), (9371, 9374), (7030, 7033), (6242, 6245), (7326, 7328), (8317, 8320), (6267, 6270), (6358, 6361),
   (6805, 6808), (6816, 6819), (8091, 8094)]

/-- Bounds on the log amplitudes after 2 receptions, in 1/1024. -/
def loud2 : List (Int × Int) :=
  [(15329, 15337), (16507, 16515), (15931, 15939), (22508, 22516), (7790, 7798), (4684, 4692), (10168, 10176),
   (12459, 12468), (8334, 8342), (5750, 5756), (9308, 9316), (12123, 12131), (5591, 5598), (4828, 4836),
   (7489, 7497), (9753, 9761), (5773, 5781), (4434, 4442), (6277, 6283), (7961, 7969), (4476, 4484), (4631, 4639),
   (5391, 5399), (5410, 5418), (7577, 7585)]

/-- Bounds on the log amplitudes after 3 receptions, in 1/1024. -/
def loud3 : List (Int × Int) :=
  [(17202, 17217), (18719, 18735), (17977, 17992), (26450, 26465), (7490, 7505), (3488, 3503), (10553, 10568),
   (13505, 13521), (8190, 8205), (4862, 4874), (9445, 9460), (13072, 13087), (4657, 4671), (3674, 3689),
   (7102, 7117), (10019, 10034), (4892, 4907), (3166, 3181), (5540, 5553), (7710, 7725), (3221, 3236), (3420, 3435),
   (4399, 4414), (4424, 4439), (7215, 7231)]

/-- Bounds on the log amplitudes after 4 receptions, in 1/1024. -/
def loud4 : List (Int × Int) :=
  [(18511, 18535), (20265, 20291), (19407, 19432), (29207, 29232), (7277, 7302), (2649, 2674), (10820, 10845),
   (14235, 14260), (8087, 8112), (4238, 4259), (9539, 9564), (13734, 13758), (4001, 4024), (2864, 2889),
   (6829, 6853), (10202, 10227), (4273, 4297), (2276, 2301), (5022, 5045), (7532, 7557), (2340, 2365), (2570, 2595),
   (3702, 3727), (3731, 3756), (6960, 6985)]

/-- Bounds on the log amplitudes after 5 receptions, in 1/1024. -/
def loud5 : List (Int × Int) :=
  [(19423, 19461), (21344, 21384), (20405, 20443), (31134, 31172), (7125, 7163), (2058, 2097), (11004, 11042),
   (14742, 14781), (8012, 8050), (3797, 3832), (9601, 9640), (14194, 14232), (3538, 3575), (2294, 2332),
   (6634, 6672), (10327, 10366), (3836, 3874), (1650, 1689), (4656, 4692), (7404, 7443), (1720, 1758), (1972, 2010),
   (3211, 3250), (3242, 3281), (6778, 6816)]

/-- Bounds on the log amplitudes after 6 receptions, in 1/1024. -/
def loud6 : List (Int × Int) :=
  [(20057, 20114), (22095, 22153), (21098, 21156), (32478, 32535), (7013, 7071), (1640, 1698), (11128, 11185),
   (15092, 15150), (7954, 8012), (3484, 3538), (9640, 9698), (14511, 14568), (3210, 3265), (1890, 1947),
   (6493, 6550), (10410, 10468), (3525, 3582), (1207, 1265), (4395, 4450), (7310, 7368), (1281, 1338), (1548, 1606),
   (2863, 2921), (2895, 2953), (6646, 6703)]

/-- Bounds on the log amplitudes after 7 receptions, in 1/1024. -/
def loud7 : List (Int × Int) :=
  [(20494, 20578), (22614, 22698), (21577, 21662), (33412, 33496), (6928, 7013), (1340, 1425), (11208, 11292),
   (15331, 15415), (7907, 7992), (3258, 3339), (9660, 9745), (14726, 14810), (2973, 3055), (1600, 1684),
   (6387, 6471), (10461, 10546), (3301, 3385), (890, 975), (4206, 4287), (7237, 7322), (967, 1051), (1245, 1330),
   (2612, 2697), (2646, 2730), (6546, 6630)]

/-- Bounds on the log amplitudes after 8 receptions, in 1/1024. -/
def loud8 : List (Int × Int) :=
  [(20791, 20912), (22968, 23089), (21903, 22025), (34056, 34178), (6860, 6982), (1121, 1243), (11255, 11376),
   (15489, 15610), (7865, 7987), (3091, 3209), (9665, 9787), (14867, 14989), (2798, 2917), (1388, 1510),
   (6304, 6425), (10488, 10610), (3135, 3256), (659, 781), (4064, 4183), (7177, 7299), (738, 859), (1023, 1146),
   (2427, 2550), (2462, 2584), (6467, 6589)]

/-- `A` is contained in `B`. -/
def within : Ivl → Ivl → Bool
  | _, .top => true
  | .mk a b, .mk c d => decide (c ≤ a) && decide (b ≤ d)
  | .top, .mk _ _ => false

theorem RI.within {m : Libm} {x : IEEE m} {A B : Ivl} (h : RI x A) (w : within A B = true) : RI x B := by
  cases B with
  | top => trivial
  | mk c d =>
    cases A with
    | top => exact absurd w (by simp [Model.within])
    | mk a b =>
      simp only [Model.within, Bool.and_eq_true, decide_eq_true_eq] at w
      obtain ⟨q, hq, h1, h2⟩ := h
      exact ⟨q, hq, w.1.trans h1, h2.trans w.2⟩

/-- Elementwise inclusion. -/
def withinArr (a b : Arr 57 Ivl) : Bool := (List.finRange 57).all fun i => within (a i) (b i)

theorem withinArr_get {a b : Arr 57 Ivl} (h : withinArr a b = true) (i : Fin 57) : within (a i) (b i) = true :=
  List.all_eq_true.mp h i (List.mem_finRange i)

/-- The interval run of the residual stays within the table. -/
def residualChk : Bool :=
  match imbeResidual (fillCache 7 11 : DctCache Ivl 7 11) 16 loud with
  | .ok a => withinArr a (milliArr loudT)
  | .error _ => false

/-- One interval step of the prediction from the table `l` (with `L` harmonics) stays within the table `l'`. -/
def stepChk (L : Int) (l l' : List (Int × Int)) : Bool :=
  match imbePredict false 25 (milliParms L l) (milliArr loudT) (milliParms 25 l) with
  | .ok p => withinArr p.log2Ml (milliArr l')
  | .error _ => false

set_option maxRecDepth 10000 in
theorem residual_ok : residualChk = true := by decide +kernel
set_option maxRecDepth 10000 in
theorem step1_ok : stepChk 39 [] loud1 = true := by decide +kernel
set_option maxRecDepth 10000 in
theorem step2_ok : stepChk 25 loud1 loud2 = true := by decide +kernel
set_option maxRecDepth 10000 in
theorem step3_ok : stepChk 25 loud2 loud3 = true := by decide +kernel
set_option maxRecDepth 10000 in
theorem step4_ok : stepChk 25 loud3 loud4 = true := by decide +kernel
set_option maxRecDepth 10000 in
theorem step5_ok : stepChk 25 loud4 loud5 = true := by decide +kernel
set_option maxRecDepth 10000 in
theorem step6_ok : stepChk 25 loud5 loud6 = true := by decide +kernel
set_option maxRecDepth 10000 in
theorem step7_ok : stepChk 25 loud6 loud7 = true := by decide +kernel
set_option maxRecDepth 10000 in
theorem step8_ok : stepChk 25 loud7 loud8 = true := by decide +kernel

end Verif.Model
