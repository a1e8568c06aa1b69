import Verif.Lemmas.EcRnsAddWitness

/-!
# A computation with the XYZZ addition of residue vectors in which the last product is rounded wrongly

The points are `4 G` and `17 G`; the second one is given by coordinates `x + 14486 P` and `y + 8745 P`, within the range
of the coordinates that the RNS formulas themselves return.
-/

namespace Verif.EcRns

open Verif.EcChunks

def cX1 : List Nat := [51503, 31053, 14334, 60896, 63856, 59088, 17593, 11794, 55075, 42292, 47450, 22076, 62995,
    26252, 40819, 56013, 25117, 42191, 13145, 54180, 9877, 3553, 11619, 12601, 36120, 57376, 24003, 59186, 55559,
    54674, 33317, 61352, 55676, 14366, 60150, 22503, 5481, 17057, 62618, 23097, 55680, 43151, 24666, 14924, 23672,
    23545, 10136, 30338, 13168, 17841]
def cY1 : List Nat := [1, 1, 1, 1, 1, 1, 1, 1, 1, 1, 1, 1, 1, 1, 1, 1, 1, 1, 1, 1, 1, 1, 1, 1, 1, 1, 1, 1, 1, 1, 1, 1,
    1, 1, 1, 1, 1, 1, 1, 1, 1, 1, 1, 1, 1, 1, 1, 1, 1, 1]
def cZ1 : List Nat := [63622, 31393, 17173, 24578, 7477, 52487, 49783, 36344, 1216, 34355, 62960, 28394, 27839, 13617,
    25290, 51948, 38124, 16456, 61211, 35394, 367, 7673, 41917, 26202, 59313, 2844, 3520, 59933, 50162, 37837, 4797,
    20933, 54909, 38885, 13686, 13656, 52799, 34, 43253, 42165, 18428, 30530, 12274, 7674, 32503, 22752, 13665, 13764,
    31108, 17154]
def cW1 : List Nat := [50262, 26344, 8094, 2815, 10519, 40410, 27157, 61900, 37590, 41104, 5817, 64934, 22460, 32974,
    59287, 57682, 64280, 35553, 4206, 10727, 59164, 47665, 27781, 16916, 18908, 1562, 57687, 9939, 32511, 21978,
    58579, 6968, 60274, 34301, 15094, 50471, 46510, 16029, 51542, 25139, 12226, 28490, 29485, 3448, 3283, 25725,
    22149, 12254, 15733, 14311]
def cX2 : List Nat := [12978, 20292, 39631, 32221, 13040, 6701, 5413, 58660, 17297, 7384, 4387, 44975, 34239, 23151,
    53734, 9539, 147, 8936, 22575, 17439, 12023, 22088, 63470, 17547, 20895, 57946, 50862, 33570, 2170, 48791, 39240,
    12193, 63224, 60985, 62367, 34432, 6075, 61589, 19121, 2811, 981, 31618, 20969, 4071, 15289, 21650, 11782, 6113,
    807, 29250]
def cY2 : List Nat := [15937, 14858, 46015, 6474, 62262, 45973, 9586, 14174, 62200, 6197, 25195, 40345, 42069, 58015,
    18192, 63056, 19680, 38359, 53221, 54683, 46576, 37519, 25092, 63202, 43902, 54077, 38409, 60177, 62442, 51055,
    43563, 36672, 31654, 20705, 23749, 39121, 1441, 14197, 61280, 42229, 61456, 18596, 28954, 21327, 30904, 3166,
    16787, 9753, 14841, 7186]
def cZ2 : List Nat := [1, 1, 1, 1, 1, 1, 1, 1, 1, 1, 1, 1, 1, 1, 1, 1, 1, 1, 1, 1, 1, 1, 1, 1, 1, 1, 1, 1, 1, 1, 1, 1,
    1, 1, 1, 1, 1, 1, 1, 1, 1, 1, 1, 1, 1, 1, 1, 1, 1, 1]
def cW2 : List Nat := [1, 1, 1, 1, 1, 1, 1, 1, 1, 1, 1, 1, 1, 1, 1, 1, 1, 1, 1, 1, 1, 1, 1, 1, 1, 1, 1, 1, 1, 1, 1, 1,
    1, 1, 1, 1, 1, 1, 1, 1, 1, 1, 1, 1, 1, 1, 1, 1, 1, 1]
def cU1 : List Nat := [59639, 64140, 13786, 19493, 30342, 56947, 25412, 32830, 59214, 65087, 38409, 21073, 4145, 7465,
    9265, 14870, 33349, 2206, 49511, 40245, 21485, 37855, 37659, 24242, 33558, 61956, 45540, 23099, 35588, 38858,
    14610, 16215, 46221, 41848, 14605, 39846, 20473, 38237, 53926, 19272, 36453, 32704, 17658, 24120, 9029, 47424,
    64131, 26693, 9727, 55461]
theorem cU1_eq : modMul (exactMatrix P) cX1 cZ2 = cU1 := fastStep (by decide +kernel)
def cS1 : List Nat := [31, 48211, 21650, 9562, 10412, 35991, 60862, 7615, 37067, 37229, 20011, 31631, 49521, 52999,
    36677, 64198, 16828, 61005, 22430, 2121, 13167, 49047, 56248, 13020, 26328, 57502, 45646, 15056, 34493, 51428,
    61487, 46346, 24594, 52245, 57607, 27959, 22216, 36497, 6134, 44345, 1808, 15225, 555, 30562, 63622, 19526, 369,
    54347, 61289, 23874]
theorem cS1_eq : modMul (exactMatrix P) cY1 cW2 = cS1 := fastStep (by decide +kernel)
def cZZ : List Nat := [5744, 60909, 8087, 1217, 13399, 44754, 31357, 40878, 39232, 35991, 62548, 25502, 9371, 27787,
    33541, 22185, 26952, 21084, 36856, 31301, 33358, 49898, 48289, 9197, 47158, 19822, 16993, 23700, 38451, 17551,
    43506, 65221, 63151, 9397, 56506, 47179, 40447, 45019, 10861, 2298, 18291, 29957, 31384, 34266, 58490, 19288,
    57434, 42833, 30354, 36355]
theorem cZZ_eq : modMul (exactMatrix P) cZ1 cZ2 = cZZ := fastStep (by decide +kernel)
def cZZZ : List Nat := [58433, 28296, 21881, 5332, 43757, 58417, 7702, 26310, 41304, 63667, 20121, 13514, 65036,
    10541, 26873, 58706, 59419, 23108, 55833, 42886, 42517, 51962, 21323, 32844, 57962, 40530, 34402, 2313, 9200,
    11686, 24455, 26793, 25050, 35605, 36756, 13329, 54758, 58014, 39120, 51279, 49518, 14042, 12203, 64673, 13750,
    12358, 32948, 28390, 61986, 52527]
theorem cZZZ_eq : modMul (exactMatrix P) cW1 cW2 = cZZZ := fastStep (by decide +kernel)
def cU2 : List Nat := [59029, 64140, 56165, 28657, 49936, 36403, 5254, 41657, 58222, 1355, 38160, 4105, 19363, 7650,
    23916, 16623, 35523, 48081, 63731, 1757, 46436, 46904, 23272, 65457, 7328, 64494, 37986, 48795, 47301, 19934,
    34642, 25606, 17924, 27330, 19934, 42408, 25949, 56906, 27454, 12948, 8369, 46698, 41308, 46235, 65312, 43966,
    35889, 59927, 41578, 52550]
theorem cU2_eq : modMul (exactMatrix P) cZ1 cX2 = cU2 := fastStep (by decide +kernel)
def cS2 : List Nat := [55406, 59403, 21097, 33607, 27774, 7091, 36478, 17120, 24950, 62703, 56524, 62952, 32121,
    15003, 8434, 34197, 64013, 46085, 53092, 34214, 27002, 51049, 28218, 9252, 1955, 4010, 44328, 53686, 63011, 57512,
    25979, 34275, 19752, 35785, 38836, 52152, 33376, 55643, 17952, 16173, 60953, 50026, 6315, 60366, 44453, 50341,
    45993, 1626, 54775, 24436]
theorem cS2_eq : modMul (exactMatrix P) cW1 cY2 = cS2 := fastStep (by decide +kernel)
def cP : List Nat := [36254, 20260, 60097, 9606, 18331, 60809, 23492, 56383, 9494, 52823, 58929, 42723, 64012, 52551,
    61337, 36240, 39561, 64139, 54208, 22179, 62912, 33981, 53631, 43529, 54588, 28225, 51740, 45757, 54816, 24594,
    33440, 58170, 24342, 1488, 28758, 11564, 57996, 46309, 51522, 55346, 45796, 31891, 25419, 31430, 64387, 24854,
    60887, 39763, 50398, 21361]
theorem cP_eq : addSubVals cU2 [negate cU1] = cP := by decide +kernel
def cR : List Nat := [26703, 31452, 17165, 24487, 16099, 52453, 19266, 57061, 63872, 11035, 30200, 25523, 31394,
    14370, 18443, 4486, 19123, 3344, 5213, 27329, 51796, 26934, 39988, 63957, 56445, 37588, 57976, 58691, 6250, 49602,
    43263, 36708, 47797, 64893, 4658, 33195, 63680, 46786, 24501, 33498, 2439, 52698, 7529, 39119, 54421, 59127, 3877,
    19242, 12033, 24834]
theorem cR_eq : addSubVals cS2 [negate cS1] = cR := by decide +kernel
def cPP : List Nat := [8327, 23273, 9850, 36591, 40833, 15372, 4835, 40876, 4040, 55576, 19784, 53207, 33306, 52525,
    32208, 31485, 62547, 20831, 53141, 29342, 44020, 54339, 24779, 53694, 6261, 36547, 18049, 8059, 30548, 4239, 7245,
    49800, 43105, 12161, 38115, 44321, 48847, 36816, 21006, 60480, 1104, 63057, 56425, 130, 31887, 46183, 47112,
    16353, 4028, 59360]
theorem cPP_eq : modMul (exactMatrix P) cP cP = cPP := fastStep (by decide +kernel)
def cRR : List Nat := [7660, 18062, 11714, 25819, 34640, 32390, 63555, 18496, 13596, 33386, 8939, 51178, 47191, 32436,
    21916, 12084, 27551, 23326, 9005, 4052, 581, 29910, 240, 3145, 21263, 49395, 44658, 58580, 39642, 58588, 9362,
    11555, 51244, 10835, 15329, 46969, 17921, 37458, 32414, 15248, 9578, 25041, 10855, 6667, 5649, 9199, 61326, 56173,
    28591, 39134]
theorem cRR_eq : modMul (exactMatrix P) cR cR = cRR := fastStep (by decide +kernel)
def cPPP : List Nat := [61500, 42972, 20695, 27568, 36617, 2551, 49352, 3562, 48430, 19125, 860, 15143, 3948, 7559,
    49220, 35948, 57935, 4079, 43197, 22820, 51610, 163, 21446, 34028, 37418, 41601, 56492, 30738, 37598, 24536,
    31624, 50603, 60871, 14170, 53651, 11162, 61276, 28927, 46001, 45765, 40687, 32067, 35883, 33288, 31936, 5754,
    1527, 7918, 48439, 14647]
theorem cPPP_eq : modMul (exactMatrix P) cP cPP = cPPP := fastStep (by decide +kernel)
def cQ : List Nat := [26175, 61666, 58691, 21922, 23816, 42992, 3680, 53651, 7092, 26483, 27269, 35722, 37426, 18264,
    40000, 11123, 28906, 63034, 20860, 32341, 16984, 12474, 38836, 25882, 30318, 36111, 29982, 470, 5997, 3514, 49315,
    43925, 16755, 21390, 42390, 49935, 13390, 3436, 2647, 44486, 11832, 54066, 35534, 14647, 37283, 63217, 56819,
    41133, 46445, 60857]
theorem cQ_eq : modMul (exactMatrix P) cU1 cPP = cQ := fastStep (by decide +kernel)
def cZZ3 : List Nat := [40121, 55510, 3307, 62951, 3932, 55252, 50864, 49079, 33290, 61159, 17961, 36156, 41770,
    36822, 52764, 18145, 54067, 1158, 11602, 50052, 27794, 38708, 45955, 63435, 53668, 56371, 7151, 40867, 42231,
    21644, 20167, 14813, 51547, 48960, 8083, 55661, 53108, 41120, 29138, 8726, 19120, 47869, 54265, 58195, 32427,
    8500, 14316, 56204, 29163, 33092]
theorem cZZ3_eq : modMul (exactMatrix P) cZZ cPP = cZZ3 := fastStep (by decide +kernel)
def cX3 : List Nat := [4402, 43608, 57857, 21264, 12129, 56872, 6755, 50300, 47943, 48972, 93, 12686, 49294, 14493,
    32754, 57351, 23965, 13418, 44052, 33120, 28886, 14176, 39763, 55117, 34849, 12633, 40701, 21704, 53988, 26840,
    50058, 19439, 49427, 1903, 12524, 28270, 22102, 19258, 19168, 65521, 36281, 3820, 40255, 37528, 54431, 27429,
    17234, 51010, 8329, 41003]
theorem cX3_eq : addSubVals cRR [negate cPPP, negate cQ, negate cQ] = cX3 := by decide +kernel
def cQX : List Nat := [58637, 38318, 18552, 1100, 10424, 1952, 40575, 50907, 35138, 28569, 20863, 17238, 36926, 56137,
    53932, 53718, 42328, 2433, 16796, 59888, 26059, 23230, 1678, 38490, 10880, 49165, 48575, 64208, 60483, 20192,
    12665, 7908, 19967, 35493, 53295, 30667, 43808, 11818, 61473, 40635, 49431, 2856, 62570, 51932, 56442, 64100,
    63276, 62086, 56663, 44126]
theorem cQX_eq : addSubVals cQ [negate cX3] = cQX := by decide +kernel
def cSP : List Nat := [60471, 27744, 57977, 46940, 602, 12993, 38772, 56845, 60925, 65244, 34918, 43547, 7866, 36179,
    9031, 53051, 63265, 45214, 233, 15535, 31808, 31863, 34940, 25730, 4315, 37646, 27369, 4709, 5052, 19016, 53488,
    62216, 21173, 25778, 51003, 45173, 50516, 5149, 25041, 13811, 24412, 6065, 56194, 55938, 14048, 7237, 41255,
    21806, 33350, 36373]
theorem cSP_eq : modMul (exactMatrix P) cS1 cPPP = cSP := fastStep (by decide +kernel)
def cZZZ3 : List Nat := [17791, 33360, 51786, 31895, 53013, 23936, 60094, 34819, 40259, 58019, 28630, 64423, 16387,
    22248, 34446, 25131, 49421, 11726, 31417, 8452, 40343, 21655, 19296, 14078, 27535, 44861, 36120, 44392, 31354,
    63575, 1406, 18967, 11946, 9675, 30269, 39151, 56519, 65323, 53222, 51358, 52079, 50854, 54591, 63580, 54226,
    27108, 10335, 6157, 2903, 28250]
theorem cZZZ3_eq : modMul (exactMatrix P) cZZZ cPPP = cZZZ3 := fastStep (by decide +kernel)
def cRQ : List Nat := [60697, 54160, 10864, 55483, 60978, 41387, 25909, 23462, 58070, 49942, 50491, 39192, 29120,
    2351, 39480, 57935, 63489, 1809, 59092, 10270, 48625, 1079, 52168, 9760, 23858, 52585, 6602, 1198, 16771, 19944,
    17329, 63694, 58831, 53201, 45650, 23944, 64765, 43848, 35462, 41132, 24103, 55162, 37296, 34947, 55387, 2305,
    34603, 23652, 61231, 16636]
theorem cRQ_eq : modMul (exactMatrix P) cR cQX = cRQ := fastStep (by decide +kernel)
def cY3 : List Nat := [37090, 46676, 36138, 8985, 59113, 44226, 30787, 14173, 7631, 35756, 9260, 55336, 4569, 18538,
    11662, 39371, 37611, 40306, 33410, 55402, 54778, 59567, 19833, 51755, 34954, 40626, 38527, 16550, 54822, 44446,
    42612, 50257, 24944, 43429, 18076, 53100, 1446, 1018, 23104, 23682, 8278, 1707, 48393, 53822, 49443, 23380, 17039,
    8375, 46428, 4535]
theorem cY3_eq : addSubVals cRQ [negate cSP] = cY3 := by decide +kernel

theorem cadd : paddXyzz (exactMatrix P) (cX1, cY1, cZ1, cW1) (cX2, cY2, cZ2, cW2) =
    (cX3, cY3, cZZ3, cZZZ3) := by
  unfold paddXyzz
  dsimp only
  rw [cU1_eq, cS1_eq, cZZ_eq, cZZZ_eq, cU2_eq, cS2_eq, cP_eq, cR_eq, cPP_eq, cRR_eq, cPPP_eq, cQ_eq, cZZ3_eq, cX3_eq,
    cQX_eq, cSP_eq, cZZZ3_eq, cRQ_eq, cY3_eq]
/-- The affine coordinates of the first point. -/
def cAx : Nat := 116058039162993234054530382863741921973196805116204116586213708632869570063057317852914373781473831170608650108198

/-- The affine coordinates of the first point. -/
def cAy : Nat := 38182665076122166251390784579435794480619240180780703311587167376035029120520277452473118035779058948257631888292

/-- The affine coordinates of the second point. -/
def cBx : Nat := 60786506156618043281350349516532397520967053564313819111070857056807621126626287357458568378707526211399870904860

/-- The affine coordinates of the second point. -/
def cBy : Nat := 52698051975831563862059723360836709858713594645462707083947945097243938193600401219257205899803490373233901313048

/-- The coordinates of the first point (`Y = 1`). -/
def cNX : Nat := 40444113458751439114312159473597726463030217310543820242544679806962764482622126829274638208486994246620785592623

/-- The coordinates of the first point (`Y = 1`). -/
def cNZ : Nat := 245028225747948884923367785030015862755477536447947097553285031438940939040984151946043475852261178654016257849478

/-- The coordinates of the first point (`Y = 1`). -/
def cNW : Nat := 7143995984960059420218957592741292480039555460238500712545021042152566284936251671663030295494946309761664795734

/-- The integers behind the returned `Y` and `ZZZ`. -/
def cVY : Nat := 25880487451767721406807241165854799865782156345525133807958004165354366117531032564078863568122803999482689202460528866

/-- The integers behind the returned `Y` and `ZZZ`. -/
def cVW : Nat := 2119150772224674969166715319754541406036726321586100417764365228900565756088909555454946742992104143465673933859997055

end Verif.EcRns
