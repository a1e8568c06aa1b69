import Verif.Lemmas.EcRnsFast

/-!
# Two computations with the residue-vector point formulas

The generator with `Z = 8203` plus the generator with `Z = 1`, and the double of `(0, 1, 1, 0)`, step by step.
-/

namespace Verif.EcRns

open Verif.EcChunks

theorem fastStep {a b c : List Nat} (h : (a.length == 50 && b.length == 50 && fastMul a b == c) = true) :
    modMul (exactMatrix P) a b = c := by
  simp only [Bool.and_eq_true, beq_iff_eq] at h
  rw [fastMul_eq a b h.1.1 h.1.2]
  exact h.2

def wX1 : List Nat := [11849, 43373, 33895, 24688, 54984, 10034, 58108, 29919, 38855, 11463, 22432, 44296,
    31668, 30853, 41970, 47356, 28382, 32972, 45082, 57347, 22448, 21005, 33835, 47676, 5187, 38119, 37090,
    16162, 11479, 39246, 38636, 16721, 59317, 43332, 65224, 46900, 12710, 25273, 56133, 837, 49835, 45263,
    22825, 10072, 23315, 15307, 12242, 32592, 28183, 20095]
def wY1 : List Nat := [7878, 63845, 9126, 21511, 48825, 16080, 16745, 5174, 64781, 64227, 27427, 26616, 17279,
    15962, 47764, 16921, 60509, 14280, 14606, 29821, 3795, 910, 40405, 6576, 26101, 64269, 65152, 9178, 46780,
    30883, 47716, 22765, 10380, 50611, 56098, 1444, 56878, 18029, 521, 34588, 54019, 61091, 1413, 3995, 10955,
    4009, 12759, 4254, 5125, 21130]
def wZ1 : List Nat := [8203, 8203, 8203, 8203, 8203, 8203, 8203, 8203, 8203, 8203, 8203, 8203, 8203, 8203,
    8203, 8203, 8203, 8203, 8203, 8203, 8203, 8203, 8203, 8203, 8203, 8203, 8203, 8203, 8203, 8203, 8203,
    8203, 8203, 8203, 8203, 8203, 8203, 8203, 8203, 8203, 8203, 8203, 8203, 8203, 8203, 8203, 8203, 8203,
    8203, 8203]
def wT1 : List Nat := [50327, 20390, 41008, 26849, 20855, 50476, 33975, 54090, 62878, 37267, 21476, 50477,
    60318, 12526, 36052, 38871, 26300, 58211, 1998, 62062, 38962, 18457, 30283, 12159, 34936, 25596, 44071,
    51174, 23292, 26902, 47524, 40764, 25672, 9645, 14371, 5022, 44671, 45263, 33608, 24446, 52932, 16525,
    27535, 12046, 28064, 15175, 7322, 12843, 971, 13138]
def wX2 : List Nat := [24369, 36508, 40559, 31050, 16650, 58717, 36329, 43201, 21946, 39770, 28912, 44418,
    64386, 44963, 5850, 47175, 30622, 57443, 51777, 22326, 63466, 36103, 61289, 43344, 49894, 21664, 62371,
    1604, 20975, 44719, 27768, 30685, 2504, 17560, 64343, 54235, 5063, 9281, 40832, 13990, 5570, 23381, 19878,
    11219, 29437, 14792, 15040, 15343, 2455, 28743]
def wY2 : List Nat := [22331, 41270, 2371, 150, 19741, 11149, 63864, 6651, 63520, 24446, 2087, 20067, 6068,
    46787, 3020, 9944, 17490, 31509, 31007, 13334, 8114, 350, 42365, 25229, 10888, 61879, 41583, 51147, 43967,
    12225, 42262, 5302, 40234, 27547, 18046, 59703, 54179, 8464, 35670, 54226, 17173, 38477, 1678, 10267,
    2305, 7837, 7688, 26762, 13329, 30390]
def wZ2 : List Nat := [1, 1, 1, 1, 1, 1, 1, 1, 1, 1, 1, 1, 1, 1, 1, 1, 1, 1, 1, 1, 1, 1, 1, 1, 1, 1, 1, 1, 1,
    1, 1, 1, 1, 1, 1, 1, 1, 1, 1, 1, 1, 1, 1, 1, 1, 1, 1, 1, 1, 1]
def wT2 : List Nat := [50004, 51663, 13572, 12681, 63887, 14315, 34203, 64065, 34388, 41008, 64747, 5126,
    40709, 43652, 35466, 24944, 36877, 60464, 53679, 41726, 46086, 6674, 55950, 25821, 8914, 42405, 13669,
    49038, 13726, 518, 74, 29537, 36215, 41760, 40149, 59161, 43369, 27873, 21307, 11328, 60660, 1357, 24267,
    5710, 19856, 12430, 9612, 8461, 31326, 28744]
def wA : List Nat := [58807, 7582, 3679, 55309, 59599, 1114, 61618, 33521, 16173, 52107, 20727, 16710, 10861,
    52896, 740, 2244, 23126, 62922, 65030, 10828, 25935, 26267, 54842, 41524, 8852, 29977, 59091, 13927,
    15050, 6153, 64602, 8927, 17709, 14370, 38616, 12604, 40672, 10166, 40860, 7678, 59729, 53672, 35123,
    38319, 38273, 910, 25283, 4963, 36671, 38706]
theorem wA_eq : modMul (exactMatrix P) wX1 wX2 = wA := fastStep (by decide +kernel)
def wB : List Nat := [0, 36523, 43372, 29922, 34868, 46194, 11151, 30240, 15019, 20042, 32949, 18089, 50127,
    13590, 33941, 7114, 19272, 8469, 13564, 27266, 34092, 14980, 60017, 50592, 20928, 17554, 50941, 24003,
    4187, 4454, 23086, 27013, 45079, 13940, 58982, 18707, 64251, 17817, 47645, 26069, 3420, 54204, 10631,
    62833, 48374, 4902, 45141, 42330, 1670, 1477]
theorem wB_eq : modMul (exactMatrix P) wY1 wY2 = wB := fastStep (by decide +kernel)
def wD : List Nat := [9525, 13692, 53478, 10126, 17029, 65339, 30073, 55487, 38938, 59323, 38594, 4933, 7751,
    12667, 22486, 9322, 16684, 48024, 49919, 14383, 34470, 15031, 27292, 41176, 8462, 4832, 58136, 61404,
    59482, 17010, 29088, 2620, 63714, 14564, 24622, 3361, 7299, 854, 25928, 20441, 5127, 17499, 2039, 58064,
    35162, 39166, 20057, 29977, 57027, 48470]
theorem wD_eq : modMul (exactMatrix P) wZ1 wZ2 = wD := fastStep (by decide +kernel)
def wC : List Nat := [56120, 41633, 21746, 29386, 53155, 46275, 51241, 10526, 36408, 41564, 9199, 23478,
    37557, 18487, 22952, 19770, 4767, 34062, 56542, 18143, 62918, 25784, 59111, 18949, 33804, 29251, 9133,
    4198, 62650, 48323, 17780, 43672, 14777, 44149, 14433, 43677, 43948, 54270, 2834, 45568, 11455, 7512,
    39394, 11839, 52041, 56912, 56332, 18373, 51401, 37598]
theorem wC_eq : modMul (exactMatrix P) wT1 wT2 = wC := fastStep (by decide +kernel)
def wE1 : List Nat := [19727, 41683, 43021, 46199, 38282, 26114, 9334, 35093, 38133, 10193, 49859, 5423,
    48947, 46815, 24261, 64277, 23442, 47252, 59688, 21737, 26243, 21915, 8827, 54252, 31288, 36995, 36859,
    25340, 58259, 4760, 20989, 39486, 4344, 28596, 55983, 48344, 4265, 43302, 56654, 35425, 38561, 41067,
    24238, 14067, 34270, 19316, 25001, 36846, 33308, 41225]
theorem wE1_eq : add2 wX1 wY1 = wE1 := by decide +kernel
def wE2 : List Nat := [46700, 12243, 42930, 31200, 36391, 4345, 34674, 49852, 19963, 64216, 30999, 64485,
    4975, 26273, 8870, 57119, 48112, 23505, 17347, 35660, 6157, 36453, 38241, 3162, 60782, 18150, 38571,
    52751, 64942, 56944, 4667, 35987, 42738, 45107, 17050, 48611, 59242, 17745, 11191, 2907, 22743, 61858,
    21556, 21486, 31742, 22629, 22728, 42105, 15784, 59133]
theorem wE2_eq : add2 wX2 wY2 = wE2 := by decide +kernel
def wE3 : List Nat := [20327, 17801, 47581, 20429, 59949, 20773, 7844, 51770, 30262, 27959, 24045, 61969,
    13402, 31527, 14928, 64035, 36644, 33587, 18662, 28710, 10527, 64530, 13393, 14806, 27619, 564, 27696,
    60945, 22698, 28405, 30651, 59066, 44830, 22649, 39556, 58134, 38101, 48001, 44565, 56520, 5524, 62704,
    26204, 21137, 65503, 16790, 34162, 55817, 48783, 4868]
theorem wE3_eq : modMul (exactMatrix P) wE1 wE2 = wE3 := fastStep (by decide +kernel)
def wC2 : List Nat := [6786, 12798, 6834, 43163, 59585, 8772, 56566, 54125, 21349, 35974, 12195, 13762, 2285,
    8713, 18457, 63770, 39547, 22978, 8329, 24873, 4920, 30001, 46178, 31432, 14199, 51603, 63084, 49807,
    42517, 51751, 37560, 47377, 15512, 21324, 60977, 8859, 56867, 10353, 32656, 28556, 19493, 27398, 65238,
    14280, 34118, 13062, 58446, 51666, 38752, 62517]
theorem wC2_eq : modMul (exactMatrix P) wC TWIST_D_RNS = wC2 := fastStep (by decide +kernel)
def wE : List Nat := [63920, 14216, 35966, 1613, 28483, 5129, 22375, 17612, 20042, 57926, 23234, 15574, 50002,
    4296, 8146, 58192, 3571, 64171, 20044, 46519, 26422, 7728, 34570, 58140, 28661, 4407, 36252, 63137, 24296,
    39465, 35142, 55327, 21967, 26351, 54155, 44827, 38218, 9977, 46737, 15495, 24842, 55909, 49510, 4113,
    60550, 2120, 11120, 21582, 47536, 13229]
theorem wE_eq : addSubVals wE3 [negateZ wA, negateZ wB] = wE := by decide +kernel
def wF : List Nat := [39603, 21154, 64362, 32936, 21708, 6878, 17157, 48918, 28075, 8910, 20086, 50862, 54260,
    56320, 50715, 45498, 14524, 43310, 16141, 50177, 2088, 9962, 49132, 12058, 9674, 44309, 54346, 31658,
    60068, 8777, 4936, 4022, 35488, 9246, 52413, 3504, 2952, 18141, 5955, 53555, 59514, 7998, 4092, 53099,
    9148, 54416, 50740, 50274, 36822, 10225]
theorem wF_eq : addSubVals wD [negateZ wC2] = wF := by decide +kernel
def wG : List Nat := [16311, 26490, 60312, 53289, 11087, 8590, 21120, 44103, 60287, 29800, 50789, 18695,
    10036, 21380, 40943, 7633, 56231, 5555, 58248, 39256, 39390, 45032, 8057, 7197, 22661, 56435, 55837,
    45830, 36628, 3392, 1285, 49997, 13873, 35888, 20260, 12220, 64166, 11207, 58584, 48997, 24620, 44897,
    1755, 6846, 3794, 52228, 13065, 16209, 30353, 45573]
theorem wG_eq : add2 wD wC2 = wG := by decide +kernel
def wH : List Nat := [58807, 44105, 47051, 19700, 28940, 47308, 7250, 63761, 31192, 6652, 53676, 34799, 60988,
    1009, 34681, 9358, 42398, 5944, 13157, 38094, 60027, 41247, 49446, 26705, 29780, 47531, 44649, 37930,
    19237, 10607, 22325, 35940, 62788, 28310, 32259, 31311, 39600, 27983, 23194, 33747, 63149, 42589, 45754,
    35654, 21161, 5812, 4986, 47293, 38341, 40183]
theorem wH_eq : add2 wA wB = wH := by decide +kernel
def wX3 : List Nat := [5941, 7156, 29815, 28797, 51688, 46174, 49830, 51647, 40990, 26117, 9163, 42617, 59385,
    64191, 25463, 6048, 65281, 33270, 29005, 30296, 25983, 22762, 12342, 35864, 332, 56158, 4554, 22059, 6051,
    61089, 13608, 59576, 34559, 65137, 670, 15261, 17069, 13663, 5541, 45888, 45540, 4138, 44870, 37617,
    22139, 16945, 5185, 62254, 44961, 31003]
theorem wX3_eq : modMul (exactMatrix P) wE wF = wX3 := fastStep (by decide +kernel)
def wY3 : List Nat := [16219, 8171, 34939, 18729, 24316, 13881, 57980, 46408, 29507, 5249, 62322, 62948,
    44744, 31884, 62989, 57485, 24996, 23647, 5718, 56778, 31232, 63371, 40829, 63487, 57694, 28348, 44932,
    46234, 8634, 60424, 45589, 4665, 2651, 62010, 42548, 53382, 54832, 23797, 51367, 16464, 48340, 51484,
    53272, 13567, 14655, 19619, 13590, 58810, 19972, 9280]
theorem wY3_eq : modMul (exactMatrix P) wG wH = wY3 := fastStep (by decide +kernel)
def wZ3 : List Nat := [30090, 4648, 2899, 47893, 36738, 48059, 17332, 60413, 8174, 35134, 4589, 39703, 57195,
    50435, 37615, 31702, 64146, 21589, 4770, 35143, 48785, 15513, 9792, 42103, 27051, 33074, 15309, 59304,
    32452, 10058, 39671, 38558, 32691, 14938, 57612, 10853, 27184, 29977, 27360, 54187, 16838, 39923, 24007,
    49083, 41929, 59818, 23149, 38691, 10743, 40827]
theorem wZ3_eq : modMul (exactMatrix P) wF wG = wZ3 := fastStep (by decide +kernel)
def wT3 : List Nat := [16041, 42068, 47963, 29795, 30035, 12983, 21290, 56794, 24727, 19059, 45131, 32782,
    41297, 53262, 56434, 64573, 37803, 17353, 5392, 15387, 25895, 9871, 51553, 26529, 23512, 50124, 43328,
    21339, 40373, 39276, 8665, 52068, 34529, 22420, 24251, 8332, 57769, 10141, 61288, 36753, 60961, 56852,
    36812, 59897, 26221, 26870, 16002, 15840, 29313, 43784]
theorem wT3_eq : modMul (exactMatrix P) wE wH = wT3 := fastStep (by decide +kernel)

/-- The sum computed by the code. -/
theorem witness_add : paddTwisted (exactMatrix P) (wX1, wY1, wZ1, wT1) (wX2, wY2, wZ2, wT2) = (wX3, wY3, wZ3, wT3) := by
  unfold paddTwisted
  dsimp only
  rw [wA_eq, wB_eq, wD_eq, wC_eq, wE1_eq, wE2_eq, wE3_eq, wC2_eq, wE_eq, wF_eq, wG_eq, wH_eq, wX3_eq, wY3_eq, wZ3_eq,
    wT3_eq]

def nX : List Nat := [0, 0, 0, 0, 0, 0, 0, 0, 0, 0, 0, 0, 0, 0, 0, 0, 0, 0, 0, 0, 0, 0, 0, 0, 0, 0, 0, 0, 0,
    0, 0, 0, 0, 0, 0, 0, 0, 0, 0, 0, 0, 0, 0, 0, 0, 0, 0, 0, 0, 0]
def nY : List Nat := [1, 1, 1, 1, 1, 1, 1, 1, 1, 1, 1, 1, 1, 1, 1, 1, 1, 1, 1, 1, 1, 1, 1, 1, 1, 1, 1, 1, 1,
    1, 1, 1, 1, 1, 1, 1, 1, 1, 1, 1, 1, 1, 1, 1, 1, 1, 1, 1, 1, 1]
def nE1 : List Nat := [1, 1, 1, 1, 1, 1, 1, 1, 1, 1, 1, 1, 1, 1, 1, 1, 1, 1, 1, 1, 1, 1, 1, 1, 1, 1, 1, 1, 1,
    1, 1, 1, 1, 1, 1, 1, 1, 1, 1, 1, 1, 1, 1, 1, 1, 1, 1, 1, 1, 1]
theorem nE1_eq : add2 nX nY = nE1 := by decide +kernel
def nA : List Nat := [0, 0, 0, 0, 0, 0, 0, 0, 0, 0, 0, 0, 0, 0, 0, 0, 0, 0, 0, 0, 0, 0, 0, 0, 0, 0, 0, 0, 0,
    0, 0, 0, 0, 0, 0, 0, 0, 0, 0, 0, 0, 0, 0, 0, 0, 0, 0, 0, 0, 0]
theorem nA_eq : modMul (exactMatrix P) nX nX = nA := fastStep (by decide +kernel)
def nB : List Nat := [31, 48211, 21650, 9562, 10412, 35991, 60862, 7615, 37067, 37229, 20011, 31631, 49521,
    52999, 36677, 64198, 16828, 61005, 22430, 2121, 13167, 49047, 56248, 13020, 26328, 57502, 45646, 15056,
    34493, 51428, 61487, 46346, 24594, 52245, 57607, 27959, 22216, 36497, 6134, 44345, 1808, 15225, 555,
    30562, 63622, 19526, 369, 54347, 61289, 23874]
theorem nB_eq : modMul (exactMatrix P) nY nY = nB := fastStep (by decide +kernel)
def nE2 : List Nat := [31, 48211, 21650, 9562, 10412, 35991, 60862, 7615, 37067, 37229, 20011, 31631, 49521,
    52999, 36677, 64198, 16828, 61005, 22430, 2121, 13167, 49047, 56248, 13020, 26328, 57502, 45646, 15056,
    34493, 51428, 61487, 46346, 24594, 52245, 57607, 27959, 22216, 36497, 6134, 44345, 1808, 15225, 555,
    30562, 63622, 19526, 369, 54347, 61289, 23874]
theorem nE2_eq : modMul (exactMatrix P) nE1 nE1 = nE2 := fastStep (by decide +kernel)
def nE : List Nat := [8192, 40519, 35433, 879, 62992, 31649, 21764, 29576, 20939, 36580, 52820, 53846, 32052,
    39196, 27836, 3438, 9238, 36439, 14440, 55798, 10386, 49747, 5087, 4503, 30693, 51231, 53052, 39967,
    20670, 21500, 26643, 32022, 39742, 31823, 46661, 17795, 39504, 55065, 25141, 57804, 16931, 35545, 3524,
    18592, 16158, 56570, 47284, 12956, 36984, 48422]
theorem nE_eq : addSubVals nE2 [negate nA, negate nB] = nE := by decide +kernel
def nG : List Nat := [36895, 2935, 39365, 9999, 9140, 51808, 38976, 55144, 47520, 22751, 13653, 25786, 32779,
    39829, 17827, 33149, 54128, 13733, 62319, 62683, 51015, 8443, 58730, 15209, 41610, 17653, 39404, 34962,
    12060, 29410, 9359, 29589, 11697, 2715, 15500, 36752, 9200, 63922, 18592, 40479, 10152, 32873, 2310,
    39839, 6190, 47784, 23962, 60774, 14300, 48024]
theorem nG_eq : addSubVals nB [negate nA] = nG := by decide +kernel
def nF : List Nat := [45025, 12568, 31501, 57290, 51317, 11490, 4552, 4008, 59861, 50409, 26496, 16417, 31325,
    38563, 37845, 39186, 29797, 59145, 31998, 48913, 35180, 25632, 16857, 59208, 19776, 19416, 1317, 44972,
    29280, 13590, 43927, 34455, 2434, 60931, 12483, 64165, 4485, 46208, 31690, 9820, 23710, 38217, 4738,
    62843, 26126, 65356, 5168, 30572, 59668, 48820]
theorem nF_eq : addSubVals nG [negate nB, negate nB] = nF := by decide +kernel
def nH : List Nat := [8161, 57843, 13783, 56848, 52580, 61179, 26421, 21961, 49375, 64848, 32809, 22215,
    48010, 51674, 56632, 4699, 57859, 40881, 57447, 53677, 62642, 700, 14252, 56894, 4365, 59122, 7406, 24911,
    51548, 35441, 30519, 51033, 15148, 44925, 54393, 55163, 17288, 18568, 19007, 13459, 15123, 20320, 2969,
    53528, 18022, 37044, 46915, 24043, 41121, 24548]
theorem nH_eq : addSubVals (negate nA) [negate nB] = nH := by decide +kernel
def nX3 : List Nat := [7431, 14249, 47743, 28833, 16789, 4107, 52069, 39390, 51252, 958, 46722, 43816, 24837,
    48840, 27214, 59979, 45872, 39712, 9962, 12806, 42204, 7650, 60454, 15794, 16890, 14455, 51261, 59277,
    46680, 13032, 4460, 41723, 1782, 11904, 11839, 57490, 28444, 59137, 61310, 50791, 30247, 20474, 45705,
    62096, 15363, 42756, 22330, 38410, 7873, 31276]
theorem nX3_eq : modMul (exactMatrix P) nE nF = nX3 := fastStep (by decide +kernel)
def nY3 : List Nat := [8163, 34393, 10928, 59288, 33073, 53514, 38703, 55074, 4887, 11030, 11659, 52556,
    12443, 7967, 37199, 37794, 44595, 55414, 32200, 20878, 1772, 23986, 2087, 56859, 21208, 224, 22164, 23782,
    4581, 29565, 11960, 51944, 29559, 55329, 20893, 17435, 15771, 18727, 38948, 6366, 58919, 9180, 24281,
    26063, 40687, 55931, 2866, 42213, 2615, 7190]
theorem nY3_eq : modMul (exactMatrix P) nG nH = nY3 := fastStep (by decide +kernel)
def nZ3 : List Nat := [7980, 2452, 29595, 7519, 54751, 30538, 54013, 47934, 53897, 6629, 20580, 56080, 37766,
    38255, 22989, 58584, 27034, 23614, 6626, 7946, 65390, 12649, 44917, 36313, 63375, 22208, 37953, 30018,
    3367, 62316, 42146, 63346, 16783, 11098, 22327, 3676, 43567, 31257, 21130, 36289, 41367, 59945, 34006,
    111, 2949, 51422, 39884, 64046, 40942, 54536]
theorem nZ3_eq : modMul (exactMatrix P) nF nG = nZ3 := fastStep (by decide +kernel)
def nT3 : List Nat := [7119, 37145, 32299, 21142, 52674, 22937, 48097, 51917, 45683, 46067, 35091, 42309,
    33661, 60763, 25527, 60012, 14859, 46651, 25361, 56189, 23039, 60175, 38037, 50465, 30880, 57296, 34234,
    33467, 1744, 14217, 5563, 17234, 33568, 43620, 39991, 1904, 58700, 32312, 10589, 7591, 50630, 44948,
    26839, 25903, 2016, 3401, 11959, 3227, 37823, 31570]
theorem nT3_eq : modMul (exactMatrix P) nE nH = nT3 := fastStep (by decide +kernel)

/-- The double of `(0, 1, 1, 0)` computed by the code. -/
theorem witness_double : pdulTwisted (exactMatrix P) (nX, nY, nY, nX) = (nX3, nY3, nZ3, nT3) := by
  unfold pdulTwisted
  dsimp only
  rw [nE1_eq, nA_eq, nB_eq, nE2_eq, nE_eq, nG_eq, nF_eq, nH_eq, nX3_eq, nY3_eq, nZ3_eq, nT3_eq]

end Verif.EcRns
