import Verif.Lemmas.EcRnsRun

/-!
# A run of `window_merge` on residue vectors: the states

253 steps with the generator of the configured curve, all bits of the scalar set.
-/

namespace Verif.EcRns

/-- The neutral element. -/
def runBlank : Pt := ([0, 0, 0, 0, 0, 0, 0, 0, 0, 0, 0, 0, 0, 0, 0, 0, 0, 0, 0, 0, 0, 0, 0, 0, 0, 0, 0, 0, 0, 0, 0,
    0, 0, 0, 0, 0, 0, 0, 0, 0, 0, 0, 0, 0, 0, 0, 0, 0, 0, 0], [1, 1, 1, 1, 1, 1, 1, 1, 1, 1, 1, 1, 1, 1, 1, 1, 1,
    1, 1, 1, 1, 1, 1, 1, 1, 1, 1, 1, 1, 1, 1, 1, 1, 1, 1, 1, 1, 1, 1, 1, 1, 1, 1, 1, 1, 1, 1, 1, 1, 1], [1, 1, 1,
    1, 1, 1, 1, 1, 1, 1, 1, 1, 1, 1, 1, 1, 1, 1, 1, 1, 1, 1, 1, 1, 1, 1, 1, 1, 1, 1, 1, 1, 1, 1, 1, 1, 1, 1, 1, 1,
    1, 1, 1, 1, 1, 1, 1, 1, 1, 1], [0, 0, 0, 0, 0, 0, 0, 0, 0, 0, 0, 0, 0, 0, 0, 0, 0, 0, 0, 0, 0, 0, 0, 0, 0, 0,
    0, 0, 0, 0, 0, 0, 0, 0, 0, 0, 0, 0, 0, 0, 0, 0, 0, 0, 0, 0, 0, 0, 0, 0])

/-- The generator with `Z = 1`. -/
def runG : Pt := ([24369, 36508, 40559, 31050, 16650, 58717, 36329, 43201, 21946, 39770, 28912, 44418, 64386,
    44963, 5850, 47175, 30622, 57443, 51777, 22326, 63466, 36103, 61289, 43344, 49894, 21664, 62371, 1604, 20975,
    44719, 27768, 30685, 2504, 17560, 64343, 54235, 5063, 9281, 40832, 13990, 5570, 23381, 19878, 11219, 29437,
    14792, 15040, 15343, 2455, 28743], [22331, 41270, 2371, 150, 19741, 11149, 63864, 6651, 63520, 24446, 2087,
    20067, 6068, 46787, 3020, 9944, 17490, 31509, 31007, 13334, 8114, 350, 42365, 25229, 10888, 61879, 41583,
    51147, 43967, 12225, 42262, 5302, 40234, 27547, 18046, 59703, 54179, 8464, 35670, 54226, 17173, 38477, 1678,
    10267, 2305, 7837, 7688, 26762, 13329, 30390], [1, 1, 1, 1, 1, 1, 1, 1, 1, 1, 1, 1, 1, 1, 1, 1, 1, 1, 1, 1, 1,
    1, 1, 1, 1, 1, 1, 1, 1, 1, 1, 1, 1, 1, 1, 1, 1, 1, 1, 1, 1, 1, 1, 1, 1, 1, 1, 1, 1, 1], [50004, 51663, 13572,
    12681, 63887, 14315, 34203, 64065, 34388, 41008, 64747, 5126, 40709, 43652, 35466, 24944, 36877, 60464, 53679,
    41726, 46086, 6674, 55950, 25821, 8914, 42405, 13669, 49038, 13726, 518, 74, 29537, 36215, 41760, 40149, 59161,
    43369, 27873, 21307, 11328, 60660, 1357, 24267, 5710, 19856, 12430, 9612, 8461, 31326, 28744])

/-- The sum of a window, and the state before the first step. -/
def runW : Pt := ([32813, 18426, 35093, 48488, 59443, 11107, 53109, 37593, 22345, 47424, 28834, 18875, 33762,
    20282, 32201, 23623, 28354, 63469, 65391, 8346, 22699, 2618, 49916, 53464, 60355, 14972, 29466, 32907, 36983,
    25219, 17190, 47429, 53835, 23786, 61372, 49399, 52160, 17582, 64627, 12621, 542, 3840, 60055, 26334, 39304,
    64509, 22644, 9099, 63393, 25818], [29096, 33815, 2012, 26398, 41213, 2290, 61789, 20374, 37519, 35744, 60954,
    14331, 41398, 15545, 23860, 52658, 48661, 44041, 17379, 33377, 33012, 4412, 3235, 50224, 28293, 47844, 36708,
    13547, 42764, 6016, 50399, 31658, 63627, 46109, 5738, 27513, 1129, 7866, 14475, 61521, 247, 11278, 61083, 8108,
    56521, 7060, 57953, 45627, 61600, 743], [7508, 27155, 41412, 39919, 47443, 51362, 22492, 44822, 30493, 19480,
    29854, 12542, 37851, 61704, 2609, 46413, 41576, 7358, 8896, 28858, 14700, 22147, 4539, 24305, 10130, 47983,
    12568, 29650, 58732, 32458, 60403, 17983, 39127, 38643, 1159, 53942, 39141, 48543, 30352, 54773, 32121, 57727,
    31611, 46339, 62661, 1941, 44099, 58706, 2628, 28779], [58243, 9976, 45848, 63082, 24617, 26538, 60973, 6428,
    65349, 12594, 58916, 3571, 42746, 49680, 29441, 53655, 17798, 64127, 33996, 56880, 2582, 8749, 19994, 1487,
    46596, 2451, 28463, 53743, 11942, 32709, 5095, 1911, 61092, 61285, 35571, 37484, 36648, 26295, 57619, 11717,
    32402, 51884, 16977, 57609, 37010, 32406, 3795, 12551, 11497, 64380])

/-- The state after 32 steps. -/
def runQ1 : Pt := ([9089, 42156, 34217, 49739, 7756, 61859, 37335, 10455, 26834, 16420, 41260, 46400, 37473, 64777,
    63732, 26990, 42867, 48724, 58070, 25875, 42486, 47632, 19538, 51655, 40894, 56576, 17449, 21613, 2810, 17312,
    61859, 54006, 18583, 9837, 2155, 23694, 31960, 13342, 61955, 1133, 43982, 51194, 38256, 35042, 47589, 64489,
    41134, 14950, 3636, 28545], [62541, 40560, 29847, 17825, 43127, 11748, 36063, 2573, 30785, 26251, 40757, 60435,
    7883, 34970, 29451, 48742, 29272, 51140, 18961, 60601, 10114, 33695, 42367, 24657, 25069, 40949, 21750, 55562,
    26127, 54991, 587, 62283, 55593, 19487, 46997, 29971, 33511, 57913, 54210, 45252, 13574, 32125, 64082, 16429,
    10423, 35607, 57323, 49686, 32821, 25392], [42514, 15446, 1788, 9319, 42518, 52364, 29123, 26127, 28687, 49373,
    60799, 37714, 45596, 37194, 24968, 45530, 47063, 6830, 54619, 54078, 39724, 37943, 61900, 42388, 11896, 24047,
    39828, 57736, 25740, 27025, 4216, 17330, 39648, 64776, 51980, 34242, 40379, 27831, 61825, 42519, 47833, 4893,
    44799, 34802, 11972, 4469, 34750, 35782, 3321, 50058], [15741, 15117, 26789, 41891, 48101, 24292, 19884, 64521,
    15651, 12417, 45071, 47406, 23800, 27721, 17902, 58652, 57506, 1032, 42952, 22721, 44555, 2086, 21030, 13657,
    12012, 18842, 6073, 51721, 15994, 41303, 50237, 12542, 42234, 18050, 7609, 8225, 49283, 21785, 44126, 9985,
    1386, 64182, 49428, 23777, 20301, 54276, 49102, 63182, 41083, 13944])

/-- The state after 64 steps. -/
def runQ2 : Pt := ([37588, 50947, 21891, 13089, 11689, 39900, 52092, 42219, 51437, 22148, 50099, 12134, 39088,
    50496, 44878, 23557, 24572, 57730, 18890, 59805, 51128, 35187, 1132, 54707, 16963, 50559, 46187, 5453, 5192,
    34456, 32704, 34542, 41623, 15948, 1176, 22171, 19296, 36202, 31433, 49837, 61735, 38028, 17495, 44698, 39276,
    5329, 34382, 35023, 15543, 2350], [54951, 5246, 16934, 10137, 16767, 16269, 11747, 46581, 20553, 58836, 25471,
    26877, 27011, 8145, 55769, 42046, 4247, 51676, 53160, 47669, 6290, 22489, 39326, 5860, 31377, 64287, 55196,
    21436, 63954, 34143, 57785, 49444, 29560, 60954, 14795, 43598, 41438, 21566, 39498, 34685, 3363, 18277, 23167,
    54288, 23885, 15403, 26489, 16757, 7036, 34707], [21970, 48786, 60015, 21734, 10993, 62606, 54253, 5016, 48468,
    64660, 64056, 24571, 46317, 40960, 65094, 62732, 54585, 22851, 35998, 24413, 47842, 6998, 47266, 46541, 45432,
    14570, 64631, 14352, 29773, 60822, 53306, 36811, 7516, 3897, 34817, 65121, 29899, 23107, 27846, 47560, 63662,
    27760, 35345, 38751, 44935, 52830, 5323, 37066, 17413, 61156], [5071, 14922, 16207, 59014, 414, 3472, 25656,
    5147, 59061, 51084, 9757, 9691, 39874, 38786, 15839, 54246, 53984, 64068, 21547, 28725, 62404, 49119, 19524,
    36642, 34025, 24983, 58117, 9651, 61386, 62078, 37104, 60520, 59288, 25235, 45375, 21483, 51900, 15156, 53034,
    27568, 38618, 38708, 6666, 12435, 62805, 63552, 36575, 48722, 39255, 47068])

/-- The state after 96 steps. -/
def runQ3 : Pt := ([26043, 54787, 5536, 40282, 62869, 23611, 13162, 30180, 1682, 2714, 60758, 19312, 48720, 59439,
    52577, 30957, 48203, 9669, 36260, 28552, 16324, 3610, 1864, 10852, 20581, 5865, 47030, 26365, 200, 49483,
    43068, 26101, 42281, 63136, 11933, 29353, 44556, 43392, 22063, 25845, 33385, 22320, 27879, 64561, 43761, 12567,
    30312, 39093, 61895, 42350], [39674, 32631, 55205, 20824, 32978, 53930, 58910, 11502, 34870, 2184, 21505,
    13545, 3826, 36465, 22293, 4934, 47130, 33722, 23304, 21153, 9814, 40835, 63356, 5030, 62040, 58621, 33748,
    55668, 50913, 48278, 44892, 13895, 53485, 47808, 12609, 56814, 18946, 62965, 34112, 3172, 31304, 26842, 49887,
    20987, 42647, 12436, 16803, 43446, 11350, 9091], [52837, 36195, 33263, 17337, 11288, 14782, 60398, 37119,
    31381, 61850, 19965, 64245, 37450, 12385, 63028, 46778, 54978, 579, 53956, 34711, 1058, 52628, 1473, 56247,
    38535, 26984, 29396, 6706, 33303, 1819, 12444, 65099, 61537, 21597, 59885, 58594, 11008, 40110, 55881, 6273,
    50352, 60232, 51839, 53567, 836, 64066, 36869, 11944, 23143, 60242], [31547, 59135, 21629, 50101, 7895, 40080,
    8556, 22754, 53244, 64457, 50309, 58025, 33675, 34726, 24222, 4288, 23980, 44832, 10724, 10424, 61325, 35035,
    46284, 38418, 57245, 6653, 33229, 32315, 8795, 58179, 57549, 59905, 11876, 18404, 45396, 25066, 57114, 27777,
    63790, 5405, 32068, 19526, 16792, 29123, 43158, 39626, 50569, 28557, 40068, 32507])

/-- The state after 128 steps. -/
def runQ4 : Pt := ([20115, 6773, 23433, 35766, 62130, 4586, 45907, 51950, 11518, 14234, 19986, 51122, 62211, 53034,
    58588, 15404, 39397, 55159, 23640, 49056, 34962, 34104, 43299, 38902, 20455, 21836, 8069, 60574, 53943, 3953,
    2885, 51125, 51083, 42056, 19948, 62730, 59297, 11300, 59503, 56480, 52772, 17838, 60294, 38349, 14613, 57826,
    34885, 9886, 49113, 45135], [36230, 24454, 45327, 5047, 7306, 46530, 50088, 28317, 29454, 4576, 19322, 37318,
    32729, 61886, 43598, 57022, 27313, 59934, 4397, 5813, 61970, 52797, 60286, 5054, 9522, 65266, 28368, 32596,
    17691, 836, 50739, 25815, 37869, 31643, 21468, 43023, 35750, 57293, 17946, 24835, 52970, 32568, 56033, 42148,
    25904, 58140, 58715, 35169, 64457, 34960], [18304, 6455, 13465, 47847, 22133, 17787, 15427, 43517, 14186,
    28442, 2146, 24440, 6090, 27449, 3450, 63362, 19273, 7047, 14112, 16412, 63219, 54564, 55528, 41884, 26458,
    47343, 8801, 18466, 18996, 2944, 61280, 40532, 11597, 9049, 55422, 7450, 12896, 28427, 44155, 7565, 36540,
    55784, 44104, 37350, 13512, 13155, 34440, 53043, 35455, 1624], [42681, 33463, 45807, 39256, 62990, 5474, 56760,
    27483, 25549, 65181, 8686, 64725, 62522, 3285, 20009, 57693, 53167, 40839, 4225, 13728, 16041, 47254, 57877,
    45616, 51895, 63722, 4689, 62167, 40752, 26750, 62015, 53962, 13695, 9246, 53586, 4796, 61604, 10817, 30289,
    38390, 53359, 8973, 10312, 18952, 29234, 47141, 61929, 22393, 45431, 47773])

/-- The state after 160 steps. -/
def runQ5 : Pt := ([16760, 38258, 56209, 28808, 50047, 64146, 4051, 62113, 1987, 24262, 28518, 42413, 44893, 48711,
    63110, 37926, 27402, 45102, 23998, 63067, 31444, 65201, 44183, 23615, 59271, 65510, 23209, 63597, 53364, 41293,
    25833, 60234, 3451, 58781, 62147, 53824, 3014, 2266, 58149, 42624, 55741, 1065, 25367, 56515, 29984, 64399,
    53564, 28026, 38762, 37554], [53825, 33451, 40439, 11038, 52303, 39464, 27805, 9344, 62254, 23600, 40346,
    35432, 53103, 42298, 53087, 38629, 8819, 2778, 23839, 39077, 45397, 28489, 65481, 12441, 7136, 12471, 48892,
    61673, 37420, 15370, 11574, 17744, 35699, 18637, 15765, 43187, 26965, 3180, 29880, 8546, 47331, 51665, 23796,
    49939, 9235, 33614, 18931, 36997, 35853, 46676], [46542, 59863, 30633, 45785, 35130, 20412, 154, 28028, 3559,
    50633, 22571, 10396, 62452, 33831, 50363, 8448, 14444, 57190, 61481, 47642, 10502, 6704, 31290, 50954, 22059,
    46185, 36116, 13500, 46953, 29268, 24251, 42404, 28099, 3756, 16026, 10935, 24767, 12347, 36683, 32574, 8085,
    28650, 27526, 2801, 17270, 17859, 35414, 23408, 49296, 57515], [60338, 22610, 56466, 55968, 50643, 44874,
    29768, 40960, 34241, 33354, 32470, 12212, 27101, 27162, 38983, 5213, 33301, 53385, 18911, 20994, 47765, 60681,
    21739, 34017, 62071, 7268, 53911, 38879, 12087, 59051, 49350, 21382, 6485, 9030, 24046, 44435, 54976, 13281,
    52510, 1893, 34863, 47147, 36947, 18508, 16576, 48856, 16097, 41466, 33635, 64079])

/-- The state after 192 steps. -/
def runQ6 : Pt := ([6292, 38689, 49520, 59949, 62713, 17292, 4947, 45107, 43043, 24473, 41094, 41849, 62572, 13784,
    6108, 57685, 48265, 53237, 57236, 32429, 44203, 64420, 55317, 39709, 21399, 14312, 2659, 21731, 50145, 8364,
    35433, 51317, 24489, 3942, 13215, 46641, 2657, 24892, 23784, 37014, 56407, 62395, 62122, 22851, 54371, 34346,
    44953, 30876, 18455, 28169], [21037, 49410, 59645, 39008, 9907, 22824, 29571, 32508, 35809, 10608, 61625,
    16622, 22607, 45025, 9272, 14118, 36543, 16093, 40295, 24916, 10446, 14692, 33431, 10241, 61846, 4994, 19500,
    40780, 9526, 33767, 8630, 19667, 25045, 37640, 29594, 34040, 64709, 31959, 53080, 21017, 44423, 16275, 53473,
    6384, 40401, 18528, 42245, 16002, 18283, 6332], [57792, 40729, 9925, 48767, 1533, 42535, 52558, 58664, 53321,
    25496, 64906, 21857, 10524, 13957, 6620, 3812, 41061, 4120, 33164, 1620, 12834, 48488, 3863, 32098, 56774,
    62022, 51157, 45082, 40467, 35824, 62002, 39529, 48462, 11734, 58396, 57846, 23950, 23970, 44289, 51292, 31755,
    8959, 41722, 18961, 1131, 49062, 8335, 25072, 9853, 29389], [29160, 58634, 48263, 31699, 31737, 61289, 45480,
    675, 54520, 41474, 63341, 48427, 63437, 44074, 46559, 44549, 30240, 54624, 59905, 29501, 8511, 2519, 19900,
    60614, 25614, 27002, 54482, 23494, 4841, 24110, 4253, 20861, 192, 64418, 5660, 21484, 46354, 9862, 7865, 26338,
    57929, 26770, 9658, 60974, 45791, 35604, 16377, 45433, 36011, 54362])

/-- The state after 224 steps. -/
def runQ7 : Pt := ([5434, 48836, 33722, 14298, 30743, 57563, 37682, 46951, 9769, 47508, 27663, 63396, 19083, 3079,
    18732, 36330, 41854, 40844, 16810, 57184, 29716, 23037, 65215, 52538, 36073, 23687, 38461, 55199, 50227, 20601,
    8260, 50780, 10099, 30605, 30195, 43020, 10587, 35841, 22052, 33498, 32959, 64832, 42818, 49432, 1415, 38000,
    52971, 58021, 62833, 62629], [72, 31757, 23306, 41691, 19262, 44692, 16922, 31837, 61260, 17038, 39414, 60796,
    6180, 11225, 51973, 17326, 7857, 29955, 62439, 47120, 40968, 55141, 21678, 47516, 24441, 4542, 32225, 12651,
    58037, 4064, 53860, 32100, 33473, 15609, 3152, 58954, 44884, 9588, 28714, 43115, 44943, 15350, 52338, 55603,
    19322, 62282, 50123, 62146, 26871, 14396], [41430, 34494, 47653, 1252, 57685, 62555, 61690, 26709, 15017, 6492,
    13625, 49123, 14332, 24294, 22345, 43856, 53135, 25027, 19707, 39165, 10443, 1936, 8529, 15070, 40617, 6833,
    9048, 9734, 3864, 2804, 15984, 46534, 61261, 65137, 36389, 60441, 52699, 22261, 45046, 25332, 35391, 44605,
    35661, 64956, 15343, 24979, 4757, 49431, 6537, 20337], [55247, 21568, 53762, 23539, 59042, 6154, 15076, 52129,
    62681, 56265, 14357, 26047, 45765, 7216, 48220, 13289, 6150, 22022, 58449, 39805, 31784, 18354, 47459, 53477,
    12527, 2140, 65126, 34811, 50595, 45367, 51440, 34064, 7394, 2282, 35998, 24361, 21992, 24114, 59764, 60703,
    40366, 63793, 33532, 33176, 10007, 25231, 13390, 4801, 65417, 62217])

/-- The state after 253 steps. -/
def runQ8 : Pt := ([54194, 60950, 5996, 65110, 17894, 9316, 60560, 39029, 37257, 41788, 28769, 288, 9981, 30681,
    21835, 13941, 30560, 7811, 22047, 57385, 46309, 6710, 1823, 36131, 43189, 51191, 1122, 4094, 3466, 59771,
    41075, 1045, 36025, 57222, 37546, 31089, 41105, 45921, 59602, 47538, 59751, 10160, 28387, 7257, 57589, 36385,
    15663, 7552, 63299, 43228], [28924, 61103, 8397, 35997, 59240, 37445, 35482, 6192, 30530, 45574, 45591, 2669,
    46743, 5588, 53073, 28550, 13250, 36205, 53613, 2859, 5101, 26146, 27476, 7659, 29506, 35815, 53519, 15026,
    48019, 43465, 30599, 22094, 9238, 36037, 30257, 21480, 22508, 42644, 4813, 11036, 49936, 11365, 3496, 64802,
    22922, 47532, 11582, 62138, 27408, 25241], [52298, 2327, 29341, 32504, 30158, 17484, 50392, 12442, 2407, 57415,
    57213, 35693, 60169, 63912, 22502, 59373, 13806, 62716, 3488, 33283, 18036, 58085, 48763, 38597, 3605, 10165,
    57344, 18494, 6178, 16708, 25869, 41013, 5802, 7362, 14822, 35834, 21097, 15905, 47191, 18468, 1078, 5605,
    63252, 26619, 4127, 63815, 57009, 61456, 29442, 9353], [40018, 57296, 4968, 4247, 51799, 19198, 6663, 48111,
    2945, 62220, 13462, 33905, 10869, 59817, 20019, 17790, 56058, 33926, 41672, 5149, 19144, 18854, 9338, 18009,
    63436, 58115, 11002, 34383, 12416, 31086, 12999, 49385, 24427, 46081, 52296, 52298, 17242, 38685, 39336, 22914,
    1886, 42382, 5996, 13367, 14977, 27713, 7313, 35713, 20420, 2397])

end Verif.EcRns
