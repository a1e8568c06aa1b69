import Verif.Lemmas.EcRnsXRun

/-!
# A run of `window_merge` on residue vectors of XYZZ coordinates: the states

253 steps with the generator of the configured curve, all bits of the scalar set.
-/

namespace Verif.EcRns

/-- The generator with `ZZ = ZZZ = 1`: the sum of every window, and the state before the first step. -/
def runXG : Pt := ([59887, 19430, 7227, 38868, 63792, 24545, 31706, 63466, 17580, 613, 49437, 18436, 47839, 37186,
    51925, 9444, 15476, 55942, 53356, 51616, 43524, 50896, 37238, 44992, 54902, 2705, 27345, 37836, 47702, 56363,
    16397, 24572, 61398, 15119, 31510, 9417, 52077, 23475, 37742, 7396, 16405, 55536, 18284, 31844, 31105, 9872,
    15213, 25307, 28818, 30413], [36518, 46305, 1678, 31631, 14127, 56460, 46137, 27906, 60568, 50737, 57982,
    52285, 23, 7375, 60956, 41576, 40652, 54214, 30083, 7061, 10296, 11880, 58425, 39373, 51724, 1094, 37909,
    22782, 6383, 53195, 29645, 4589, 39025, 405, 23845, 15429, 44131, 13926, 49257, 32270, 47570, 57884, 5751,
    27101, 20382, 19502, 558, 15764, 4637, 2744], [1, 1, 1, 1, 1, 1, 1, 1, 1, 1, 1, 1, 1, 1, 1, 1, 1, 1, 1, 1, 1,
    1, 1, 1, 1, 1, 1, 1, 1, 1, 1, 1, 1, 1, 1, 1, 1, 1, 1, 1, 1, 1, 1, 1, 1, 1, 1, 1, 1, 1], [1, 1, 1, 1, 1, 1, 1,
    1, 1, 1, 1, 1, 1, 1, 1, 1, 1, 1, 1, 1, 1, 1, 1, 1, 1, 1, 1, 1, 1, 1, 1, 1, 1, 1, 1, 1, 1, 1, 1, 1, 1, 1, 1, 1,
    1, 1, 1, 1, 1, 1])

/-- The state after 32 steps. -/
def runX1 : Pt := ([61522, 50416, 29224, 38852, 20105, 32864, 14225, 55993, 60658, 21261, 7616, 35369, 41348,
    59056, 23185, 27143, 2167, 25727, 4104, 50832, 18984, 36459, 7982, 11682, 196, 18781, 46185, 24509, 25647,
    24984, 46795, 1932, 15960, 41294, 59084, 50579, 53347, 53189, 36262, 25955, 25757, 3313, 33640, 48746, 12946,
    17174, 33088, 55114, 4981, 36837], [9259, 38390, 27545, 15390, 24137, 8587, 37605, 56364, 4205, 39650, 49505,
    42816, 15764, 4874, 21159, 57679, 15731, 12888, 41851, 64163, 62158, 35685, 21735, 29128, 3741, 9637, 32655,
    42294, 31270, 40192, 45324, 6227, 58929, 1715, 64778, 63737, 21579, 17629, 31652, 53698, 42664, 13104, 1778,
    45375, 15407, 6871, 59468, 56443, 19092, 63176], [58025, 6244, 23227, 23283, 48156, 59960, 18215, 27488, 1992,
    9795, 63408, 3666, 53874, 11279, 8909, 30049, 14764, 50121, 53976, 39245, 64398, 31310, 51277, 26451, 17515,
    38385, 34966, 15446, 16659, 32558, 16687, 50206, 24835, 45694, 35961, 31481, 25195, 54384, 27085, 20072, 35740,
    2589, 41212, 32975, 62461, 45634, 8216, 8235, 24722, 5905], [62621, 14234, 23652, 55914, 12870, 35149, 45767,
    56509, 27286, 40040, 6184, 18944, 9707, 59013, 26461, 40225, 27982, 52334, 22134, 53001, 46689, 28172, 60254,
    34676, 15680, 12076, 60044, 55255, 12016, 19906, 40943, 12892, 4732, 37240, 46951, 8948, 28898, 49056, 25490,
    11982, 63498, 42227, 18757, 53259, 3519, 42712, 25508, 27305, 24461, 59773])

/-- The state after 64 steps. -/
def runX2 : Pt := ([60831, 31515, 35817, 6435, 50328, 54224, 9548, 16464, 40173, 23680, 47827, 10837, 18632, 13795,
    862, 13338, 5368, 23712, 8845, 60508, 59827, 39123, 25494, 26508, 19788, 22345, 59017, 52910, 37177, 36820,
    32400, 4694, 27724, 46443, 27689, 25845, 40187, 26049, 20986, 9787, 247, 22159, 62760, 7581, 10679, 2521,
    47583, 62107, 35743, 30786], [43570, 27462, 5173, 35549, 8867, 17517, 59459, 10732, 16705, 5726, 12581, 14678,
    3381, 20922, 17974, 14662, 5465, 36646, 59396, 2674, 24260, 59983, 62468, 11594, 19904, 17657, 32836, 33729,
    16514, 1493, 29367, 44863, 64819, 35957, 39526, 62838, 20249, 2141, 42396, 51461, 48898, 11470, 10897, 33088,
    4459, 35994, 47437, 39198, 7748, 46192], [20334, 31913, 61467, 3457, 31936, 39963, 10574, 8670, 19409, 119,
    22895, 54874, 43528, 21222, 23971, 22105, 47925, 14194, 54886, 12994, 62862, 37195, 22175, 6038, 1505, 19935,
    22854, 34866, 37420, 49786, 55019, 14257, 11028, 31651, 23296, 44018, 793, 11150, 794, 35277, 29093, 18910,
    5571, 5108, 1244, 38459, 16500, 37744, 39603, 19511], [60086, 54375, 29601, 19217, 27023, 33179, 34797, 19093,
    33192, 65307, 45458, 40420, 46535, 16865, 4059, 64848, 35190, 37188, 35615, 35419, 38192, 58755, 35868, 16868,
    28914, 38382, 23769, 26147, 56519, 11145, 38209, 10402, 34133, 9313, 52976, 33662, 34813, 24356, 43745, 8940,
    60224, 16246, 54484, 9334, 65217, 32634, 58615, 54337, 5536, 56888])

/-- The state after 96 steps. -/
def runX3 : Pt := ([46814, 6882, 18722, 8234, 63165, 38593, 44805, 56180, 28583, 41688, 9361, 18739, 65358, 60990,
    11256, 19780, 11593, 64291, 5006, 65107, 16210, 4033, 2239, 24242, 40462, 45839, 13012, 1380, 63047, 38787,
    5758, 4959, 7460, 62318, 47043, 10414, 7619, 64968, 40436, 5167, 39795, 32274, 52212, 40645, 25863, 62637,
    37261, 26430, 7259, 26504], [19075, 58107, 51179, 33855, 10495, 26141, 15304, 14992, 45641, 36670, 4598, 21023,
    51032, 14133, 48706, 42995, 63909, 14964, 56443, 59709, 48359, 14999, 16668, 6031, 26665, 49189, 34921, 32093,
    13666, 57930, 7303, 43407, 25347, 60876, 5445, 58576, 41121, 23110, 12129, 53314, 53125, 12567, 19067, 3599,
    51810, 62424, 23120, 21589, 14569, 41055], [56310, 15954, 15913, 18357, 21879, 14078, 13792, 37602, 45028,
    8950, 59846, 58067, 25932, 109, 39902, 8510, 8995, 43483, 21484, 5535, 8438, 37280, 15884, 24754, 24813, 12525,
    59415, 24336, 24819, 43163, 52975, 40561, 35153, 47527, 13049, 28575, 45414, 5236, 24129, 63004, 17134, 2617,
    43559, 42850, 14644, 57172, 4183, 39245, 42323, 48686], [48071, 26346, 31924, 52988, 34718, 40968, 53129,
    58217, 30572, 43272, 60121, 50213, 14439, 35216, 5556, 11540, 50927, 38063, 55919, 37250, 62291, 49034, 62020,
    35642, 55476, 40787, 38822, 53699, 22824, 40528, 31205, 2792, 13975, 37135, 24943, 4875, 46631, 6630, 48443,
    6098, 21524, 52355, 61439, 55198, 62892, 61858, 22084, 29600, 43323, 47237])

/-- The state after 128 steps. -/
def runX4 : Pt := ([54689, 6928, 13198, 3396, 14119, 5099, 20960, 62366, 49669, 2169, 64461, 62915, 4930, 21933,
    17797, 21767, 56321, 25800, 58999, 17780, 31662, 56710, 40525, 20005, 22493, 15379, 51177, 12427, 2691, 41052,
    22593, 9393, 58148, 41445, 32443, 15764, 52700, 11946, 58146, 19608, 35290, 5392, 22081, 31748, 43615, 16555,
    40997, 23605, 44187, 10443], [4162, 62732, 6249, 38083, 57980, 22609, 38093, 7023, 26279, 44774, 6392, 1830,
    17588, 44627, 16828, 41160, 42098, 53077, 16289, 29959, 3576, 36649, 7632, 20395, 54618, 28408, 16312, 37372,
    38087, 13304, 53183, 23229, 39157, 43040, 54567, 26027, 40334, 50561, 62514, 32354, 61008, 36980, 62603, 16306,
    56816, 6265, 53538, 19994, 49506, 7274], [16838, 40499, 31418, 40331, 55245, 75, 19423, 53115, 39244, 37321,
    11509, 3933, 61111, 64347, 39489, 46609, 64022, 41712, 7863, 43376, 34583, 45158, 60841, 59421, 30159, 14041,
    63467, 53232, 26820, 60448, 30188, 55974, 35001, 21323, 38638, 48825, 17992, 40015, 50070, 8025, 62965, 40744,
    23763, 21417, 55501, 63133, 49328, 50612, 35298, 12046], [24844, 56861, 53525, 46203, 22448, 51213, 49673,
    26086, 32994, 64829, 16016, 56021, 17842, 21879, 44593, 45662, 25663, 41234, 17622, 49563, 25034, 19611, 2669,
    31363, 43337, 31317, 38526, 50555, 34149, 48656, 37725, 2241, 52021, 55432, 62390, 43522, 63613, 1765, 58485,
    60888, 27019, 58293, 58067, 41403, 58933, 20270, 7438, 43998, 24681, 58455])

/-- The state after 160 steps. -/
def runX5 : Pt := ([28021, 58581, 1267, 24382, 24467, 63390, 24532, 9845, 49657, 37075, 2433, 32026, 41983, 42146,
    46294, 55000, 3094, 45570, 57998, 22686, 530, 38430, 20555, 17968, 31846, 8059, 11823, 41717, 12654, 16037,
    8329, 7508, 30114, 22509, 8976, 43388, 6473, 46191, 35271, 11916, 57934, 57817, 9692, 34920, 52776, 60467,
    5356, 38439, 43480, 3215], [2814, 231, 933, 41542, 44759, 9806, 6304, 10293, 63733, 20264, 24359, 14605, 34688,
    63506, 42299, 5446, 50020, 51620, 15891, 17735, 17398, 3326, 31768, 29734, 49986, 14471, 30018, 11036, 63188,
    61268, 41031, 24198, 7069, 36046, 14830, 35196, 46028, 40364, 23486, 58625, 13887, 32600, 55925, 33581, 23484,
    13734, 46519, 28246, 33398, 56683], [64, 35639, 31387, 43722, 3293, 15175, 7764, 61928, 56302, 20871, 21491,
    52434, 59305, 50297, 57751, 35465, 32117, 1152, 28646, 49092, 15167, 24337, 27734, 1931, 28451, 39548, 19122,
    28067, 35068, 28749, 17162, 46327, 64993, 29553, 29783, 14225, 62956, 26400, 62288, 48552, 44859, 36868, 7602,
    49452, 60655, 60105, 53003, 65000, 16686, 11941], [16662, 8367, 5637, 11605, 62299, 42804, 53658, 10241, 21975,
    59110, 37857, 12914, 36358, 28548, 34950, 32496, 15625, 54391, 47357, 57774, 5096, 62296, 2120, 8931, 56784,
    17501, 63208, 51093, 48771, 52324, 46756, 41152, 6115, 2794, 2327, 11898, 46487, 8863, 37572, 647, 59216,
    10338, 21845, 35606, 52972, 39785, 57922, 12530, 60783, 13593])

/-- The state after 192 steps. -/
def runX6 : Pt := ([14428, 20998, 26651, 50744, 48030, 61619, 32122, 7927, 21202, 28945, 11418, 6094, 40092, 61658,
    44758, 11919, 55349, 10046, 36076, 47153, 54212, 10996, 9655, 33208, 54945, 39095, 64767, 21243, 62565, 59192,
    33793, 57818, 35251, 44830, 39577, 16413, 59059, 58374, 24828, 36630, 23779, 37060, 60739, 34591, 65001, 64543,
    53671, 51810, 59445, 3753], [46860, 49052, 6295, 10028, 43639, 53062, 59469, 52796, 50296, 14722, 65110, 19784,
    6584, 47868, 8836, 17225, 1166, 30208, 20724, 51153, 43224, 20413, 49541, 6758, 14097, 47577, 39356, 59335,
    15512, 45645, 27495, 62363, 65426, 1159, 4978, 27643, 64970, 37674, 5821, 50612, 60710, 30802, 15368, 51733,
    62197, 10604, 35316, 11393, 63060, 6259], [46585, 10711, 9506, 26461, 52707, 8198, 23298, 22104, 2950, 10285,
    21861, 42417, 52700, 63657, 21026, 35827, 20513, 43490, 51308, 31100, 62410, 12929, 19211, 23578, 27345, 42926,
    13212, 22671, 30414, 22250, 1666, 50400, 28997, 59969, 19718, 34131, 5952, 753, 52982, 36022, 55197, 27422,
    49699, 16096, 44970, 2795, 2167, 58455, 55244, 9605], [56361, 61897, 3261, 52804, 4029, 3229, 39362, 30588,
    11201, 7066, 19616, 7126, 55059, 60656, 18850, 10566, 8417, 1198, 27540, 17315, 51095, 4467, 27700, 28619,
    37464, 18286, 12090, 18393, 869, 44671, 18418, 14321, 9310, 3594, 52086, 43569, 27069, 65325, 30914, 47772,
    9204, 49924, 47386, 4307, 43223, 16443, 36589, 21417, 20458, 20701])

/-- The state after 224 steps. -/
def runX7 : Pt := ([14490, 40566, 36584, 23394, 55171, 55361, 4310, 64788, 536, 45762, 21033, 9340, 38767, 53799,
    37366, 43040, 64939, 27158, 16666, 51119, 52543, 35093, 38836, 29153, 56657, 24145, 31168, 51046, 4517, 55543,
    24407, 44203, 15948, 43890, 44254, 64364, 4000, 54994, 58078, 63609, 14752, 50792, 36112, 6339, 34541, 65080,
    62914, 63722, 21529, 46487], [51094, 23563, 12523, 43198, 51859, 22875, 10638, 3631, 22478, 43073, 48270,
    26688, 14475, 28362, 53188, 10638, 48357, 63430, 44311, 60863, 54334, 62264, 64776, 19174, 25260, 33490, 10888,
    31577, 51248, 52666, 36111, 57704, 1502, 35075, 65192, 28629, 30539, 25753, 50946, 57292, 43259, 13444, 51006,
    12816, 36485, 48057, 31209, 39051, 50841, 43587], [45795, 39875, 30511, 46222, 43209, 42782, 2548, 9970, 5559,
    9174, 18842, 8668, 51439, 32109, 37858, 24076, 4257, 26502, 45925, 9632, 20032, 20422, 6823, 27487, 13967,
    38153, 65296, 34426, 24394, 32715, 16798, 43084, 52468, 46960, 22632, 18600, 64014, 42773, 14391, 36751, 55721,
    46571, 51604, 2359, 48919, 1194, 3153, 5362, 50826, 13086], [55328, 61344, 47475, 52353, 37288, 37204, 40953,
    22408, 27176, 48886, 58269, 34885, 2677, 36509, 64091, 43325, 24414, 31542, 30725, 42316, 38436, 3821, 36824,
    45137, 19379, 65128, 33788, 34879, 15697, 14288, 29199, 42706, 19579, 45980, 23496, 9456, 7722, 8939, 48968,
    41373, 2469, 17748, 5343, 950, 61383, 50571, 22159, 23628, 50878, 30465])

/-- The state after 253 steps. -/
def runX8 : Pt := ([1369, 12807, 38400, 56603, 62172, 16491, 58019, 42825, 37135, 7389, 47838, 18440, 45166, 12460,
    7123, 28197, 50700, 50042, 8370, 55195, 39861, 9425, 8849, 1685, 19262, 19556, 56308, 23639, 15992, 26555,
    13885, 6251, 28269, 51291, 31361, 12060, 56258, 52515, 10950, 33319, 47170, 29836, 45739, 441, 28818, 15885,
    63963, 61867, 23079, 13499], [49843, 33379, 4282, 19322, 9400, 61846, 52912, 21351, 52524, 13456, 42407, 56308,
    6913, 20836, 24282, 32264, 61779, 53162, 61763, 54072, 52357, 19441, 63201, 44768, 40973, 64423, 2465, 40338,
    4385, 3289, 45457, 7092, 53531, 31241, 64034, 61043, 37873, 64977, 36688, 7891, 22814, 44446, 53845, 1263,
    61057, 12609, 57483, 37853, 25121, 56950], [65018, 30178, 41467, 46629, 58768, 27810, 65054, 12846, 35896,
    4176, 19938, 40341, 24253, 23871, 25024, 8425, 26260, 34925, 58085, 10789, 36981, 50542, 9694, 51346, 49652,
    36738, 45534, 31243, 39171, 50464, 10719, 53916, 8580, 27215, 27753, 55880, 29963, 32960, 6573, 37054, 7130,
    21149, 15729, 1343, 24656, 56691, 36017, 41832, 39238, 60766], [36276, 54493, 35650, 55184, 12312, 41917,
    44052, 22785, 1984, 21223, 15633, 18628, 55038, 1663, 43220, 14714, 56697, 14186, 21869, 4134, 56507, 1059,
    34954, 8378, 7511, 41244, 62047, 64192, 42313, 7077, 12678, 49679, 22031, 35876, 49518, 52388, 34230, 48639,
    23814, 63906, 18016, 52945, 42571, 38099, 23427, 22805, 15242, 9292, 4065, 58644])

end Verif.EcRns
