import Verif.Lemmas.EcRnsAdd
import Verif.Lemmas.EcRnsWitness

/-!
# Two computations with the XYZZ addition of residue vectors

The generator and its double up to the operands of the last product, and the point `(0, 1)` plus the generator.
-/

namespace Verif.EcRns

open Verif.EcChunks

def gX1 : List Nat := [59887, 19430, 7227, 38868, 63792, 24545, 31706, 63466, 17580, 613, 49437, 18436, 47839, 37186,
    51925, 9444, 15476, 55942, 53356, 51616, 43524, 50896, 37238, 44992, 54902, 2705, 27345, 37836, 47702, 56363,
    16397, 24572, 61398, 15119, 31510, 9417, 52077, 23475, 37742, 7396, 16405, 55536, 18284, 31844, 31105, 9872,
    15213, 25307, 28818, 30413]
def gY1 : List Nat := [36518, 46305, 1678, 31631, 14127, 56460, 46137, 27906, 60568, 50737, 57982, 52285, 23, 7375,
    60956, 41576, 40652, 54214, 30083, 7061, 10296, 11880, 58425, 39373, 51724, 1094, 37909, 22782, 6383, 53195,
    29645, 4589, 39025, 405, 23845, 15429, 44131, 13926, 49257, 32270, 47570, 57884, 5751, 27101, 20382, 19502, 558,
    15764, 4637, 2744]
def gZ1 : List Nat := [1, 1, 1, 1, 1, 1, 1, 1, 1, 1, 1, 1, 1, 1, 1, 1, 1, 1, 1, 1, 1, 1, 1, 1, 1, 1, 1, 1, 1, 1, 1, 1,
    1, 1, 1, 1, 1, 1, 1, 1, 1, 1, 1, 1, 1, 1, 1, 1, 1, 1]
def gW1 : List Nat := [1, 1, 1, 1, 1, 1, 1, 1, 1, 1, 1, 1, 1, 1, 1, 1, 1, 1, 1, 1, 1, 1, 1, 1, 1, 1, 1, 1, 1, 1, 1, 1,
    1, 1, 1, 1, 1, 1, 1, 1, 1, 1, 1, 1, 1, 1, 1, 1, 1, 1]
def gX2 : List Nat := [25488, 61154, 24364, 55846, 45702, 29983, 54744, 1230, 19327, 46383, 58287, 32261, 6706, 769,
    19761, 6696, 45327, 13517, 29573, 17351, 20018, 38028, 51965, 45274, 44654, 24339, 26578, 57602, 8398, 63204,
    5333, 61530, 52830, 24985, 14363, 51163, 40702, 28143, 41771, 58498, 19747, 49750, 2232, 31179, 24918, 13833,
    2103, 21529, 1027, 24232]
def gY2 : List Nat := [51181, 53025, 30278, 59300, 65091, 11032, 21393, 22490, 56561, 22068, 12442, 31526, 17068,
    2280, 41732, 62293, 1811, 46196, 63485, 1825, 24656, 57662, 53636, 40933, 8807, 2583, 54348, 13378, 41608, 7613,
    44853, 56530, 46783, 20790, 2594, 2554, 27045, 34410, 64409, 6510, 57345, 3594, 10781, 11655, 10680, 20036, 27826,
    23492, 2381, 28586]
def gZ2 : List Nat := [1, 1, 1, 1, 1, 1, 1, 1, 1, 1, 1, 1, 1, 1, 1, 1, 1, 1, 1, 1, 1, 1, 1, 1, 1, 1, 1, 1, 1, 1, 1, 1,
    1, 1, 1, 1, 1, 1, 1, 1, 1, 1, 1, 1, 1, 1, 1, 1, 1, 1]
def gW2 : List Nat := [1, 1, 1, 1, 1, 1, 1, 1, 1, 1, 1, 1, 1, 1, 1, 1, 1, 1, 1, 1, 1, 1, 1, 1, 1, 1, 1, 1, 1, 1, 1, 1,
    1, 1, 1, 1, 1, 1, 1, 1, 1, 1, 1, 1, 1, 1, 1, 1, 1, 1]
def gU1 : List Nat := [2597, 10837, 42370, 32522, 24767, 1485, 606, 46911, 48456, 50749, 48275, 46091, 17778, 16294,
    45728, 7313, 19958, 65113, 62900, 23644, 59792, 46970, 7865, 60762, 61663, 21943, 20098, 35157, 45250, 11216,
    5262, 62224, 54980, 16339, 1170, 42170, 17878, 26058, 7997, 13778, 25568, 13861, 35148, 22101, 53281, 61688,
    59651, 46440, 64726, 46544]
theorem gU1_eq : modMul (exactMatrix P) gX1 gZ2 = gU1 := fastStep (by decide +kernel)
def gS1 : List Nat := [43441, 8771, 19222, 3384, 59851, 18745, 10794, 42424, 42006, 57245, 25762, 60326, 12416, 32634,
    21794, 42732, 42637, 4078, 12432, 16459, 47835, 30020, 27712, 63163, 15924, 15247, 11899, 42678, 64812, 47643,
    65296, 57172, 239, 63226, 27437, 17251, 42757, 13932, 29884, 16228, 35808, 10758, 11288, 41801, 10204, 45161,
    35311, 22036, 39838, 42136]
theorem gS1_eq : modMul (exactMatrix P) gY1 gW2 = gS1 := fastStep (by decide +kernel)
def gU2 : List Nat := [32552, 53602, 6039, 26664, 2751, 30379, 23716, 38432, 17768, 44471, 54623, 57985, 55406, 26306,
    61314, 41196, 54405, 27580, 58445, 36713, 27845, 38092, 4337, 45219, 21399, 53714, 51642, 50185, 6678, 31346,
    42371, 37828, 18531, 45826, 40415, 1472, 45754, 55974, 44692, 41884, 62183, 48062, 49686, 48695, 55089, 16666,
    58217, 1861, 23322, 35187]
theorem gU2_eq : modMul (exactMatrix P) gZ1 gX2 = gU2 := fastStep (by decide +kernel)
def gS2 : List Nat := [57949, 50391, 12424, 14420, 2419, 5772, 31956, 63178, 21166, 10890, 7819, 28953, 57350, 15624,
    53145, 26330, 15030, 51739, 6294, 22080, 37786, 40461, 26672, 8360, 22304, 13916, 21346, 9974, 30780, 52305,
    46066, 54842, 747, 31507, 35250, 12356, 8878, 63590, 24234, 44363, 47129, 30147, 24376, 15827, 48338, 4841, 38865,
    21618, 4440, 37304]
theorem gS2_eq : modMul (exactMatrix P) gW1 gY2 = gS2 := fastStep (by decide +kernel)
def gP : List Nat := [1283, 63025, 46920, 60115, 42248, 44726, 1241, 39077, 45301, 44780, 65526, 6096, 20943, 62378,
    62272, 2911, 6385, 46178, 35533, 8305, 6014, 16054, 64490, 52182, 40554, 57458, 25455, 35089, 4531, 63648, 50517,
    24383, 16190, 45493, 62674, 33631, 15073, 57556, 49378, 24467, 45202, 52098, 16307, 35909, 9912, 48772, 22257,
    27384, 42569, 12915]
theorem gP_eq : addSubVals gU2 [negate gU1] = gP := by decide +kernel
def gR : List Nat := [51372, 61880, 10920, 11478, 6832, 2859, 64812, 2801, 55149, 4703, 41235, 28318, 28249, 35356,
    12564, 18085, 9780, 478, 33850, 857, 27912, 35373, 1565, 12922, 21791, 24356, 3358, 52738, 9071, 48180, 59541,
    46449, 53147, 49634, 31242, 4107, 18641, 11977, 7033, 24496, 19908, 37286, 14857, 48839, 46238, 53474, 27245,
    6111, 48575, 19440]
theorem gR_eq : addSubVals gS2 [negate gS1] = gR := by decide +kernel
def gPP : List Nat := [39526, 29190, 64061, 24331, 18070, 65171, 12815, 4960, 25619, 14442, 21361, 54798, 35100,
    50031, 7888, 33182, 37780, 17617, 58100, 55656, 28626, 36423, 63264, 141, 25146, 8963, 27374, 4217, 36594, 48043,
    24145, 46219, 27450, 23457, 56308, 32246, 49569, 35484, 36684, 13108, 59339, 62390, 10528, 7663, 30098, 42968,
    7850, 63765, 47566, 41829]
theorem gPP_eq : modMul (exactMatrix P) gP gP = gPP := fastStep (by decide +kernel)
def gRR : List Nat := [17776, 43060, 47352, 63325, 47507, 65052, 54234, 48844, 37031, 37259, 15952, 11355, 51698,
    13521, 56281, 15023, 34665, 3035, 29332, 13755, 5769, 13131, 18232, 43312, 42091, 15973, 907, 32278, 17948, 32437,
    11360, 3778, 19060, 18379, 55965, 33126, 23947, 34359, 62659, 56580, 21942, 57271, 28267, 43553, 48386, 53083,
    1977, 3021, 30259, 6364]
theorem gRR_eq : modMul (exactMatrix P) gR gR = gRR := fastStep (by decide +kernel)
def gPPP : List Nat := [42278, 61920, 14850, 5077, 59494, 55930, 22990, 57778, 53854, 32426, 17962, 24265, 51680,
    2250, 3333, 34588, 63942, 46266, 9240, 17755, 7732, 2972, 64056, 33078, 48836, 12461, 41997, 37458, 41588, 40733,
    40857, 11625, 56155, 23392, 950, 58132, 17323, 9378, 42958, 23135, 57491, 30432, 43928, 37524, 7193, 59446, 10773,
    8851, 59742, 36294]
theorem gPPP_eq : modMul (exactMatrix P) gP gPP = gPPP := fastStep (by decide +kernel)
def gQ : List Nat := [63022, 16808, 21362, 17869, 3823, 34787, 10883, 3647, 1839, 14143, 44477, 51752, 5462, 3721,
    25219, 36515, 29725, 40828, 1018, 1876, 48738, 35341, 12094, 50068, 61462, 25607, 59085, 31058, 10618, 8691,
    54117, 27353, 42946, 19074, 60853, 8969, 36371, 43596, 9538, 30744, 38386, 62486, 13616, 25054, 18932, 34332,
    40183, 43468, 62252, 60354]
theorem gQ_eq : modMul (exactMatrix P) gU1 gPP = gQ := fastStep (by decide +kernel)
def gX3 : List Nat := [25582, 8304, 42932, 23836, 42105, 52565, 9390, 60931, 10957, 64224, 21079, 62659, 4518, 29973,
    11622, 10866, 23434, 60799, 7146, 43387, 14444, 14273, 3216, 47862, 47378, 29359, 18622, 58268, 19062, 39507,
    33219, 18427, 34930, 4857, 3596, 49389, 26119, 20709, 38674, 26349, 44026, 20845, 27936, 49364, 27641, 9909,
    47349, 57689, 32506, 53006]
theorem gX3_eq : addSubVals gRR [negate gPPP, negate gQ, negate gQ] = gX3 := by decide +kernel
def gQX : List Nat := [8768, 28764, 61681, 60006, 25982, 63575, 45143, 55781, 1368, 977, 17085, 48784, 49738, 26114,
    60283, 60136, 43678, 63740, 33860, 19156, 6832, 46000, 11483, 4520, 29495, 21935, 34374, 58232, 34659, 12702,
    34306, 57705, 60655, 30223, 15347, 33909, 62772, 50527, 48858, 756, 2947, 59538, 52971, 50503, 64881, 52735,
    16525, 57742, 48293, 31620]
theorem gQX_eq : addSubVals gQ [negate gX3] = gQX := by decide +kernel

theorem glast : lastFactors (exactMatrix P) (gX1, gY1, gZ1, gW1) (gX2, gY2, gZ2, gW2) = (gR, gQX) := by
  unfold lastFactors
  dsimp only
  rw [gU1_eq, gS1_eq, gU2_eq, gS2_eq, gP_eq, gR_eq, gPP_eq, gRR_eq, gPPP_eq, gQ_eq, gX3_eq, gQX_eq]

def bX1 : List Nat := [0, 0, 0, 0, 0, 0, 0, 0, 0, 0, 0, 0, 0, 0, 0, 0, 0, 0, 0, 0, 0, 0, 0, 0, 0, 0, 0, 0, 0, 0, 0, 0,
    0, 0, 0, 0, 0, 0, 0, 0, 0, 0, 0, 0, 0, 0, 0, 0, 0, 0]
def bY1 : List Nat := [1, 1, 1, 1, 1, 1, 1, 1, 1, 1, 1, 1, 1, 1, 1, 1, 1, 1, 1, 1, 1, 1, 1, 1, 1, 1, 1, 1, 1, 1, 1, 1,
    1, 1, 1, 1, 1, 1, 1, 1, 1, 1, 1, 1, 1, 1, 1, 1, 1, 1]
def bZ1 : List Nat := [1, 1, 1, 1, 1, 1, 1, 1, 1, 1, 1, 1, 1, 1, 1, 1, 1, 1, 1, 1, 1, 1, 1, 1, 1, 1, 1, 1, 1, 1, 1, 1,
    1, 1, 1, 1, 1, 1, 1, 1, 1, 1, 1, 1, 1, 1, 1, 1, 1, 1]
def bW1 : List Nat := [1, 1, 1, 1, 1, 1, 1, 1, 1, 1, 1, 1, 1, 1, 1, 1, 1, 1, 1, 1, 1, 1, 1, 1, 1, 1, 1, 1, 1, 1, 1, 1,
    1, 1, 1, 1, 1, 1, 1, 1, 1, 1, 1, 1, 1, 1, 1, 1, 1, 1]
def bX2 : List Nat := [59887, 19430, 7227, 38868, 63792, 24545, 31706, 63466, 17580, 613, 49437, 18436, 47839, 37186,
    51925, 9444, 15476, 55942, 53356, 51616, 43524, 50896, 37238, 44992, 54902, 2705, 27345, 37836, 47702, 56363,
    16397, 24572, 61398, 15119, 31510, 9417, 52077, 23475, 37742, 7396, 16405, 55536, 18284, 31844, 31105, 9872,
    15213, 25307, 28818, 30413]
def bY2 : List Nat := [36518, 46305, 1678, 31631, 14127, 56460, 46137, 27906, 60568, 50737, 57982, 52285, 23, 7375,
    60956, 41576, 40652, 54214, 30083, 7061, 10296, 11880, 58425, 39373, 51724, 1094, 37909, 22782, 6383, 53195,
    29645, 4589, 39025, 405, 23845, 15429, 44131, 13926, 49257, 32270, 47570, 57884, 5751, 27101, 20382, 19502, 558,
    15764, 4637, 2744]
def bZ2 : List Nat := [1, 1, 1, 1, 1, 1, 1, 1, 1, 1, 1, 1, 1, 1, 1, 1, 1, 1, 1, 1, 1, 1, 1, 1, 1, 1, 1, 1, 1, 1, 1, 1,
    1, 1, 1, 1, 1, 1, 1, 1, 1, 1, 1, 1, 1, 1, 1, 1, 1, 1]
def bW2 : List Nat := [1, 1, 1, 1, 1, 1, 1, 1, 1, 1, 1, 1, 1, 1, 1, 1, 1, 1, 1, 1, 1, 1, 1, 1, 1, 1, 1, 1, 1, 1, 1, 1,
    1, 1, 1, 1, 1, 1, 1, 1, 1, 1, 1, 1, 1, 1, 1, 1, 1, 1]
def bU1 : List Nat := [0, 0, 0, 0, 0, 0, 0, 0, 0, 0, 0, 0, 0, 0, 0, 0, 0, 0, 0, 0, 0, 0, 0, 0, 0, 0, 0, 0, 0, 0, 0, 0,
    0, 0, 0, 0, 0, 0, 0, 0, 0, 0, 0, 0, 0, 0, 0, 0, 0, 0]
theorem bU1_eq : modMul (exactMatrix P) bX1 bZ2 = bU1 := fastStep (by decide +kernel)
def bS1 : List Nat := [31, 48211, 21650, 9562, 10412, 35991, 60862, 7615, 37067, 37229, 20011, 31631, 49521, 52999,
    36677, 64198, 16828, 61005, 22430, 2121, 13167, 49047, 56248, 13020, 26328, 57502, 45646, 15056, 34493, 51428,
    61487, 46346, 24594, 52245, 57607, 27959, 22216, 36497, 6134, 44345, 1808, 15225, 555, 30562, 63622, 19526, 369,
    54347, 61289, 23874]
theorem bS1_eq : modMul (exactMatrix P) bY1 bW2 = bS1 := fastStep (by decide +kernel)
def bZZ : List Nat := [31, 48211, 21650, 9562, 10412, 35991, 60862, 7615, 37067, 37229, 20011, 31631, 49521, 52999,
    36677, 64198, 16828, 61005, 22430, 2121, 13167, 49047, 56248, 13020, 26328, 57502, 45646, 15056, 34493, 51428,
    61487, 46346, 24594, 52245, 57607, 27959, 22216, 36497, 6134, 44345, 1808, 15225, 555, 30562, 63622, 19526, 369,
    54347, 61289, 23874]
theorem bZZ_eq : modMul (exactMatrix P) bZ1 bZ2 = bZZ := fastStep (by decide +kernel)
def bZZZ : List Nat := [31, 48211, 21650, 9562, 10412, 35991, 60862, 7615, 37067, 37229, 20011, 31631, 49521, 52999,
    36677, 64198, 16828, 61005, 22430, 2121, 13167, 49047, 56248, 13020, 26328, 57502, 45646, 15056, 34493, 51428,
    61487, 46346, 24594, 52245, 57607, 27959, 22216, 36497, 6134, 44345, 1808, 15225, 555, 30562, 63622, 19526, 369,
    54347, 61289, 23874]
theorem bZZZ_eq : modMul (exactMatrix P) bW1 bW2 = bZZZ := fastStep (by decide +kernel)
def bU2 : List Nat := [2597, 10837, 42370, 32522, 24767, 1485, 606, 46911, 48456, 50749, 48275, 46091, 17778, 16294,
    45728, 7313, 19958, 65113, 62900, 23644, 59792, 46970, 7865, 60762, 61663, 21943, 20098, 35157, 45250, 11216,
    5262, 62224, 54980, 16339, 1170, 42170, 17878, 26058, 7997, 13778, 25568, 13861, 35148, 22101, 53281, 61688,
    59651, 46440, 64726, 46544]
theorem bU2_eq : modMul (exactMatrix P) bZ1 bX2 = bU2 := fastStep (by decide +kernel)
def bS2 : List Nat := [43441, 8771, 19222, 3384, 59851, 18745, 10794, 42424, 42006, 57245, 25762, 60326, 12416, 32634,
    21794, 42732, 42637, 4078, 12432, 16459, 47835, 30020, 27712, 63163, 15924, 15247, 11899, 42678, 64812, 47643,
    65296, 57172, 239, 63226, 27437, 17251, 42757, 13932, 29884, 16228, 35808, 10758, 11288, 41801, 10204, 45161,
    35311, 22036, 39838, 42136]
theorem bS2_eq : modMul (exactMatrix P) bW1 bY2 = bS2 := fastStep (by decide +kernel)
def bP : List Nat := [39461, 31096, 60085, 32959, 23495, 17302, 44239, 28931, 58909, 36271, 41917, 40246, 1036, 3124,
    26878, 41723, 57258, 17841, 37352, 18775, 32217, 6366, 10347, 62951, 11538, 47487, 13856, 55063, 22817, 54567,
    18497, 45467, 42083, 32156, 24402, 50963, 4862, 53483, 20455, 9912, 33912, 31509, 36903, 31378, 61335, 24464,
    17806, 52867, 17737, 5280]
theorem bP_eq : addSubVals bU2 [negate bU1] = bP := by decide +kernel
def bR : List Nat := [14738, 46355, 15290, 59795, 48176, 64107, 59101, 16856, 15425, 5577, 64929, 22897, 11689, 32001,
    31803, 13021, 63196, 26784, 29990, 9574, 7206, 5905, 39482, 52457, 5007, 48825, 25547, 47683, 8051, 39733, 17217,
    59605, 28284, 26987, 58598, 63621, 7738, 5075, 36433, 33553, 42587, 13430, 12502, 20554, 20172, 53947, 58633,
    39652, 62522, 42534]
theorem bR_eq : addSubVals bS2 [negate bS1] = bR := by decide +kernel
def bPP : List Nat := [37577, 36934, 3705, 63429, 61386, 53587, 20557, 21932, 50504, 1230, 27031, 6519, 54532, 13967,
    52770, 27140, 21238, 38617, 20766, 13667, 52997, 38620, 34593, 20069, 42787, 10859, 9309, 21432, 30546, 64476,
    49183, 50750, 39852, 16457, 46420, 28988, 22716, 15046, 14177, 723, 57084, 44001, 51428, 26132, 11011, 17052,
    27503, 2470, 37516, 3982]
theorem bPP_eq : modMul (exactMatrix P) bP bP = bPP := fastStep (by decide +kernel)
def bRR : List Nat := [20588, 20077, 7734, 10908, 50091, 24654, 58641, 3194, 45504, 28190, 2622, 29284, 12446, 16817,
    23494, 30908, 41294, 14362, 12939, 14633, 57090, 15932, 14469, 2102, 6547, 24014, 59076, 57943, 58698, 23428,
    33003, 2835, 38172, 22283, 11466, 42915, 4087, 61872, 35689, 31763, 55311, 55323, 45870, 11614, 743, 44697, 64060,
    43958, 25423, 28908]
theorem bRR_eq : modMul (exactMatrix P) bR bR = bRR := fastStep (by decide +kernel)
def bPPP : List Nat := [6367, 6432, 23344, 64099, 16691, 46319, 17625, 65129, 8806, 34035, 40678, 43343, 26026, 57121,
    3738, 30738, 30325, 27163, 30253, 46309, 11029, 8101, 22565, 2865, 58568, 44531, 1431, 63529, 8236, 60443, 53941,
    40754, 46969, 38475, 47421, 13015, 49884, 60809, 29290, 12300, 3873, 33129, 11041, 31800, 35960, 4669, 26970,
    25011, 41134, 13792]
theorem bPPP_eq : modMul (exactMatrix P) bP bPP = bPPP := fastStep (by decide +kernel)
def bQ : List Nat := [0, 0, 0, 0, 0, 0, 0, 0, 0, 0, 0, 0, 0, 0, 0, 0, 0, 0, 0, 0, 0, 0, 0, 0, 0, 0, 0, 0, 0, 0, 0, 0,
    0, 0, 0, 0, 0, 0, 0, 0, 0, 0, 0, 0, 0, 0, 0, 0, 0, 0]
theorem bQ_eq : modMul (exactMatrix P) bU1 bPP = bQ := fastStep (by decide +kernel)
def bZZ3 : List Nat := [37869, 3743, 48405, 64746, 62245, 32604, 49474, 4329, 9528, 40464, 25322, 8769, 34521, 32189,
    8182, 49768, 41033, 34640, 34039, 56112, 41577, 40623, 19512, 20326, 33048, 60470, 61289, 58999, 30697, 50796,
    28877, 771, 13455, 37041, 45203, 22384, 42973, 39314, 39039, 36130, 13732, 31140, 15323, 41951, 14687, 21563,
    15816, 12328, 53942, 64089]
theorem bZZ3_eq : modMul (exactMatrix P) bZZ bPP = bZZ3 := fastStep (by decide +kernel)
def bX3 : List Nat := [59277, 8888, 37538, 13656, 29593, 25801, 40894, 15170, 2587, 16257, 8406, 33942, 1730, 51199,
    28742, 38018, 57507, 41813, 37015, 19253, 28872, 16974, 64886, 5929, 59361, 56258, 39072, 54287, 48699, 27836,
    18940, 42703, 18048, 31448, 33938, 56488, 46014, 18232, 43998, 8092, 11420, 10100, 40108, 7683, 54481, 59374,
    42529, 38330, 39710, 22274]
theorem bX3_eq : addSubVals bRR [negate bPPP, negate bQ, negate bQ] = bX3 := by decide +kernel
def bQX : List Nat := [43123, 11372, 45713, 52317, 34671, 55552, 2756, 32386, 7899, 34801, 50772, 25749, 47064, 1167,
    17944, 61928, 45329, 41898, 2973, 41414, 9089, 7958, 3132, 61796, 21457, 34822, 20222, 31155, 59775, 15682, 59831,
    6076, 34591, 49905, 54830, 17841, 6506, 9408, 33996, 53578, 62460, 7797, 27183, 1632, 19109, 34420, 46600, 33633,
    44263, 1998]
theorem bQX_eq : addSubVals bQ [negate bX3] = bQX := by decide +kernel
def bSP : List Nat := [5345, 24298, 63493, 26724, 46448, 21478, 14694, 28476, 21216, 27710, 13914, 35468, 63325,
    58821, 28850, 16999, 59216, 8359, 16516, 61329, 50999, 33800, 42642, 34671, 59951, 34375, 15650, 30116, 40393,
    42954, 59649, 52288, 41329, 31778, 19011, 36129, 11646, 41192, 7584, 51648, 25019, 45499, 55506, 25557, 55837,
    5251, 51515, 23225, 49069, 48720]
theorem bSP_eq : modMul (exactMatrix P) bS1 bPPP = bSP := fastStep (by decide +kernel)
def bZZZ3 : List Nat := [5345, 24298, 63493, 26724, 46448, 21478, 14694, 28476, 21216, 27710, 13914, 35468, 63325,
    58821, 28850, 16999, 59216, 8359, 16516, 61329, 50999, 33800, 42642, 34671, 59951, 34375, 15650, 30116, 40393,
    42954, 59649, 52288, 41329, 31778, 19011, 36129, 11646, 41192, 7584, 51648, 25019, 45499, 55506, 25557, 55837,
    5251, 51515, 23225, 49069, 48720]
theorem bZZZ3_eq : modMul (exactMatrix P) bZZZ bPPP = bZZZ3 := fastStep (by decide +kernel)
def bRQ : List Nat := [65493, 53100, 48307, 29986, 44411, 7664, 47190, 16424, 24243, 8252, 51273, 62743, 14268, 14880,
    57451, 19020, 59519, 4188, 52104, 31286, 49156, 23054, 55598, 13084, 38709, 338, 20792, 16017, 55233, 47364, 6941,
    54222, 34069, 42957, 46411, 3226, 3209, 53996, 16021, 35009, 10082, 58021, 37237, 15721, 33077, 64247, 46378,
    8964, 42082, 28699]
theorem bRQ_eq : modMul (exactMatrix P) bR bQX = bRQ := fastStep (by decide +kernel)
def bY3 : List Nat := [31476, 49062, 2532, 3704, 62227, 2018, 10627, 35504, 13513, 31600, 31046, 21477, 65216, 8425,
    9814, 36508, 37690, 14093, 10139, 30624, 36118, 14186, 15561, 46138, 59576, 57043, 64436, 5962, 57943, 47928,
    26063, 50713, 45379, 27185, 50829, 41426, 44083, 40444, 21120, 45031, 58943, 30419, 49022, 64977, 50830, 21826,
    18554, 57702, 11560, 4251]
theorem bY3_eq : addSubVals bRQ [negate bSP] = bY3 := by decide +kernel

theorem badd : paddXyzz (exactMatrix P) (bX1, bY1, bZ1, bW1) (bX2, bY2, bZ2, bW2) =
    (bX3, bY3, bZZ3, bZZZ3) := by
  unfold paddXyzz
  dsimp only
  rw [bU1_eq, bS1_eq, bZZ_eq, bZZZ_eq, bU2_eq, bS2_eq, bP_eq, bR_eq, bPP_eq, bRR_eq, bPPP_eq, bQ_eq, bZZ3_eq, bX3_eq,
    bQX_eq, bSP_eq, bZZZ3_eq, bRQ_eq, bY3_eq]

/-- The product of the last factors in the first computation. -/
def gL : List Nat := mulUnreduced gR gQX

theorem good_add_est : gL.length = 50 ∧ dot (bytes gL) SHLIT / BIGM < dot (bytes gL) SQES / 65536 := by decide +kernel

attribute [local irreducible] BIGM MODULI RNS_T FACTORS TOTAL P FLIT PACKS SQES PCOR MODLIT TLIT SHLIT

/-- Executable form of `RoundsUp`. -/
theorem roundsUp_of {l : List Nat} (hl : l.length = 50)
    (h : dot (bytes l) SHLIT / BIGM < dot (bytes l) SQES / 65536) : RoundsUp (exactMatrix P) l := by
  have hb : (bytes l).length = 100 := by rw [bytes_len, hl]
  have hl2 : SHLIT.length = 100 := by rw [← SHLIT_eq, ← FACTORS_eq, byteShifted_len]
  have hsh : ∀ r, SHLIT.getD r 0 = shiftAt r := by
    intro r; unfold shiftAt; rw [FACTORS_eq, SHLIT_eq]
  rw [fast_est l hl, dot_eq 100 _ _ hb hl2] at h
  simp only [hsh] at h
  exact h

attribute [local irreducible] dot gL

theorem good_add_roundsUp : RoundsUp (exactMatrix P) (mulUnreduced gR gQX) := by
  have h := roundsUp_of good_add_est.1 good_add_est.2
  unfold gL at h
  exact h

end Verif.EcRns
