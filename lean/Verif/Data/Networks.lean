import Verif.Model.NN

/-!
# The networks of `/repo/src/demos.rs`

Generated by `tools/gen_nn.py`, in file order.
-/

namespace Parm

/-- `demo_nn`, `/repo/src/demos.rs:445-468` (3 inputs) -/
def demoNn : NeuralNetwork where
  layers := [
    [⟨.MAX, [1, -2, -2], 2⟩,
     ⟨.LIN, [1, 3, -1], -5⟩,
     ⟨.ACT, [1, 3, -1], 3⟩]]

/-- `arrhythmia_nn`, `/repo/src/demos.rs:471-535` (16 inputs) -/
def arrhythmiaNn : NeuralNetwork where
  layers := [
    [⟨.ACT, [-294, -209, -53, -79, -176, -53, -105, -87, -157, -356, -71, -324, -300, 194, 403, -39], 183296⟩,
     ⟨.ACT, [-53, -274, 34, 201, 331, 203, 114, 19, -123, 13, -212, -247, -64, 303, -176, -210], 405504⟩,
     ⟨.ACT, [-1, -106, 287, 45, -166, 33, 392, 226, 83, 111, 151, -170, 527, 116, 216, 382], -1064960⟩,
     ⟨.ACT, [177, 183, 247, -195, -243, 10, 106, 476, 296, -344, -20, -394, -445, -48, 378, -58], 148480⟩,
     ⟨.ACT, [382, 149, -201, -241, 255, 386, 76, 57, -458, -77, -170, 10, -558, -807, 32, -46], -286720⟩,
     ⟨.ACT, [-219, 538, -1077, -281, -129, 347, -173, 537, 448, -83, -482, -264, 206, -127, 222, -237], 712704⟩,
     ⟨.ACT, [-230, -102, 308, -117, -838, 445, -614, -88, 391, 14, -1033, -59, 427, 466, 203, -4], 626688⟩,
     ⟨.ACT, [-9, 547, -37, 779, -298, 343, 116, 429, -1226, -339, 66, -276, -137, -484, 143, -514], 1720320⟩,
     ⟨.ACT, [-483, 996, -610, -795, -1020, 1251, -389, 793, 64, 270, -924, 145, -328, 363, 612, -562], 114688⟩,
     ⟨.ACT, [217, -570, -442, -789, 343, -415, 697, 138, 395, -195, -210, -377, 617, -651, 391, -1001], -436224⟩,
     ⟨.ACT, [225, -18, 427, 97, 151, -394, -724, -66, -405, -655, 23, 77, -122, -795, -1002, 286], -462848⟩,
     ⟨.ACT, [297, 533, -588, 637, -364, -138, 757, 413, 102, 440, -499, -339, 361, -469, 183, 133], -405504⟩,
     ⟨.ACT, [-376, 812, 150, -269, 476, -459, 431, -121, 797, 77, 161, 547, -298, -362, -370, 9], -1957888⟩,
     ⟨.ACT, [-330, -143, -123, -815, -433, -73, -174, 50, 223, 185, 233, 338, 241, 42, 29, 706], 92672⟩,
     ⟨.ACT, [-469, -470, -11, -495, 322, -262, 499, -103, 183, 1144, -112, 565, 768, -1038, -348, 332], 2916352⟩,
     ⟨.ACT, [517, -562, 92, 322, 16, -209, -821, -412, -139, 402, 566, 203, -951, -809, 791, -162], -823296⟩,
     ⟨.ACT, [691, -245, 315, -416, -273, 802, -174, -908, 89, -84, -747, -638, -660, 535, 950, 110], -501760⟩,
     ⟨.ACT, [216, -603, -2054, -96, 1062, 137, -94, 0, -161, -59, -306, -372, -267, -681, -230, -357], -278528⟩,
     ⟨.ACT, [-626, -693, 494, -283, 1140, -177, -103, 447, 476, -150, -745, -654, 151, -758, 1081, 246], 1253376⟩,
     ⟨.ACT, [971, -882, 1381, -459, -430, -77, -805, -456, -11, 187, 893, -629, -130, -1585, 725, 188], 1089536⟩,
     ⟨.ACT, [10, 320, 530, 518, -991, 60, -1144, 719, -98, -434, -685, 1196, -1505, 984, 175, -1026], -733184⟩,
     ⟨.ACT, [-759, -194, -1284, 994, -759, 784, -342, -504, -316, 532, 2104, -1107, 821, -1525, 851, -79], 473088⟩,
     ⟨.ACT, [-1211, -523, 854, -922, 363, 406, 741, -647, 791, -1325, 388, 214, 52, 764, -605, 773], 1114112⟩,
     ⟨.ACT, [712, -739, -213, -655, -908, 133, -307, -836, -893, 634, 521, -164, 570, -202, -1519, -198], -362496⟩,
     ⟨.ACT, [665, 701, -703, -418, -1229, 520, 399, 101, 187, 870, 799, -314, 597, 382, 104, 719], 978944⟩,
     ⟨.ACT, [115, -17, 685, -150, -762, -74, 579, 478, -300, 1814, 1082, -1974, 1287, -992, -1367, 711], -103424⟩,
     ⟨.ACT, [-1389, -1088, 129, 521, 501, -671, 298, -1276, 221, 788, 295, -1453, 976, 827, -101, 1947], 720896⟩,
     ⟨.ACT, [-22, 483, 1104, 700, -324, 1281, 541, -1453, -424, -1890, 837, 1251, -137, -523, -430, -474], -1523712⟩,
     ⟨.ACT, [682, 170, -722, 980, 476, -65, 731, 1081, 527, -361, -272, 944, 414, -539, 671, 858], 286720⟩,
     ⟨.ACT, [-1550, 13, -367, 682, -843, -927, -374, -1753, 306, -904, 628, 77, -74, 696, 23, 2092], 1507328⟩,
     ⟨.ACT, [593, 636, 299, 939, 637, 96, 564, -661, 112, 475, 426, -1055, 196, 44, 809, -366], -81920⟩,
     ⟨.ACT, [-219, 1366, -26, 81, 522, -127, -359, -749, -852, 329, 418, 1293, 173, 592, 382, 134], 86528⟩,
     ⟨.ACT, [-6, -138, 46, -538, -205, 1593, 419, 348, -712, -575, 377, 426, -448, 515, -263, 1371], -815104⟩,
     ⟨.ACT, [-511, 56, -152, 715, 503, 2273, 1568, 408, 763, 1563, -477, -223, 314, -643, -776, 838], 397312⟩,
     ⟨.ACT, [-588, -287, 430, 847, -1679, -142, 39, 123, -971, -841, 597, -567, 584, -1204, 885, 782], 544768⟩,
     ⟨.ACT, [-64, 29, 150, 1, 1977, 1459, -613, -972, -144, -955, 201, 1217, 620, 1, 81, 1355], 364544⟩,
     ⟨.ACT, [-677, -414, -400, -278, -656, 404, -6, -52, -186, 1456, 667, 313, -796, -1124, 808, -34], 4192⟩,
     ⟨.ACT, [-891, 1180, -686, 795, -126, 674, -826, 599, 616, 439, -337, 733, 1356, 1182, -333, -178], -897024⟩],
    [⟨.LIN, [-615, 263, 580, -177, 465, 577, -527, -336, -460, 295, 736, -981, -838, 484, -72, -738, -604, -741, 10, 300, 293, 215, -1064, 15, -1007, -188, -1061, -261, 225, 123, 680, 397, 179, 307, -246, -192, -814, 448], 12549357568⟩,
     ⟨.LIN, [404, -1123, -124, -388, 154, -240, 206, 13, 57, -667, 212, -368, -10, -530, -2444, 269, 400, 140, 166, 25, -651, -328, -4, -98, -4093, -1958, 434, 399, -89, 217, -539, -547, -103, 345, -692, -231, -527, 820], 457179136⟩,
     ⟨.LIN, [-226, -223, 418, -482, -84, 118, -47, 276, 902, 695, -423, -785, 688, 908, 136, -601, -211, 28, -872, -3186, -608, 177, 147, 727, -53, -339, 2, 197, -814, -1400, 81, -2926, 241, 111, -590, 613, 194, 78], -6878658560⟩,
     ⟨.LIN, [-519, -2467, -404, -1478, -2932, 127, 465, -1091, -375, 93, 680, -875, 324, 104, 188, 220, 193, -999, -1704, 404, 374, -1, -2183, -539, 388, 409, -2485, 258, -1245, -906, -7, 251, 360, -732, -1633, -141, -984, 360], -12683575296⟩,
     ⟨.LIN, [-25, -177, -342, 481, -1381, 100, -318, 132, -334, 235, 124, -1344, -946, 223, -48, -1292, -1793, 248, 516, -925, -1107, 280, -752, -1690, 456, -263, -43, 687, -758, 25, -106, -93, 434, -299, -1354, 255, 307, 182], -10603200512⟩,
     ⟨.LIN, [-1671, -1853, 11, -573, -154, -128, 604, -2860, -3195, 172, -398, 924, -268, 51, -8, -1396, -1284, -71, 145, -414, 136, -2041, 220, 243, 513, -205, -606, -311, 26, -452, -1624, 8, -565, -176, 211, 168, 284, -649], -13555990528⟩,
     ⟨.LIN, [-792, -7717, -681, 362, -265, -386, 382, 286, 195, -2614, -533, 259, -270, 534, -122, 597, 392, -312, 616, 368, 632, -384, -79, 0, 778, 40, -408, -412, -40, -1077, -93, 1236, -479, 217, 678, 27, -840, 144], -2852126720⟩,
     ⟨.LIN, [377, -2930, -809, 427, 767, 267, 332, 187, 408, -23, -574, -838, -275, 319, -515, -369, 41, -3256, -541, 346, 934, -1248, 295, -77, -293, -1621, 65, 602, -55, -402, -197, -1001, -406, 132, 1014, 300, -126, -125], -24024973312⟩,
     ⟨.LIN, [315, -888, -4, 1160, 778, -288, -136, 55, 425, -217, -1, -162, -1346, 372, -708, -1792, -1, 0, -429, -610, -511, 428, 189, -386, 25, 205, 342, 53, 218, 73, 307, -357, -109, 149, -478, 875, -1597, 365], 26038239232⟩,
     ⟨.LIN, [-206, 169, -1167, -30, 154, 223, -1750, -11, -2434, 122, 120, 40, -231, -295, 115, -186, -133, 52, 127, 467, -495, 770, -100, -1737, -1095, -311, -91, 325, -49, -470, -1336, 418, 697, -210, -1576, -988, -124, 917], 9126805504⟩,
     ⟨.LIN, [-2574, 150, -1189, -816, -963, -31, 249, 27, -307, 657, -470, -948, -1000, 196, 249, -2730, 540, 165, 538, -1110, -464, -734, -521, 157, 859, 287, 919, 2, -324, 599, -165, -1025, 834, -328, 316, 1540, 154, 117], 12482248704⟩,
     ⟨.LIN, [127, -2362, -732, -461, -361, -404, 254, 445, 261, -987, -841, -197, -608, -1459, 437, 456, -240, -1632, 549, -2202, -1136, 141, 427, 106, -111, 145, -609, -1530, -1269, 837, 138, -5, -207, -459, 311, -121, -474, 336], -20401094656⟩,
     ⟨.LIN, [-686, 570, 362, 532, -777, 188, 374, -467, -313, 292, -111, -376, 965, -1389, -1414, -435, 810, 491, -449, 82, 56, -194, 108, 455, 266, -283, 45, 278, 326, -170, 235, 104, -690, 736, -259, -118, -2024, 337], 5402263552⟩,
     ⟨.LIN, [116, -229, -170, 419, -143, 163, -4, -321, -1494, -60, -673, 173, -1761, 297, 1584, 220, -573, 206, 217, -726, 98, -564, -582, 711, 47, -143, -1705, -317, -354, -3498, -366, 514, 537, -3374, -160, 143, 35, 839], -19327352832⟩,
     ⟨.LIN, [917, 140, 79, 73, -95, -836, -425, 463, -2951, -108, 606, 515, -604, -264, 10, 1089, 323, -698, 291, 270, 92, 398, -857, -511, -687, 228, 116, 162, 129, -751, 578, -773, 1093, 139, -393, 427, 117, -649], 9261023232⟩,
     ⟨.LIN, [189, -772, 434, 314, -39, -487, -175, -225, 264, -1336, -861, -157, -119, 361, 403, -112, 134, -58, 66, -113, 136, -776, 300, -1854, 193, 387, 400, 190, -111, 63, -937, 193, -1, -839, -34, -173, -221, -1085], -2097152000⟩]]

end Parm
