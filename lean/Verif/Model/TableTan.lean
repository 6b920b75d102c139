/-! The tanTable of util/math_tables.cc, lines 233-488, in millionths: generated from the source text, entry by entry. The rounding of the decimal literals to binary32 is not modelled. -/

namespace MathTables

/-- Entries 0 to 127: math_tables.cc:233-248. -/
def tan0 : List Int :=
  [0, 1534, 3068, 4602, 6136, 7670, 9204, 10738, 12272, 13807, 15341, 16875, 18410, 19944, 21479, 23014,
   24549, 26084, 27619, 29154, 30689, 32225, 33760, 35296, 36832, 38368, 39905, 41441, 42978, 44515, 46052, 47589,
   49127, 50665, 52203, 53741, 55280, 56818, 58357, 59897, 61436, 62976, 64516, 66057, 67598, 69139, 70680, 72222,
   73764, 75307, 76850, 78393, 79937, 81481, 83025, 84570, 86115, 87660, 89206, 90753, 92300, 93847, 95395, 96943,
   98491, 100041, 101590, 103140, 104691, 106242, 107793, 109345, 110898, 112451, 114005, 115559, 117114, 118669, 120225, 121781,
   123338, 124896, 126454, 128013, 129572, 131132, 132693, 134254, 135816, 137379, 138942, 140506, 142071, 143636, 145202, 146769,
   148336, 149904, 151473, 153042, 154613, 156184, 157756, 159328, 160901, 162475, 164050, 165626, 167202, 168780, 170358, 171937,
   173516, 175097, 176678, 178261, 179844, 181428, 183013, 184599, 186185, 187773, 189362, 190951, 192541, 194133, 195725, 197318]

/-- Entries 128 to 255: math_tables.cc:249-264. -/
def tan1 : List Int :=
  [198912, 200508, 202104, 203701, 205299, 206898, 208498, 210099, 211702, 213305, 214909, 216515, 218121, 219728, 221337, 222947,
   224558, 226169, 227782, 229397, 231012, 232628, 234246, 235865, 237484, 239106, 240728, 242351, 243976, 245602, 247229, 248857,
   250487, 252118, 253750, 255383, 257018, 258654, 260291, 261930, 263570, 265211, 266853, 268497, 270143, 271789, 273437, 275086,
   276737, 278389, 280043, 281698, 283354, 285012, 286672, 288332, 289995, 291658, 293324, 294990, 296659, 298328, 300000, 301672,
   303347, 305023, 306700, 308379, 310060, 311742, 313426, 315111, 316799, 318487, 320178, 321870, 323563, 325259, 326956, 328655,
   330355, 332058, 333762, 335467, 337175, 338884, 340595, 342308, 344023, 345739, 347457, 349177, 350899, 352623, 354349, 356076,
   357806, 359537, 361270, 363005, 364743, 366482, 368223, 369965, 371710, 373457, 375206, 376957, 378710, 380465, 382222, 383981,
   385743, 387506, 389271, 391039, 392808, 394580, 396354, 398130, 399908, 401689, 403471, 405256, 407043, 408832, 410624, 412418]

/-- Entries 256 to 383: math_tables.cc:265-280. -/
def tan2 : List Int :=
  [414214, 416012, 417812, 419615, 421421, 423228, 425038, 426850, 428665, 430482, 432302, 434123, 435948, 437775, 439604, 441435,
   443269, 445106, 446945, 448787, 450631, 452478, 454327, 456179, 458034, 459891, 461751, 463613, 465478, 467346, 469216, 471089,
   472965, 474843, 476725, 478608, 480495, 482385, 484277, 486172, 488070, 489971, 491875, 493781, 495691, 497603, 499518, 501437,
   503358, 505282, 507209, 509139, 511072, 513008, 514948, 516890, 518835, 520784, 522735, 524690, 526648, 528609, 530573, 532541,
   534511, 536485, 538462, 540443, 542426, 544413, 546403, 548397, 550394, 552394, 554398, 556405, 558416, 560430, 562448, 564469,
   566493, 568521, 570553, 572588, 574626, 576669, 578715, 580764, 582817, 584874, 586935, 588999, 591067, 593139, 595214, 597294,
   599377, 601464, 603555, 605649, 607748, 609851, 611957, 614068, 616182, 618300, 620423, 622549, 624680, 626814, 628953, 631096,
   633243, 635394, 637550, 639709, 641873, 644041, 646214, 648390, 650571, 652757, 654947, 657141, 659339, 661542, 663750, 665962]

/-- Entries 384 to 511: math_tables.cc:281-296. -/
def tan3 : List Int :=
  [668179, 670400, 672625, 674856, 677091, 679330, 681575, 683823, 686077, 688335, 690599, 692867, 695139, 697417, 699700, 701987,
   704279, 706577, 708879, 711186, 713499, 715816, 718139, 720466, 722799, 725137, 727480, 729829, 732183, 734542, 736906, 739276,
   741651, 744031, 746417, 748808, 751205, 753607, 756015, 758429, 760848, 763273, 765703, 768140, 770582, 773029, 775483, 777942,
   780408, 782879, 785356, 787839, 790328, 792823, 795325, 797832, 800345, 802865, 805391, 807923, 810462, 813006, 815557, 818115,
   820679, 823249, 825826, 828409, 830999, 833596, 836199, 838809, 841426, 844049, 846680, 849317, 851961, 854611, 857269, 859934,
   862606, 865285, 867971, 870664, 873365, 876072, 878787, 881510, 884239, 886976, 889721, 892473, 895232, 898000, 900774, 903557,
   906347, 909145, 911951, 914765, 917586, 920416, 923253, 926099, 928952, 931814, 934684, 937563, 940449, 943344, 946247, 949159,
   952079, 955008, 957945, 960891, 963846, 966809, 969782, 972763, 975753, 978752, 981760, 984777, 987803, 990838, 993883, 996937]

/-- Entries 512 to 639: math_tables.cc:297-312. -/
def tan4 : List Int :=
  [1000000, 1003073, 1006155, 1009246, 1012348, 1015459, 1018579, 1021710, 1024850, 1028000, 1031160, 1034330, 1037510, 1040701, 1043901, 1047112,
   1050333, 1053564, 1056806, 1060059, 1063322, 1066596, 1069880, 1073175, 1076481, 1079798, 1083127, 1086466, 1089816, 1093177, 1096550, 1099934,
   1103330, 1106737, 1110156, 1113586, 1117028, 1120482, 1123948, 1127426, 1130916, 1134418, 1137932, 1141458, 1144997, 1148548, 1152112, 1155689,
   1159278, 1162880, 1166495, 1170123, 1173763, 1177417, 1181084, 1184765, 1188459, 1192166, 1195887, 1199622, 1203370, 1207132, 1210909, 1214699,
   1218503, 1222322, 1226155, 1230003, 1233865, 1237742, 1241633, 1245539, 1249460, 1253397, 1257348, 1261315, 1265297, 1269295, 1273308, 1277337,
   1281382, 1285442, 1289519, 1293612, 1297721, 1301847, 1305989, 1310147, 1314323, 1318515, 1322724, 1326951, 1331194, 1335455, 1339734, 1344030,
   1348344, 1352676, 1357025, 1361393, 1365780, 1370184, 1374607, 1379049, 1383510, 1387990, 1392488, 1397007, 1401544, 1406101, 1410678, 1415274,
   1419891, 1424528, 1429185, 1433862, 1438560, 1443279, 1448019, 1452780, 1457562, 1462366, 1467191, 1472038, 1476907, 1481798, 1486711, 1491647]

/-- Entries 640 to 767: math_tables.cc:313-328. -/
def tan5 : List Int :=
  [1496606, 1501587, 1506591, 1511619, 1516670, 1521744, 1526842, 1531964, 1537110, 1542281, 1547476, 1552696, 1557940, 1563210, 1568505, 1573826,
   1579172, 1584545, 1589944, 1595369, 1600820, 1606299, 1611804, 1617337, 1622897, 1628486, 1634102, 1639746, 1645419, 1651120, 1656851, 1662610,
   1668399, 1674218, 1680067, 1685946, 1691855, 1697795, 1703767, 1709769, 1715803, 1721869, 1727967, 1734098, 1740261, 1746457, 1752687, 1758950,
   1765247, 1771578, 1777944, 1784344, 1790780, 1797251, 1803758, 1810301, 1816880, 1823496, 1830150, 1836840, 1843569, 1850335, 1857141, 1863985,
   1870868, 1877791, 1884754, 1891758, 1898802, 1905887, 1913014, 1920183, 1927394, 1934648, 1941945, 1949286, 1956671, 1964100, 1971574, 1979094,
   1986659, 1994270, 2001929, 2009634, 2017387, 2025188, 2033038, 2040937, 2048885, 2056884, 2064933, 2073034, 2081186, 2089390, 2097647, 2105958,
   2114322, 2122741, 2131215, 2139744, 2148330, 2156972, 2165672, 2174429, 2183246, 2192121, 2201057, 2210053, 2219110, 2228229, 2237411, 2246655,
   2255964, 2265338, 2274776, 2284281, 2293852, 2303492, 2313200, 2322976, 2332823, 2342741, 2352730, 2362791, 2372926, 2383135, 2393418, 2403778]

/-- Entries 768 to 895: math_tables.cc:329-344. -/
def tan6 : List Int :=
  [2414214, 2424727, 2435319, 2445991, 2456743, 2467576, 2478492, 2489491, 2500574, 2511743, 2522998, 2534340, 2545771, 2557292, 2568902, 2580606,
   2592402, 2604293, 2616279, 2628361, 2640541, 2652821, 2665200, 2677682, 2690266, 2702955, 2715749, 2728650, 2741660, 2754780, 2768011, 2781355,
   2794813, 2808387, 2822079, 2835889, 2849821, 2863874, 2878052, 2892355, 2906786, 2921345, 2936037, 2950861, 2965820, 2980916, 2996150, 3011525,
   3027043, 3042706, 3058515, 3074474, 3090583, 3106847, 3123266, 3139843, 3156580, 3173481, 3190547, 3207780, 3225184, 3242762, 3260515, 3278446,
   3296559, 3314856, 3333339, 3352013, 3370878, 3389941, 3409204, 3428668, 3448339, 3468219, 3488312, 3508620, 3529149, 3549901, 3570880, 3592090,
   3613536, 3635220, 3657148, 3679323, 3701750, 3724432, 3747376, 3770585, 3794064, 3817818, 3841851, 3866170, 3890779, 3915683, 3940889, 3966401,
   3992223, 4018365, 4044832, 4071630, 4098763, 4126241, 4154068, 4182253, 4210802, 4239721, 4269020, 4298704, 4328783, 4359263, 4390155, 4421465,
   4453203, 4485377, 4517997, 4551072, 4584613, 4618629, 4653129, 4688127, 4723630, 4759653, 4796205, 4833296, 4870944, 4909160, 4947955, 4987343]

/-- Entries 896 to 1023: math_tables.cc:345-360. -/
def tan7 : List Int :=
  [5027339, 5067956, 5109210, 5151115, 5193688, 5236946, 5280903, 5325579, 5370990, 5417157, 5464096, 5511829, 5560377, 5609760, 5659999, 5711120,
   5763143, 5816095, 5870000, 5924884, 5980776, 6037702, 6095693, 6154774, 6214986, 6276357, 6338921, 6402714, 6467772, 6534134, 6601840, 6670932,
   6741452, 6813446, 6886960, 6962045, 7038750, 7117130, 7197241, 7279140, 7362889, 7448551, 7536193, 7625885, 7717701, 7811717, 7908013, 8006675,
   8107789, 8211452, 8317749, 8426804, 8538714, 8653595, 8771567, 8892757, 9017300, 9145336, 9277016, 9412497, 9551948, 9695546, 9843481, 9995952,
   10153171, 10315365, 10482775, 10655656, 10834283, 11018948, 11209963, 11407662, 11612404, 11824573, 12044580, 12272870, 12509921, 12756228, 13012387, 13278980,
   13556661, 13846135, 14148173, 14463613, 14793366, 15138434, 15499910, 15878993, 16277004, 16695402, 17135792, 17599960, 18089886, 18607779, 19156107, 19737635,
   20355478, 21013147, 21714628, 22464453, 23267797, 24130613, 25059761, 26063198, 27150213, 28331614, 29620461, 31032009, 32584660, 34300694, 36207340, 38338242,
   40735439, 43452198, 46556992, 50139370, 54318726, 59257874, 65184753, 72428604, 81483299, 93124916, 108646912, 130377548, 162973312, 217299469, 325952026, 651914856]

/-- Entries 1024 to 1151: math_tables.cc:361-376. -/
def tan8 : List Int :=
  [-22877334000000, -651877686, -325942719, -217295334, -162974167, -130378082, -108647293, -93125191, -81483513, -72428772, -65184891, -59257984, -54318821, -50139450, -46557060, -43452259,
   -40735493, -38338287, -36207382, -34300732, -32584694, -31032040, -29620489, -28331638, -27150148, -26063139, -25059706, -24130562, -23267750, -22464407, -21714586, -21013109,
   -20355490, -19737648, -19156118, -18607790, -18089897, -17599970, -17135801, -16695410, -16277014, -15879002, -15499918, -15138442, -14793374, -14463619, -14148180, -13846142,
   -13556666, -13278986, -13012393, -12756233, -12509907, -12272857, -12044567, -11824560, -11612392, -11407651, -11209952, -11018951, -10834287, -10655660, -10482778, -10315369,
   -10153174, -9995955, -9843484, -9695550, -9551951, -9412499, -9277019, -9145339, -9017303, -8892760, -8771570, -8653598, -8538716, -8426805, -8317752, -8211445,
   -8107783, -8006669, -7908008, -7811712, -7717696, -7625880, -7536195, -7448553, -7362890, -7279141, -7197242, -7117132, -7038752, -6962046, -6886961, -6813447,
   -6741453, -6670933, -6601841, -6534135, -6467773, -6402715, -6338922, -6276358, -6214987, -6154775, -6095690, -6037699, -5980772, -5924881, -5869997, -5816092,
   -5763140, -5711117, -5660001, -5609761, -5560378, -5511830, -5464097, -5417158, -5370991, -5325580, -5280904, -5236947, -5193689, -5151116, -5109210, -5067957]

/-- Entries 1152 to 1279: math_tables.cc:377-392. -/
def tan9 : List Int :=
  [-5027339, -4987344, -4947955, -4909160, -4870945, -4833297, -4796203, -4759651, -4723629, -4688124, -4653127, -4618626, -4584611, -4551073, -4517998, -4485377,
   -4453203, -4421465, -4390155, -4359264, -4328784, -4298705, -4269020, -4239722, -4210802, -4182254, -4154069, -4126242, -4098764, -4071630, -4044833, -4018366,
   -3992223, -3966399, -3940887, -3915682, -3890778, -3866169, -3841850, -3817816, -3794062, -3770585, -3747376, -3724433, -3701750, -3679323, -3657148, -3635221,
   -3613536, -3592091, -3570880, -3549901, -3529149, -3508621, -3488312, -3468220, -3448340, -3428669, -3409204, -3389942, -3370879, -3352012, -3333338, -3314854,
   -3296558, -3278445, -3260514, -3242761, -3225185, -3207781, -3190547, -3173481, -3156581, -3139843, -3123266, -3106847, -3090584, -3074474, -3058515, -3042706,
   -3027043, -3011525, -2996150, -2980916, -2965820, -2950861, -2936037, -2921346, -2906785, -2892354, -2878051, -2863873, -2849820, -2835889, -2822078, -2808387,
   -2794813, -2781355, -2768011, -2754780, -2741660, -2728651, -2715749, -2702955, -2690266, -2677682, -2665201, -2652821, -2640542, -2628361, -2616279, -2604293,
   -2592402, -2580606, -2568903, -2557292, -2545771, -2534340, -2522997, -2511742, -2500574, -2489490, -2478491, -2467577, -2456743, -2445991, -2435320, -2424727]

/-- Entries 1280 to 1407: math_tables.cc:393-408. -/
def tan10 : List Int :=
  [-2414214, -2403778, -2393418, -2383135, -2372926, -2362791, -2352730, -2342741, -2332824, -2322977, -2313200, -2303492, -2293853, -2284281, -2274776, -2265337,
   -2255964, -2246655, -2237410, -2228228, -2219109, -2210052, -2201057, -2192122, -2183246, -2174429, -2165672, -2156972, -2148330, -2139744, -2131215, -2122741,
   -2114322, -2105958, -2097648, -2089391, -2081186, -2073034, -2064934, -2056884, -2048885, -2040937, -2033038, -2025188, -2017387, -2009634, -2001928, -1994270,
   -1986659, -1979093, -1971574, -1964100, -1956670, -1949286, -1941945, -1934648, -1927394, -1920183, -1913014, -1905887, -1898801, -1891757, -1884754, -1877792,
   -1870869, -1863986, -1857141, -1850336, -1843569, -1836841, -1830150, -1823497, -1816880, -1810301, -1803758, -1797251, -1790780, -1784344, -1777944, -1771578,
   -1765247, -1758950, -1752687, -1746457, -1740261, -1734098, -1727968, -1721869, -1715803, -1709769, -1703767, -1697796, -1691855, -1685946, -1680067, -1674218,
   -1668399, -1662610, -1656850, -1651120, -1645418, -1639746, -1634101, -1628485, -1622897, -1617337, -1611804, -1606298, -1600820, -1595368, -1589943, -1584545,
   -1579172, -1573826, -1568505, -1563210, -1557940, -1552695, -1547476, -1542281, -1537111, -1531965, -1526842, -1521744, -1516670, -1511619, -1506592, -1501587]

/-- Entries 1408 to 1535: math_tables.cc:409-424. -/
def tan11 : List Int :=
  [-1496606, -1491647, -1486712, -1481798, -1476907, -1472038, -1467191, -1462366, -1457562, -1452780, -1448019, -1443279, -1438560, -1433862, -1429185, -1424528,
   -1419891, -1415274, -1410678, -1406101, -1401544, -1397007, -1392488, -1387990, -1383510, -1379049, -1374607, -1370184, -1365779, -1361393, -1357025, -1352676,
   -1348344, -1344030, -1339734, -1335455, -1331194, -1326950, -1322724, -1318515, -1314322, -1310147, -1305988, -1301846, -1297721, -1293612, -1289519, -1285442,
   -1281382, -1277337, -1273308, -1269295, -1265297, -1261315, -1257348, -1253397, -1249461, -1245539, -1241633, -1237742, -1233865, -1230003, -1226155, -1222322,
   -1218504, -1214699, -1210909, -1207133, -1203370, -1199622, -1195887, -1192166, -1188459, -1184765, -1181084, -1177417, -1173763, -1170122, -1166495, -1162880,
   -1159278, -1155689, -1152112, -1148548, -1144997, -1141458, -1137932, -1134418, -1130916, -1127426, -1123948, -1120482, -1117028, -1113586, -1110156, -1106737,
   -1103330, -1099934, -1096550, -1093177, -1089816, -1086466, -1083127, -1079799, -1076482, -1073175, -1069880, -1066596, -1063322, -1060059, -1056806, -1053564,
   -1050333, -1047112, -1043901, -1040701, -1037510, -1034330, -1031160, -1028000, -1024850, -1021710, -1018579, -1015459, -1012348, -1009246, -1006155, -1003073]

/-- Entries 1536 to 1663: math_tables.cc:425-440. -/
def tan12 : List Int :=
  [-1000000, -996937, -993883, -990838, -987803, -984777, -981760, -978752, -975753, -972763, -969781, -966809, -963846, -960891, -957945, -955008,
   -952079, -949159, -946247, -943344, -940449, -937562, -934684, -931814, -928952, -926099, -923253, -920416, -917586, -914765, -911951, -909145,
   -906347, -903557, -900775, -898000, -895233, -892473, -889721, -886976, -884239, -881510, -878787, -876072, -873365, -870664, -867971, -865285,
   -862606, -859934, -857269, -854611, -851961, -849317, -846680, -844049, -841426, -838809, -836199, -833596, -830999, -828409, -825826, -823249,
   -820679, -818115, -815557, -813006, -810461, -807923, -805391, -802865, -800345, -797832, -795324, -792823, -790328, -787839, -785356, -782879,
   -780407, -777943, -775483, -773030, -770582, -768140, -765704, -763273, -760848, -758429, -756016, -753608, -751205, -748808, -746417, -744031,
   -741651, -739276, -736906, -734542, -732183, -729829, -727480, -725137, -722799, -720466, -718139, -715816, -713499, -711186, -708879, -706577,
   -704279, -701987, -699700, -697417, -695139, -692867, -690599, -688335, -686077, -683823, -681574, -679330, -677091, -674856, -672625, -670400]

/-- Entries 1664 to 1791: math_tables.cc:441-456. -/
def tan13 : List Int :=
  [-668178, -665962, -663750, -661542, -659339, -657141, -654946, -652757, -650572, -648390, -646214, -644041, -641873, -639709, -637550, -635394,
   -633243, -631096, -628953, -626814, -624680, -622549, -620423, -618300, -616182, -614068, -611957, -609851, -607748, -605650, -603555, -601464,
   -599377, -597294, -595214, -593139, -591067, -588999, -586935, -584874, -582817, -580764, -578715, -576669, -574626, -572588, -570553, -568521,
   -566493, -564468, -562447, -560430, -558416, -556405, -554398, -552394, -550394, -548397, -546403, -544413, -542426, -540442, -538462, -536485,
   -534511, -532541, -530573, -528609, -526648, -524690, -522735, -520784, -518835, -516890, -514948, -513008, -511072, -509139, -507209, -505282,
   -503358, -501437, -499518, -497603, -495691, -493781, -491875, -489971, -488070, -486172, -484277, -482385, -480495, -478608, -476724, -474843,
   -472965, -471089, -469216, -467346, -465478, -463613, -461750, -459891, -458034, -456179, -454327, -452478, -450631, -448787, -446945, -445106,
   -443269, -441435, -439604, -437774, -435948, -434123, -432302, -430482, -428665, -426851, -425038, -423228, -421421, -419616, -417813, -416012]

/-- Entries 1792 to 1919: math_tables.cc:457-472. -/
def tan14 : List Int :=
  [-414214, -412418, -410624, -408832, -407043, -405256, -403471, -401689, -399908, -398130, -396354, -394580, -392808, -391039, -389271, -387506,
   -385743, -383981, -382222, -380465, -378710, -376957, -375206, -373457, -371710, -369965, -368222, -366481, -364742, -363005, -361270, -359537,
   -357806, -356076, -354349, -352623, -350899, -349177, -347457, -345739, -344022, -342308, -340595, -338884, -337175, -335467, -333762, -332058,
   -330355, -328655, -326956, -325259, -323564, -321870, -320178, -318487, -316799, -315111, -313426, -311742, -310060, -308379, -306700, -305023,
   -303347, -301672, -300000, -298328, -296659, -294990, -293324, -291658, -289995, -288332, -286672, -285012, -283354, -281698, -280043, -278389,
   -276737, -275086, -273437, -271789, -270142, -268497, -266853, -265211, -263570, -261930, -260291, -258654, -257018, -255383, -253750, -252118,
   -250487, -248857, -247229, -245602, -243976, -242351, -240728, -239106, -237485, -235865, -234246, -232628, -231012, -229397, -227782, -226169,
   -224558, -222947, -221337, -219729, -218121, -216515, -214909, -213305, -211702, -210099, -208498, -206898, -205299, -203701, -202104, -200508]

/-- Entries 1920 to 2047: math_tables.cc:473-488. -/
def tan15 : List Int :=
  [-198912, -197318, -195725, -194133, -192541, -190951, -189361, -187773, -186185, -184599, -183013, -181428, -179844, -178261, -176678, -175097,
   -173516, -171937, -170358, -168780, -167202, -165626, -164050, -162475, -160901, -159328, -157756, -156184, -154613, -153043, -151473, -149904,
   -148336, -146769, -145202, -143636, -142071, -140506, -138942, -137379, -135816, -134254, -132693, -131132, -129572, -128013, -126454, -124896,
   -123338, -121781, -120225, -118669, -117114, -115559, -114005, -112451, -110898, -109345, -107793, -106242, -104691, -103140, -101590, -100040,
   -98491, -96943, -95395, -93847, -92300, -90753, -89206, -87660, -86115, -84570, -83025, -81480, -79937, -78393, -76850, -75307,
   -73764, -72222, -70681, -69139, -67598, -66057, -64517, -62976, -61436, -59897, -58357, -56818, -55280, -53741, -52203, -50665,
   -49127, -47589, -46052, -44515, -42978, -41441, -39905, -38368, -36832, -35296, -33760, -32225, -30689, -29154, -27619, -26084,
   -24549, -23014, -21479, -19944, -18410, -16875, -15341, -13807, -12272, -10738, -9204, -7670, -6136, -4602, -3068, -1534]

/-- `tanTable`: math_tables.cc:232-489. -/
def tanData : List Int :=
  tan0 ++ tan1 ++ tan2 ++ tan3 ++ tan4 ++ tan5 ++ tan6 ++ tan7 ++ tan8 ++ tan9 ++ tan10 ++ tan11 ++ tan12 ++ tan13 ++ tan14 ++ tan15

end MathTables
