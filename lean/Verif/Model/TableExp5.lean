/-! The exp5Table of util/math_tables.cc, lines 491-718, in millionths: generated from the source text, entry by entry. The rounding of the decimal literals to binary32 is not modelled. -/

namespace MathTables

/-- Entries 0 to 127: math_tables.cc:491-505. -/
def exp50 : List Int :=
  [1000000, 1001695, 1003392, 1005092, 1006795, 1008501, 1010210, 1011922, 1013637, 1015354, 1017075, 1018798, 1020525, 1022254, 1023986, 1025721,
   1027460, 1029201, 1030945, 1032691, 1034441, 1036194, 1037950, 1039709, 1041471, 1043236, 1045003, 1046774, 1048548, 1050325, 1052104, 1053887,
   1055673, 1057462, 1059254, 1061049, 1062847, 1064648, 1066452, 1068259, 1070069, 1071882, 1073699, 1075518, 1077341, 1079166, 1080995, 1082826,
   1084661, 1086499, 1088341, 1090185, 1092032, 1093882, 1095736, 1097593, 1099453, 1101316, 1103182, 1105051, 1106924, 1108800, 1110678, 1112561,
   1114446, 1116334, 1118226, 1120121, 1122019, 1123920, 1125824, 1127732, 1129643, 1131557, 1133475, 1135396, 1137319, 1139247, 1141177, 1143111,
   1145048, 1146988, 1148932, 1150879, 1152829, 1154782, 1156739, 1158699, 1160663, 1162629, 1164600, 1166573, 1168550, 1170530, 1172513, 1174500,
   1176490, 1178484, 1180481, 1182481, 1184485, 1186492, 1188503, 1190517, 1192534, 1194555, 1196579, 1198606, 1200638, 1202672, 1204710, 1206751,
   1208796, 1210845, 1212896, 1214952, 1217010, 1219073, 1221138, 1223208, 1225280, 1227357, 1229436, 1231520, 1233606, 1235697, 1237791, 1239888]

/-- Entries 128 to 255: math_tables.cc:505-519. -/
def exp51 : List Int :=
  [1241989, 1244094, 1246202, 1248314, 1250429, 1252548, 1254670, 1256796, 1258926, 1261059, 1263196, 1265337, 1267481, 1269629, 1271780, 1273935,
   1276094, 1278256, 1280422, 1282592, 1284765, 1286942, 1289123, 1291307, 1293496, 1295687, 1297883, 1300082, 1302285, 1304492, 1306702, 1308917,
   1311135, 1313356, 1315582, 1317811, 1320044, 1322281, 1324522, 1326766, 1329014, 1331266, 1333522, 1335782, 1338045, 1340313, 1342584, 1344859,
   1347138, 1349421, 1351707, 1353998, 1356292, 1358590, 1360892, 1363199, 1365508, 1367822, 1370140, 1372462, 1374787, 1377117, 1379451, 1381788,
   1384130, 1386475, 1388824, 1391178, 1393535, 1395897, 1398262, 1400631, 1403005, 1405382, 1407763, 1410149, 1412539, 1414932, 1417330, 1419731,
   1422137, 1424547, 1426961, 1429379, 1431801, 1434227, 1436658, 1439092, 1441530, 1443973, 1446420, 1448871, 1451326, 1453785, 1456249, 1458717,
   1461188, 1463664, 1466145, 1468629, 1471118, 1473610, 1476107, 1478609, 1481114, 1483624, 1486138, 1488656, 1491179, 1493706, 1496237, 1498772,
   1501312, 1503856, 1506404, 1508957, 1511514, 1514075, 1516641, 1519211, 1521785, 1524364, 1526947, 1529534, 1532126, 1534722, 1537323, 1539928]

/-- Entries 256 to 383: math_tables.cc:519-533. -/
def exp52 : List Int :=
  [1542537, 1545151, 1547769, 1550392, 1553019, 1555651, 1558287, 1560928, 1563573, 1566222, 1568876, 1571535, 1574198, 1576865, 1579537, 1582214,
   1584895, 1587580, 1590270, 1592965, 1595665, 1598368, 1601077, 1603790, 1606508, 1609230, 1611957, 1614688, 1617424, 1620165, 1622910, 1625660,
   1628415, 1631174, 1633939, 1636707, 1639481, 1642259, 1645042, 1647829, 1650621, 1653418, 1656220, 1659027, 1661838, 1664654, 1667475, 1670300,
   1673131, 1675966, 1678806, 1681651, 1684500, 1687354, 1690214, 1693078, 1695947, 1698821, 1701699, 1704583, 1707471, 1710365, 1713263, 1716166,
   1719074, 1721987, 1724905, 1727828, 1730756, 1733688, 1736626, 1739569, 1742517, 1745469, 1748427, 1751390, 1754358, 1757330, 1760308, 1763291,
   1766279, 1769272, 1772270, 1775273, 1778281, 1781295, 1784313, 1787337, 1790365, 1793399, 1796438, 1799482, 1802531, 1805586, 1808645, 1811710,
   1814780, 1817855, 1820936, 1824021, 1827112, 1830208, 1833310, 1836416, 1839528, 1842645, 1845767, 1848895, 1852028, 1855166, 1858310, 1861459,
   1864613, 1867773, 1870938, 1874108, 1877284, 1880465, 1883651, 1886843, 1890041, 1893243, 1896451, 1899665, 1902884, 1906108, 1909338, 1912574]

/-- Entries 384 to 511: math_tables.cc:533-547. -/
def exp53 : List Int :=
  [1915815, 1919061, 1922313, 1925570, 1928833, 1932102, 1935376, 1938655, 1941940, 1945231, 1948527, 1951829, 1955136, 1958449, 1961768, 1965092,
   1968422, 1971758, 1975099, 1978446, 1981798, 1985156, 1988520, 1991890, 1995265, 1998646, 2002033, 2005425, 2008823, 2012227, 2015637, 2019053,
   2022474, 2025901, 2029334, 2032773, 2036217, 2039668, 2043124, 2046586, 2050054, 2053528, 2057008, 2060493, 2063985, 2067482, 2070986, 2074495,
   2078010, 2081531, 2085059, 2088592, 2092131, 2095676, 2099227, 2102784, 2106348, 2109917, 2113492, 2117074, 2120661, 2124254, 2127854, 2131459,
   2135071, 2138689, 2142313, 2145943, 2149580, 2153222, 2156871, 2160526, 2164187, 2167854, 2171528, 2175207, 2178893, 2182585, 2186284, 2189988,
   2193699, 2197417, 2201140, 2204870, 2208606, 2212349, 2216098, 2219853, 2223614, 2227382, 2231157, 2234937, 2238724, 2242518, 2246318, 2250124,
   2253937, 2257757, 2261583, 2265415, 2269254, 2273099, 2276951, 2280809, 2284674, 2288545, 2292423, 2296308, 2300199, 2304097, 2308001, 2311912,
   2315830, 2319754, 2323685, 2327622, 2331566, 2335517, 2339475, 2343439, 2347410, 2351388, 2355372, 2359364, 2363362, 2367366, 2371378, 2375396]

/-- Entries 512 to 639: math_tables.cc:547-562. -/
def exp54 : List Int :=
  [2379421, 2383453, 2387492, 2391538, 2395590, 2399650, 2403716, 2407789, 2411869, 2415956, 2420050, 2424150, 2428258, 2432373, 2436495, 2440623,
   2444759, 2448902, 2453051, 2457208, 2461372, 2465543, 2469721, 2473906, 2478098, 2482297, 2486503, 2490717, 2494937, 2499165, 2503400, 2507642,
   2511891, 2516147, 2520411, 2524682, 2528960, 2533245, 2537538, 2541838, 2546145, 2550460, 2554781, 2559110, 2563447, 2567791, 2572142, 2576500,
   2580866, 2585240, 2589620, 2594008, 2598404, 2602807, 2607218, 2611636, 2616061, 2620494, 2624934, 2629382, 2633838, 2638301, 2642772, 2647250,
   2651736, 2656229, 2660730, 2665239, 2669755, 2674279, 2678811, 2683350, 2687897, 2692451, 2697014, 2701584, 2706162, 2710747, 2715341, 2719942,
   2724551, 2729168, 2733793, 2738425, 2743065, 2747714, 2752369, 2757033, 2761705, 2766385, 2771073, 2775768, 2780472, 2785183, 2789903, 2794631,
   2799366, 2804110, 2808861, 2813621, 2818389, 2823164, 2827948, 2832740, 2837540, 2842349, 2847165, 2851990, 2856822, 2861663, 2866512, 2871370,
   2876235, 2881109, 2885991, 2890882, 2895780, 2900687, 2905602, 2910526, 2915458, 2920398, 2925347, 2930304, 2935269, 2940243, 2945225, 2950216]

/-- Entries 640 to 767: math_tables.cc:562-576. -/
def exp55 : List Int :=
  [2955215, 2960223, 2965239, 2970264, 2975297, 2980339, 2985389, 2990448, 2995515, 3000591, 3005676, 3010769, 3015871, 3020981, 3026100, 3031228,
   3036364, 3041509, 3046663, 3051826, 3056997, 3062177, 3067366, 3072564, 3077770, 3082986, 3088210, 3093443, 3098685, 3103936, 3109195, 3114464,
   3119741, 3125028, 3130323, 3135628, 3140941, 3146264, 3151595, 3156935, 3162285, 3167644, 3173011, 3178388, 3183774, 3189168, 3194573, 3199986,
   3205408, 3210840, 3216281, 3221731, 3227190, 3232659, 3238136, 3243623, 3249120, 3254626, 3260140, 3265665, 3271199, 3276742, 3282294, 3287856,
   3293427, 3299008, 3304598, 3310198, 3315807, 3321426, 3327054, 3332692, 3338339, 3343996, 3349662, 3355338, 3361024, 3366719, 3372424, 3378139,
   3383863, 3389597, 3395341, 3401094, 3406858, 3412631, 3418413, 3424206, 3430008, 3435821, 3441643, 3447474, 3453316, 3459168, 3465029, 3470901,
   3476783, 3482674, 3488575, 3494487, 3500408, 3506340, 3512281, 3518233, 3524195, 3530167, 3536149, 3542140, 3548143, 3554155, 3560178, 3566211,
   3572253, 3578307, 3584370, 3590444, 3596528, 3602622, 3608727, 3614842, 3620967, 3627103, 3633250, 3639406, 3645573, 3651751, 3657938, 3664137]

/-- Entries 768 to 895: math_tables.cc:576-590. -/
def exp56 : List Int :=
  [3670346, 3676565, 3682795, 3689036, 3695287, 3701549, 3707821, 3714104, 3720397, 3726702, 3733017, 3739342, 3745679, 3752026, 3758384, 3764752,
   3771132, 3777522, 3783923, 3790335, 3796758, 3803191, 3809636, 3816092, 3822558, 3829035, 3835524, 3842023, 3848533, 3855055, 3861587, 3868131,
   3874685, 3881251, 3887828, 3894416, 3901015, 3907625, 3914247, 3920880, 3927524, 3934179, 3940845, 3947523, 3954212, 3960913, 3967625, 3974348,
   3981082, 3987828, 3994586, 4001355, 4008135, 4014927, 4021730, 4028545, 4035372, 4042210, 4049059, 4055920, 4062793, 4069677, 4076574, 4083481,
   4090401, 4097332, 4104275, 4111230, 4118196, 4125175, 4132165, 4139167, 4146181, 4153207, 4160244, 4167294, 4174356, 4181429, 4188515, 4195612,
   4202722, 4209843, 4216977, 4224123, 4231280, 4238450, 4245632, 4252827, 4260033, 4267252, 4274483, 4281726, 4288981, 4296249, 4303529, 4310822,
   4318126, 4325443, 4332773, 4340115, 4347469, 4354836, 4362216, 4369607, 4377012, 4384429, 4391858, 4399300, 4406755, 4414222, 4421702, 4429195,
   4436700, 4444218, 4451749, 4459292, 4466849, 4474418, 4482000, 4489594, 4497202, 4504823, 4512456, 4520103, 4527762, 4535435, 4543120, 4550818]

/-- Entries 896 to 1023: math_tables.cc:590-604. -/
def exp57 : List Int :=
  [4558530, 4566254, 4573992, 4581742, 4589506, 4597283, 4605073, 4612877, 4620694, 4628523, 4636366, 4644223, 4652092, 4659976, 4667872, 4675782,
   4683705, 4691641, 4699592, 4707555, 4715532, 4723523, 4731527, 4739544, 4747576, 4755620, 4763679, 4771751, 4779837, 4787936, 4796050, 4804176,
   4812317, 4820472, 4828640, 4836823, 4845018, 4853228, 4861452, 4869690, 4877942, 4886208, 4894487, 4902781, 4911089, 4919411, 4927747, 4936097,
   4944461, 4952840, 4961232, 4969639, 4978060, 4986495, 4994946, 5003409, 5011888, 5020380, 5028888, 5037409, 5045945, 5054495, 5063060, 5071640,
   5080234, 5088842, 5097466, 5106103, 5114757, 5123424, 5132105, 5140801, 5149513, 5158238, 5166979, 5175735, 5184505, 5193290, 5202091, 5210906,
   5219736, 5228580, 5237440, 5246315, 5255205, 5264110, 5273030, 5281966, 5290916, 5299881, 5308862, 5317858, 5326869, 5335896, 5344937, 5353994,
   5363067, 5372155, 5381258, 5390377, 5399511, 5408660, 5417825, 5427006, 5436202, 5445414, 5454641, 5463884, 5473143, 5482417, 5491707, 5501013,
   5510334, 5519671, 5529025, 5538394, 5547779, 5557179, 5566596, 5576029, 5585477, 5594942, 5604423, 5613920, 5623433, 5632962, 5642507, 5652068]

/-- Entries 1024 to 1151: math_tables.cc:604-618. -/
def exp58 : List Int :=
  [5661645, 5671239, 5680849, 5690475, 5700118, 5709777, 5719452, 5729144, 5738852, 5748577, 5758318, 5768075, 5777849, 5787640, 5797447, 5807271,
   5817111, 5826969, 5836843, 5846733, 5856641, 5866565, 5876506, 5886464, 5896438, 5906430, 5916439, 5926464, 5936506, 5946566, 5956643, 5966736,
   5976847, 5986975, 5997120, 6007282, 6017461, 6027658, 6037872, 6048103, 6058352, 6068618, 6078901, 6089202, 6099520, 6109856, 6120209, 6130580,
   6140968, 6151374, 6161798, 6172239, 6182698, 6193175, 6203669, 6214181, 6224711, 6235259, 6245825, 6256409, 6267010, 6277630, 6288267, 6298923,
   6309597, 6320288, 6330998, 6341726, 6352472, 6363236, 6374019, 6384820, 6395639, 6406476, 6417332, 6428206, 6439099, 6450010, 6460940, 6471888,
   6482855, 6493840, 6504844, 6515867, 6526908, 6537968, 6549047, 6560144, 6571260, 6582395, 6593549, 6604722, 6615914, 6627125, 6638354, 6649603,
   6660871, 6672158, 6683464, 6694789, 6706134, 6717497, 6728880, 6740283, 6751704, 6763145, 6774605, 6786085, 6797584, 6809103, 6820641, 6832198,
   6843775, 6855372, 6866989, 6878625, 6890281, 6901957, 6913652, 6925367, 6937103, 6948858, 6960632, 6972427, 6984242, 6996077, 7007932, 7019807]

/-- Entries 1152 to 1279: math_tables.cc:619-633. -/
def exp59 : List Int :=
  [7031703, 7043618, 7055553, 7067509, 7079485, 7091481, 7103498, 7115535, 7127592, 7139670, 7151768, 7163887, 7176026, 7188186, 7200366, 7212568,
   7224790, 7237032, 7249295, 7261580, 7273884, 7286210, 7298556, 7310924, 7323313, 7335722, 7348153, 7360604, 7373076, 7385571, 7398086, 7410622,
   7423179, 7435758, 7448358, 7460979, 7473622, 7486286, 7498971, 7511679, 7524407, 7537158, 7549929, 7562723, 7575538, 7588375, 7601233, 7614114,
   7627016, 7639940, 7652886, 7665854, 7678844, 7691856, 7704890, 7717946, 7731024, 7744124, 7757247, 7770391, 7783559, 7796748, 7809960, 7823194,
   7836450, 7849729, 7863031, 7876355, 7889701, 7903070, 7916462, 7929877, 7943314, 7956774, 7970257, 7983763, 7997292, 8010843, 8024418, 8038015,
   8051636, 8065279, 8078946, 8092636, 8106349, 8120085, 8133844, 8147628, 8161434, 8175263, 8189116, 8202993, 8216893, 8230817, 8244764, 8258735,
   8272730, 8286748, 8300790, 8314856, 8328945, 8343059, 8357197, 8371358, 8385543, 8399753, 8413986, 8428244, 8442526, 8456831, 8471162, 8485517,
   8499895, 8514298, 8528726, 8543178, 8557654, 8572155, 8586681, 8601232, 8615807, 8630405, 8645030, 8659679, 8674354, 8689052, 8703775, 8718525]

/-- Entries 1280 to 1407: math_tables.cc:633-647. -/
def exp510 : List Int :=
  [8733298, 8748096, 8762920, 8777769, 8792644, 8807543, 8822468, 8837418, 8852392, 8867393, 8882419, 8897470, 8912547, 8927649, 8942778, 8957932,
   8973110, 8988316, 9003547, 9018803, 9034085, 9049394, 9064728, 9080089, 9095475, 9110888, 9126326, 9141790, 9157281, 9172798, 9188342, 9203912,
   9219508, 9235130, 9250779, 9266455, 9282157, 9297886, 9313642, 9329424, 9345232, 9361068, 9376930, 9392819, 9408736, 9424679, 9440649, 9456647,
   9472672, 9488723, 9504802, 9520907, 9537041, 9553202, 9569389, 9585605, 9601848, 9618118, 9634417, 9650743, 9667095, 9683476, 9699885, 9716322,
   9732786, 9749279, 9765799, 9782348, 9798923, 9815530, 9832162, 9848823, 9865512, 9882229, 9898974, 9915749, 9932551, 9949382, 9966241, 9983130,
   10000046, 10016991, 10033965, 10050967, 10067999, 10085059, 10102149, 10119267, 10136415, 10153590, 10170796, 10188030, 10205295, 10222588, 10239909, 10257261,
   10274642, 10292053, 10309493, 10326962, 10344461, 10361991, 10379549, 10397138, 10414756, 10432404, 10450081, 10467789, 10485527, 10503295, 10521092, 10538921,
   10556779, 10574668, 10592587, 10610536, 10628516, 10646526, 10664567, 10682638, 10700740, 10718872, 10737036, 10755230, 10773455, 10791710, 10809997, 10828315]

/-- Entries 1408 to 1535: math_tables.cc:647-661. -/
def exp511 : List Int :=
  [10846663, 10865044, 10883454, 10901896, 10920370, 10938874, 10957411, 10975978, 10994577, 11013207, 11031870, 11050563, 11069288, 11088046, 11106834, 11125655,
   11144507, 11163392, 11182309, 11201258, 11220238, 11239251, 11258296, 11277373, 11296483, 11315625, 11334800, 11354007, 11373246, 11392518, 11411823, 11431161,
   11450531, 11469934, 11489369, 11508839, 11528340, 11547875, 11567444, 11587045, 11606679, 11626347, 11646048, 11665782, 11685550, 11705352, 11725186, 11745055,
   11764957, 11784893, 11804863, 11824866, 11844903, 11864975, 11885080, 11905220, 11925393, 11945601, 11965843, 11986119, 12006430, 12026775, 12047154, 12067569,
   12088017, 12108500, 12129019, 12149571, 12170159, 12190782, 12211439, 12232131, 12252859, 12273622, 12294419, 12315252, 12336121, 12357024, 12377964, 12398938,
   12419949, 12440994, 12462076, 12483192, 12504346, 12525535, 12546760, 12568020, 12589316, 12610649, 12632018, 12653423, 12674865, 12696342, 12717856, 12739408,
   12760995, 12782619, 12804278, 12825975, 12847710, 12869480, 12891288, 12913132, 12935014, 12956932, 12978888, 13000880, 13022911, 13044978, 13067083, 13089226,
   13111405, 13133623, 13155878, 13178171, 13200501, 13222870, 13245276, 13267720, 13290203, 13312723, 13335282, 13357879, 13380514, 13403188, 13425900, 13448649]

/-- Entries 1536 to 1663: math_tables.cc:661-675. -/
def exp512 : List Int :=
  [13471438, 13494267, 13517133, 13540037, 13562981, 13585963, 13608985, 13632046, 13655146, 13678285, 13701463, 13724680, 13747936, 13771233, 13794568, 13817944,
   13841358, 13864812, 13888307, 13911840, 13935414, 13959028, 13982681, 14006375, 14030109, 14053884, 14077699, 14101553, 14125448, 14149384, 14173361, 14197377,
   14221436, 14245534, 14269672, 14293853, 14318074, 14342337, 14366639, 14390985, 14415370, 14439796, 14464265, 14488775, 14513327, 14537920, 14562554, 14587231,
   14611949, 14636709, 14661511, 14686356, 14711242, 14736170, 14761141, 14786154, 14811209, 14836307, 14861447, 14886630, 14911856, 14937124, 14962436, 14987789,
   15013186, 15038627, 15064110, 15089636, 15115206, 15140819, 15166475, 15192175, 15217918, 15243705, 15269536, 15295410, 15321328, 15347291, 15373297, 15399347,
   15425442, 15451580, 15477763, 15503990, 15530262, 15556579, 15582939, 15609344, 15635795, 15662290, 15688830, 15715415, 15742044, 15768720, 15795441, 15822206,
   15849017, 15875874, 15902775, 15929723, 15956716, 15983755, 16010839, 16037973, 16065147, 16092371, 16119638, 16146955, 16174314, 16201725, 16229176, 16256680,
   16284224, 16311821, 16339458, 16367147, 16394880, 16422665, 16450489, 16478369, 16506289, 16534262, 16562275, 16590343, 16618454, 16646616, 16674822, 16703079]

/-- Entries 1664 to 1791: math_tables.cc:675-690. -/
def exp513 : List Int :=
  [16731380, 16759735, 16788132, 16816582, 16845076, 16873623, 16902212, 16930857, 16959543, 16988283, 17017069, 17045906, 17074789, 17103724, 17132704, 17161739,
   17190817, 17219950, 17249126, 17278358, 17307634, 17336964, 17366339, 17395769, 17425243, 17454775, 17484348, 17513979, 17543653, 17573385, 17603161, 17632992,
   17662868, 17692801, 17722778, 17752813, 17782892, 17813028, 17843210, 17873449, 17903732, 17934074, 17964460, 17994905, 18025394, 18055943, 18086535, 18117186,
   18147882, 18178637, 18209438, 18240297, 18271202, 18302166, 18333178, 18364246, 18395361, 18426535, 18457756, 18489037, 18520363, 18551750, 18583183, 18614676,
   18646215, 18677814, 18709461, 18741167, 18772921, 18804735, 18836597, 18868519, 18900490, 18932520, 18964598, 18996737, 19028923, 19061172, 19093468, 19125826,
   19158232, 19190699, 19223213, 19255791, 19288418, 19321104, 19353842, 19386641, 19419487, 19452398, 19485357, 19518379, 19551449, 19584583, 19617765, 19651012,
   19684307, 19717667, 19751074, 19784546, 19818068, 19851654, 19885288, 19918989, 19952738, 19986551, 20020416, 20054344, 20088324, 20122366, 20156460, 20190619,
   20224829, 20259104, 20293430, 20327820, 20362263, 20396770, 20431330, 20465954, 20500631, 20535374, 20570168, 20605026, 20639938, 20674917, 20709948, 20745045]

/-- Entries 1792 to 1919: math_tables.cc:690-704. -/
def exp514 : List Int :=
  [20780193, 20815409, 20850677, 20886013, 20921402, 20956856, 20992365, 21027941, 21063568, 21099264, 21135014, 21170832, 21206701, 21242640, 21278633, 21314693,
   21350807, 21386992, 21423227, 21459534, 21495893, 21532322, 21568806, 21605358, 21641964, 21678640, 21715372, 21752172, 21789028, 21825953, 21862934, 21899984,
   21937092, 21974268, 22011499, 22048801, 22086161, 22123589, 22161074, 22198629, 22236242, 22273926, 22311666, 22349476, 22387344, 22425283, 22463280, 22501348,
   22539473, 22577671, 22615925, 22654251, 22692636, 22731092, 22769608, 22808195, 22846840, 22885557, 22924334, 22963182, 23002090, 23041071, 23080111, 23119225,
   23158398, 23197643, 23236948, 23276327, 23315765, 23355278, 23394850, 23434496, 23474203, 23513985, 23553825, 23593740, 23633717, 23673769, 23713881, 23754068,
   23794315, 23834639, 23875023, 23915483, 23956005, 23996603, 24037262, 24077997, 24118793, 24159668, 24200602, 24241615, 24282688, 24323839, 24365053, 24406343,
   24447697, 24489128, 24530621, 24572191, 24613827, 24655539, 24697313, 24739168, 24781084, 24823080, 24865139, 24907278, 24949480, 24991760, 25034105, 25076530,
   25119019, 25161587, 25204220, 25246933, 25289711, 25332567, 25375490, 25418493, 25461561, 25504711, 25547924, 25591221, 25634581, 25678022, 25721531, 25765120]

/-- Entries 1920 to 2047: math_tables.cc:704-718. -/
def exp515 : List Int :=
  [25808775, 25852512, 25896317, 25940203, 25984154, 26028189, 26072289, 26116474, 26160732, 26205057, 26249468, 26293943, 26338503, 26383129, 26427841, 26472618,
   26517481, 26562410, 26607426, 26652508, 26697676, 26742910, 26788231, 26833620, 26879093, 26924637, 26970264, 27015963, 27061747, 27107597, 27153536, 27199545,
   27245638, 27291801, 27338053, 27384373, 27430780, 27477259, 27523823, 27570457, 27617182, 27663975, 27710855, 27757809, 27804848, 27851959, 27899160, 27946430,
   27993792, 28041222, 28088743, 28136335, 28184017, 28231771, 28279615, 28327530, 28375536, 28423615, 28471783, 28520025, 28568357, 28616762, 28665258, 28713827,
   28762487, 28811220, 28860046, 28908945, 28957937, 29007002, 29056160, 29105391, 29154715, 29204113, 29253605, 29303171, 29352831, 29402565, 29452393, 29502295,
   29552292, 29602364, 29652531, 29702772, 29753109, 29803520, 29854029, 29904612, 29955290, 30006044, 30056896, 30107822, 30158846, 30209946, 30261141, 30312414,
   30363785, 30415232, 30466776, 30518396, 30570116, 30621912, 30673805, 30725779, 30777849, 30829996, 30882244, 30934568, 30986994, 31039495, 31092098, 31144779,
   31197559, 31250420, 31303379, 31356417, 31409555, 31462774, 31516094, 31569494, 31622993, 31676575, 31730255, 31784018, 31837881, 31891827, 31945873, 32000000]

/-- `exp5Table`: math_tables.cc:490-719. -/
def exp5Data : List Int :=
  exp50 ++ exp51 ++ exp52 ++ exp53 ++ exp54 ++ exp55 ++ exp56 ++ exp57 ++ exp58 ++ exp59 ++ exp510 ++ exp511 ++ exp512 ++ exp513 ++ exp514 ++ exp515

end MathTables
