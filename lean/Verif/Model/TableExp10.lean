/-! The exp10Table of util/math_tables.cc, lines 721-976, in millionths: generated from the source text, entry by entry. The rounding of the decimal literals to binary32 is not modelled. -/

namespace MathTables

/-- Entries 0 to 127: math_tables.cc:721-736. -/
def exp100 : List Int :=
  [1000000, 1003392, 1006795, 1010210, 1013637, 1017075, 1020525, 1023986, 1027460, 1030945, 1034441, 1037950, 1041471, 1045003, 1048548, 1052104,
   1055673, 1059254, 1062847, 1066452, 1070069, 1073699, 1077341, 1080995, 1084661, 1088341, 1092032, 1095736, 1099453, 1103182, 1106924, 1110678,
   1114446, 1118226, 1122019, 1125824, 1129643, 1133475, 1137319, 1141177, 1145048, 1148932, 1152829, 1156739, 1160663, 1164600, 1168550, 1172513,
   1176490, 1180481, 1184485, 1188503, 1192534, 1196579, 1200638, 1204710, 1208796, 1212896, 1217010, 1221138, 1225280, 1229436, 1233606, 1237791,
   1241989, 1246202, 1250429, 1254670, 1258926, 1263196, 1267481, 1271780, 1276094, 1280422, 1284765, 1289123, 1293496, 1297883, 1302285, 1306702,
   1311135, 1315582, 1320044, 1324522, 1329014, 1333522, 1338045, 1342584, 1347138, 1351707, 1356292, 1360892, 1365508, 1370140, 1374787, 1379451,
   1384130, 1388824, 1393535, 1398262, 1403005, 1407763, 1412539, 1417330, 1422137, 1426961, 1431801, 1436658, 1441530, 1446420, 1451326, 1456249,
   1461188, 1466145, 1471118, 1476107, 1481114, 1486138, 1491179, 1496237, 1501312, 1506404, 1511514, 1516641, 1521785, 1526947, 1532126, 1537323]

/-- Entries 128 to 255: math_tables.cc:737-752. -/
def exp101 : List Int :=
  [1542537, 1547769, 1553019, 1558287, 1563573, 1568876, 1574198, 1579537, 1584895, 1590270, 1595665, 1601077, 1606508, 1611957, 1617424, 1622910,
   1628415, 1633939, 1639481, 1645042, 1650621, 1656220, 1661838, 1667475, 1673131, 1678806, 1684500, 1690214, 1695947, 1701699, 1707471, 1713263,
   1719074, 1724905, 1730756, 1736626, 1742517, 1748427, 1754358, 1760308, 1766279, 1772270, 1778281, 1784313, 1790365, 1796438, 1802531, 1808645,
   1814780, 1820936, 1827112, 1833310, 1839528, 1845767, 1852028, 1858310, 1864613, 1870938, 1877284, 1883651, 1890041, 1896451, 1902884, 1909338,
   1915815, 1922313, 1928833, 1935376, 1941940, 1948527, 1955136, 1961768, 1968422, 1975099, 1981798, 1988520, 1995265, 2002033, 2008823, 2015637,
   2022474, 2029334, 2036217, 2043124, 2050054, 2057008, 2063985, 2070986, 2078010, 2085059, 2092131, 2099227, 2106348, 2113492, 2120661, 2127854,
   2135071, 2142313, 2149580, 2156871, 2164187, 2171528, 2178893, 2186284, 2193699, 2201140, 2208606, 2216098, 2223614, 2231157, 2238724, 2246318,
   2253937, 2261583, 2269254, 2276951, 2284674, 2292423, 2300199, 2308001, 2315830, 2323685, 2331566, 2339475, 2347410, 2355372, 2363362, 2371378]

/-- Entries 256 to 383: math_tables.cc:753-768. -/
def exp102 : List Int :=
  [2379421, 2387492, 2395590, 2403716, 2411869, 2420050, 2428258, 2436495, 2444759, 2453051, 2461372, 2469721, 2478098, 2486503, 2494937, 2503400,
   2511891, 2520411, 2528960, 2537538, 2546145, 2554781, 2563447, 2572142, 2580866, 2589620, 2598404, 2607218, 2616061, 2624934, 2633838, 2642772,
   2651736, 2660730, 2669755, 2678811, 2687897, 2697014, 2706162, 2715341, 2724551, 2733793, 2743065, 2752369, 2761705, 2771073, 2780472, 2789903,
   2799366, 2808861, 2818389, 2827948, 2837540, 2847165, 2856822, 2866512, 2876235, 2885991, 2895780, 2905602, 2915458, 2925347, 2935269, 2945225,
   2955215, 2965239, 2975297, 2985389, 2995515, 3005676, 3015871, 3026100, 3036364, 3046663, 3056997, 3067366, 3077770, 3088210, 3098685, 3109195,
   3119741, 3130323, 3140941, 3151595, 3162285, 3173011, 3183774, 3194573, 3205408, 3216281, 3227190, 3238136, 3249120, 3260140, 3271199, 3282294,
   3293427, 3304598, 3315807, 3327054, 3338339, 3349662, 3361024, 3372424, 3383863, 3395341, 3406858, 3418413, 3430008, 3441643, 3453316, 3465029,
   3476783, 3488575, 3500408, 3512281, 3524195, 3536149, 3548143, 3560178, 3572253, 3584370, 3596528, 3608727, 3620967, 3633250, 3645573, 3657938]

/-- Entries 384 to 511: math_tables.cc:769-784. -/
def exp103 : List Int :=
  [3670346, 3682795, 3695287, 3707821, 3720397, 3733017, 3745679, 3758384, 3771132, 3783923, 3796758, 3809636, 3822558, 3835524, 3848533, 3861587,
   3874685, 3887828, 3901015, 3914247, 3927524, 3940845, 3954212, 3967625, 3981082, 3994586, 4008135, 4021730, 4035372, 4049059, 4062793, 4076574,
   4090401, 4104275, 4118196, 4132165, 4146181, 4160244, 4174356, 4188515, 4202722, 4216977, 4231280, 4245632, 4260033, 4274483, 4288981, 4303529,
   4318126, 4332773, 4347469, 4362216, 4377012, 4391858, 4406755, 4421702, 4436700, 4451749, 4466849, 4482000, 4497202, 4512456, 4527762, 4543120,
   4558530, 4573992, 4589506, 4605073, 4620694, 4636366, 4652092, 4667872, 4683705, 4699592, 4715532, 4731527, 4747576, 4763679, 4779837, 4796050,
   4812317, 4828640, 4845018, 4861452, 4877942, 4894487, 4911089, 4927747, 4944461, 4961232, 4978060, 4994946, 5011888, 5028888, 5045945, 5063060,
   5080234, 5097466, 5114757, 5132105, 5149513, 5166979, 5184505, 5202091, 5219736, 5237440, 5255205, 5273030, 5290916, 5308862, 5326869, 5344937,
   5363067, 5381258, 5399511, 5417825, 5436202, 5454641, 5473143, 5491707, 5510334, 5529025, 5547779, 5566596, 5585477, 5604423, 5623433, 5642507]

/-- Entries 512 to 639: math_tables.cc:785-800. -/
def exp104 : List Int :=
  [5661645, 5680849, 5700118, 5719452, 5738852, 5758318, 5777849, 5797447, 5817111, 5836843, 5856641, 5876506, 5896438, 5916439, 5936506, 5956643,
   5976847, 5997120, 6017461, 6037872, 6058352, 6078901, 6099520, 6120209, 6140968, 6161798, 6182698, 6203669, 6224711, 6245825, 6267010, 6288267,
   6309597, 6330998, 6352472, 6374019, 6395639, 6417332, 6439099, 6460940, 6482855, 6504844, 6526908, 6549047, 6571260, 6593549, 6615914, 6638354,
   6660871, 6683464, 6706134, 6728880, 6751704, 6774605, 6797584, 6820641, 6843775, 6866989, 6890281, 6913652, 6937103, 6960632, 6984242, 7007932,
   7031703, 7055553, 7079485, 7103498, 7127592, 7151768, 7176026, 7200366, 7224790, 7249295, 7273884, 7298556, 7323313, 7348153, 7373076, 7398086,
   7423179, 7448358, 7473622, 7498971, 7524407, 7549929, 7575538, 7601233, 7627016, 7652886, 7678844, 7704890, 7731024, 7757247, 7783559, 7809960,
   7836450, 7863031, 7889701, 7916462, 7943314, 7970257, 7997292, 8024418, 8051636, 8078946, 8106349, 8133844, 8161434, 8189116, 8216893, 8244764,
   8272730, 8300790, 8328945, 8357197, 8385543, 8413986, 8442526, 8471162, 8499895, 8528726, 8557654, 8586681, 8615807, 8645030, 8674354, 8703775]

/-- Entries 640 to 767: math_tables.cc:801-816. -/
def exp105 : List Int :=
  [8733298, 8762920, 8792644, 8822468, 8852392, 8882419, 8912547, 8942778, 8973110, 9003547, 9034085, 9064728, 9095475, 9126326, 9157281, 9188342,
   9219508, 9250779, 9282157, 9313642, 9345232, 9376930, 9408736, 9440649, 9472672, 9504802, 9537041, 9569389, 9601848, 9634417, 9667095, 9699885,
   9732786, 9765799, 9798923, 9832162, 9865512, 9898974, 9932551, 9966241, 10000046, 10033965, 10067999, 10102149, 10136415, 10170796, 10205295, 10239909,
   10274642, 10309493, 10344461, 10379549, 10414756, 10450081, 10485527, 10521092, 10556779, 10592587, 10628516, 10664567, 10700740, 10737036, 10773455, 10809997,
   10846663, 10883454, 10920370, 10957411, 10994577, 11031870, 11069288, 11106834, 11144507, 11182309, 11220238, 11258296, 11296483, 11334800, 11373246, 11411823,
   11450531, 11489369, 11528340, 11567444, 11606679, 11646048, 11685550, 11725186, 11764957, 11804863, 11844903, 11885080, 11925393, 11965843, 12006430, 12047154,
   12088017, 12129019, 12170159, 12211439, 12252859, 12294419, 12336121, 12377964, 12419949, 12462076, 12504346, 12546760, 12589316, 12632018, 12674865, 12717856,
   12760995, 12804278, 12847710, 12891288, 12935014, 12978888, 13022911, 13067083, 13111405, 13155878, 13200501, 13245276, 13290203, 13335282, 13380514, 13425900]

/-- Entries 768 to 895: math_tables.cc:817-832. -/
def exp106 : List Int :=
  [13471438, 13517133, 13562981, 13608985, 13655146, 13701463, 13747936, 13794568, 13841358, 13888307, 13935414, 13982681, 14030109, 14077699, 14125448, 14173361,
   14221436, 14269672, 14318074, 14366639, 14415370, 14464265, 14513327, 14562554, 14611949, 14661511, 14711242, 14761141, 14811209, 14861447, 14911856, 14962436,
   15013186, 15064110, 15115206, 15166475, 15217918, 15269536, 15321328, 15373297, 15425442, 15477763, 15530262, 15582939, 15635795, 15688830, 15742044, 15795441,
   15849017, 15902775, 15956716, 16010839, 16065147, 16119638, 16174314, 16229176, 16284224, 16339458, 16394880, 16450489, 16506289, 16562275, 16618454, 16674822,
   16731380, 16788132, 16845076, 16902212, 16959543, 17017069, 17074789, 17132704, 17190817, 17249126, 17307634, 17366339, 17425243, 17484348, 17543653, 17603161,
   17662868, 17722778, 17782892, 17843210, 17903732, 17964460, 18025394, 18086535, 18147882, 18209438, 18271202, 18333178, 18395361, 18457756, 18520363, 18583183,
   18646215, 18709461, 18772921, 18836597, 18900490, 18964598, 19028923, 19093468, 19158232, 19223213, 19288418, 19353842, 19419487, 19485357, 19551449, 19617765,
   19684307, 19751074, 19818068, 19885288, 19952738, 20020416, 20088324, 20156460, 20224829, 20293430, 20362263, 20431330, 20500631, 20570168, 20639938, 20709948]

/-- Entries 896 to 1023: math_tables.cc:833-848. -/
def exp107 : List Int :=
  [20780193, 20850677, 20921402, 20992365, 21063568, 21135014, 21206701, 21278633, 21350807, 21423227, 21495893, 21568806, 21641964, 21715372, 21789028, 21862934,
   21937092, 22011499, 22086161, 22161074, 22236242, 22311666, 22387344, 22463280, 22539473, 22615925, 22692636, 22769608, 22846840, 22924334, 23002090, 23080111,
   23158398, 23236948, 23315765, 23394850, 23474203, 23553825, 23633717, 23713881, 23794315, 23875023, 23956005, 24037262, 24118793, 24200602, 24282688, 24365053,
   24447697, 24530621, 24613827, 24697313, 24781084, 24865139, 24949480, 25034105, 25119019, 25204220, 25289711, 25375490, 25461561, 25547924, 25634581, 25721531,
   25808775, 25896317, 25984154, 26072289, 26160732, 26249468, 26338503, 26427841, 26517481, 26607426, 26697676, 26788231, 26879093, 26970264, 27061747, 27153536,
   27245638, 27338053, 27430780, 27523823, 27617182, 27710855, 27804848, 27899160, 27993792, 28088743, 28184017, 28279615, 28375536, 28471783, 28568357, 28665258,
   28762487, 28860046, 28957937, 29056160, 29154715, 29253605, 29352831, 29452393, 29552292, 29652531, 29753109, 29854029, 29955290, 30056896, 30158846, 30261141,
   30363785, 30466776, 30570116, 30673805, 30777849, 30882244, 30986994, 31092098, 31197559, 31303379, 31409555, 31516094, 31622993, 31730255, 31837881, 31945873]

/-- Entries 1024 to 1151: math_tables.cc:849-864. -/
def exp108 : List Int :=
  [32054230, 32162956, 32272049, 32381512, 32491348, 32601555, 32712135, 32823090, 32934425, 33046135, 33158222, 33270691, 33383545, 33496777, 33610394, 33724400,
   33838787, 33953568, 34068733, 34184292, 34300240, 34416584, 34533321, 34650455, 34767986, 34885914, 35004246, 35122974, 35242107, 35361645, 35481590, 35601940,
   35722698, 35843864, 35965443, 36087437, 36209839, 36332661, 36455898, 36579552, 36703625, 36828121, 36953037, 37078381, 37204147, 37330338, 37456959, 37584011,
   37711491, 37839405, 37967751, 38096535, 38225754, 38355412, 38485512, 38616051, 38747032, 38878456, 39010330, 39142647, 39275417, 39408634, 39542305, 39676426,
   39811005, 39946041, 40081535, 40217487, 40353901, 40490776, 40628117, 40765923, 40904198, 41042942, 41182156, 41321838, 41461998, 41602634, 41743748, 41885338,
   42027409, 42169960, 42312996, 42456520, 42600525, 42745022, 42890011, 43035488, 43181461, 43327927, 43474892, 43622353, 43770317, 43918781, 44067749, 44217224,
   44367203, 44517693, 44668694, 44820206, 44972229, 45124771, 45277828, 45431408, 45585506, 45740128, 45895275, 46050945, 46207146, 46363876, 46521137, 46678932,
   46837261, 46996132, 47155537, 47315483, 47475971, 47637005, 47798588, 47960716, 48123394, 48286621, 48450405, 48614746, 48779640, 48945095, 49111115, 49277695]

/-- Entries 1152 to 1279: math_tables.cc:865-880. -/
def exp109 : List Int :=
  [49444839, 49612549, 49780830, 49949684, 50119106, 50289104, 50459682, 50630836, 50802570, 50974888, 51147789, 51321278, 51495354, 51670021, 51845280, 52021133,
   52197586, 52374634, 52552284, 52730537, 52909393, 53088856, 53268929, 53449612, 53630905, 53812817, 53995346, 54178493, 54362259, 54546650, 54731667, 54917313,
   55103584, 55290493, 55478031, 55666206, 55855022, 56044476, 56234573, 56425316, 56616703, 56808743, 57001434, 57194775, 57388775, 57583431, 57778748, 57974728,
   58171371, 58368683, 58566666, 58765316, 58964645, 59164646, 59365326, 59566689, 59768730, 59971462, 60174877, 60378986, 60583786, 60789280, 60995472, 61202362,
   61409954, 61618248, 61827251, 62036964, 62247387, 62458523, 62670376, 62882950, 63096241, 63310257, 63525002, 63740471, 63956673, 64173607, 64391273, 64609688,
   64828835, 65048729, 65269363, 65490753, 65712891, 65935783, 66159431, 66383835, 66609001, 66834938, 67061630, 67289101, 67517334, 67746353, 67976135, 68206703,
   68438057, 68670189, 68903114, 69136826, 69371330, 69606636, 69842728, 70079628, 70317337, 70555840, 70795158, 71035294, 71276237, 71517998, 71760582, 72003983,
   72248215, 72493271, 72739166, 72985886, 73233452, 73481850, 73731094, 73981178, 74232117, 74483902, 74736549, 74990044, 75244408, 75499626, 75755714, 76012672]

/-- Entries 1280 to 1407: math_tables.cc:881-896. -/
def exp1010 : List Int :=
  [76270500, 76529198, 76788780, 77049240, 77310577, 77572807, 77835930, 78099945, 78364845, 78630653, 78897362, 79164970, 79433495, 79702927, 79973267, 80244530,
   80516708, 80789818, 81063843, 81338806, 81614700, 81891525, 82169296, 82448006, 82727661, 83008263, 83289825, 83572334, 83855804, 84140228, 84425629, 84711990,
   84999329, 85287636, 85576920, 85867188, 86158440, 86450684, 86743919, 87038139, 87333366, 87629593, 87926826, 88225060, 88524315, 88824577, 89125862, 89428169,
   89731499, 90035858, 90341255, 90647682, 90955147, 91263657, 91573219, 91883827, 92195488, 92508202, 92821983, 93136826, 93452736, 93769714, 94087776, 94406914,
   94727127, 95048439, 95370827, 95694321, 96018906, 96344620, 96671417, 96999313, 97328323, 97658455, 97989700, 98322075, 98655571, 98990204, 99325966, 99662872,
   100000916, 100340111, 100680450, 101021950, 101364609, 101708427, 102053413, 102399567, 102746895, 103095398, 103445091, 103795967, 104148033, 104501289, 104855751, 105211411,
   105568275, 105926353, 106285645, 106646156, 107007889, 107370850, 107735039, 108100464, 108467133, 108835037, 109204201, 109574608, 109946274, 110319199, 110693390, 111068855,
   111445587, 111823601, 112202896, 112583473, 112965347, 113348518, 113732979, 114118752, 114505829, 114894226, 115283936, 115674965, 116067322, 116461014, 116856033, 117252403]

/-- Entries 1408 to 1535: math_tables.cc:897-912. -/
def exp1011 : List Int :=
  [117650108, 118049164, 118449577, 118851349, 119254478, 119658974, 120064850, 120472099, 120880722, 121290741, 121702148, 122114952, 122529152, 122944756, 123361771, 123780205,
   124200050, 124621330, 125044029, 125468170, 125893745, 126320763, 126749229, 127179153, 127610527, 128043365, 128477676, 128913467, 129350723, 129789474, 130229706, 130671432,
   131114655, 131559387, 132005615, 132453369, 132902634, 133353424, 133805756, 134259613, 134714996, 135171936, 135630432, 136090469, 136552078, 137015259, 137479996, 137946320,
   138414215, 138883698, 139354782, 139827454, 140301743, 140777634, 141255127, 141734253, 142214996, 142697388, 143181396, 143667053, 144154358, 144643311, 145133926, 145626205,
   146120163, 146615784, 147113098, 147612091, 148112762, 148615158, 149119247, 149625046, 150132553, 150641785, 151152740, 151665436, 152179871, 152696060, 153213989, 153733673,
   154255127, 154778336, 155303329, 155830109, 156358658, 156889023, 157421173, 157955124, 158490891, 159028473, 159567886, 160109131, 160652206, 161197113, 161743881, 162292496,
   162842987, 163395325, 163949554, 164505646, 165063629, 165623520, 166185287, 166748978, 167314575, 167882080, 168451523, 169022903, 169596207, 170171463, 170748657, 171327820,
   171908951, 172492050, 173077133, 173664185, 174253235, 174844284, 175437347, 176032410, 176629486, 177228607, 177829742, 178432922, 179038147, 179645432, 180254776, 180866180]

/-- Entries 1536 to 1663: math_tables.cc:913-928. -/
def exp1012 : List Int :=
  [181479660, 182095215, 182712860, 183332611, 183954453, 184578415, 185204483, 185832672, 186462997, 187095459, 187730072, 188366837, 189005753, 189646851, 190290115, 190935562,
   191583191, 192233017, 192885056, 193539307, 194195770, 194854462, 195515381, 196178558, 196843979, 197511642, 198181595, 198853806, 199528290, 200205078, 200884155, 201565521,
   202249222, 202935226, 203623566, 204314240, 205007248, 205702606, 206400330, 207100418, 207802887, 208507736, 209214966, 209924606, 210636642, 211351105, 212067993, 212787308,
   213509064, 214233261, 214959915, 215689041, 216420639, 217154709, 217891281, 218630341, 219371918, 220115997, 220862610, 221611755, 222363449, 223117676, 223874466, 224633835,
   225395767, 226160278, 226927399, 227697113, 228469437, 229244385, 230021957, 230802170, 231585022, 232370544, 233158722, 233949570, 234743103, 235539322, 236338257, 237139893,
   237944244, 238751328, 239561142, 240373718, 241189041, 242007126, 242827988, 243651642, 244478088, 245307327, 246139389, 246974274, 247811981, 248652527, 249495941, 250342194,
   251191330, 252043350, 252898254, 253756058, 254616776, 255480408, 256346985, 257216553, 258088928, 258964417, 259842712, 260724182, 261608429, 262495880, 263386139, 264279602,
   265175934, 266075470, 266977875, 267883545, 268792084, 269703888, 270618591, 271536621, 272457550, 273381775, 274308960, 275239502, 276172974, 277109833, 278049652, 278992889]

/-- Entries 1664 to 1791: math_tables.cc:929-944. -/
def exp1013 : List Int :=
  [279939087, 280888702, 281841370, 282797455, 283756561, 284719147, 285684784, 286653900, 287626099, 288601776, 289580597, 290562927, 291548401, 292537384, 293529541, 294525269,
   295524170, 296526672, 297532349, 298541656, 299554169, 300570343, 301589722, 302612793, 303639130, 304669159, 305702454, 306739471, 307779785, 308823853, 309871246, 310922394,
   311976929, 313035217, 314096893, 315162384, 316231293, 317304016, 318380157, 319460175, 320543671, 321631012, 322721863, 323816589, 324914856, 326017029, 327122742, 328232422,
   329345642, 330462860, 331583649, 332708466, 333836853, 334969299, 336105377, 337245514, 338389313, 339537201, 340688782, 341844482, 343003845, 344167419, 345334686, 346506134,
   347681335, 348860748, 350043915, 351231354, 352422577, 353618073, 354817413, 356021027, 357228485, 358440308, 359655975, 360876007, 362099945, 363328278, 364560516, 365797211,
   367037811, 368282898, 369531952, 370785492, 372043030, 373305084, 374571198, 375841827, 377116516, 378395782, 379679138, 380967102, 382259155, 383555878, 384856720, 386162262,
   387471954, 388786346, 390104950, 391428284, 392755829, 394088135, 395424713, 396766083, 398111755, 399462250, 400817047, 402176697, 403540710, 404909607, 406282898, 407661102,
   409043701, 410431274, 411823303, 413220276, 414621765, 416028259, 417439240, 418855286, 420275848, 421701538, 423131775, 424567139, 426007080, 427452179, 428901917, 430356873]

/-- Entries 1792 to 1919: math_tables.cc:945-960. -/
def exp1014 : List Int :=
  [431816437, 433281250, 434750763, 436225555, 437705017, 439189819, 440679382, 442174255, 443673920, 445178955, 446688812, 448204102, 449724213, 451249786, 452780212, 454316162,
   455856995, 457403381, 458954681, 460511566, 462073425, 463640869, 465213348, 466791473, 468374634, 469963440, 471557373, 473157013, 474761749, 476372253, 477987885, 479609344,
   481235962, 482868439, 484506104, 486149658, 487798492, 489453217, 491113220, 492779175, 494450470, 496127777, 497810425, 499499115, 501193207, 502893372, 504598969, 506310669,
   508027863, 509751221, 511480072, 513215149, 514955750, 516702576, 518455017, 520213745, 521978088, 523748718, 525525085, 527307800, 529096191, 530890991, 532691528, 534498535,
   536311340, 538130615, 539955750, 541787415, 543624878, 545468994, 547319031, 549175659, 551038208, 552907471, 554782654, 556664612, 558552612, 560447327, 562348145, 564255737,
   566169434, 568090027, 570016724, 571950378, 573890198, 575836975, 577789917, 579749939, 581716187, 583689514, 585669128, 587655884, 589648926, 591649170, 593655762, 595669617,
   597689880, 599717346, 601751343, 603792603, 605840454, 607895569, 609957275, 612026428, 614102112, 616185303, 618275146, 620372498, 622476501, 624588135, 626706421, 628832397,
   630965088, 633105469, 635252686, 637407654, 639569458, 641739014, 643915527, 646099792, 648291077, 650490234, 652696472, 654910522, 657131714, 659360840, 661597107, 663841431]

/-- Entries 1920 to 2047: math_tables.cc:961-976. -/
def exp1015 : List Int :=
  [666092896, 668352417, 670619202, 672894104, 675176270, 677466614, 679764282, 682070190, 684383911, 686705078, 689034546, 691371460, 693716736, 696069519, 698430725, 700799500,
   703176819, 705561646, 707955078, 710356140, 712765869, 715183228, 717609314, 720043152, 722485718, 724936035, 727395203, 729862244, 732338074, 734821838, 737314514, 739815186,
   742324829, 744842468, 747369141, 749903870, 752447754, 754999695, 757560852, 760130188, 762708740, 765295471, 767891541, 770495911, 773109619, 775731689, 778363098, 781002991,
   783652344, 786310120, 788977478, 791653381, 794338806, 797032898, 799736633, 802448975, 805171082, 807901855, 810642456, 813391785, 816151001, 818919067, 821697021, 824483826,
   827280701, 830086487, 832902283, 835727173, 838562134, 841406189, 844260437, 847123779, 849997437, 852880249, 855773438, 858675842, 861588684, 864510803, 867443420, 870385437,
   873337952, 876299927, 879272583, 882254639, 885247498, 888249878, 891263000, 894285767, 897319397, 900362732, 903416992, 906480957, 909555969, 912640808, 915736694, 918842468,
   921959351, 925086243, 928224365, 931372498, 934531921, 937701477, 940882385, 944073425, 947275940, 950488708, 953713013, 956947571, 960193726, 963450317, 966718567, 969997253,
   973287720, 976588684, 979901489, 983224915, 986560242, 989906189, 993264221, 996632935, 1000013733, 1003405334, 1006809143, 1010223816, 1013650696, 1017088562, 1020538757, 1024000000]

/-- `exp10Table`: math_tables.cc:720-977. -/
def exp10Data : List Int :=
  exp100 ++ exp101 ++ exp102 ++ exp103 ++ exp104 ++ exp105 ++ exp106 ++ exp107 ++ exp108 ++ exp109 ++ exp1010 ++ exp1011 ++ exp1012 ++ exp1013 ++ exp1014 ++ exp1015

end MathTables
