/-! The pow9Table of util/math_tables.cc, lines 979-1183, in millionths: generated from the source text, entry by entry. The rounding of the decimal literals to binary32 is not modelled. -/

namespace MathTables

/-- Entries 0 to 127: math_tables.cc:979-991. -/
def pow90 : List Int :=
  [0, 0, 0, 0, 0, 0, 0, 0, 0, 0, 0, 0, 0, 0, 0, 0,
   0, 0, 0, 0, 0, 0, 0, 0, 0, 0, 0, 0, 0, 0, 0, 0,
   0, 0, 0, 0, 0, 0, 0, 0, 0, 0, 0, 0, 0, 0, 0, 0,
   0, 0, 0, 0, 0, 0, 0, 0, 0, 0, 0, 0, 0, 0, 0, 0,
   0, 0, 0, 0, 0, 0, 0, 0, 0, 0, 0, 0, 0, 0, 0, 0,
   0, 0, 0, 0, 0, 0, 0, 0, 0, 0, 0, 0, 0, 0, 0, 0,
   0, 0, 0, 0, 0, 0, 0, 0, 0, 0, 0, 0, 0, 0, 0, 0,
   0, 0, 0, 0, 0, 0, 0, 0, 0, 0, 0, 0, 0, 0, 0, 0]

/-- Entries 128 to 255: math_tables.cc:991-1004. -/
def pow91 : List Int :=
  [0, 0, 0, 0, 0, 0, 0, 0, 0, 0, 0, 0, 0, 0, 0, 0,
   0, 0, 0, 0, 0, 0, 0, 0, 0, 0, 0, 0, 0, 0, 0, 0,
   0, 0, 0, 0, 0, 0, 0, 0, 0, 0, 0, 0, 0, 0, 0, 0,
   0, 0, 0, 0, 0, 0, 0, 0, 0, 0, 0, 0, 0, 0, 0, 0,
   0, 0, 0, 0, 0, 0, 0, 0, 0, 0, 0, 0, 0, 0, 0, 0,
   0, 0, 0, 0, 0, 0, 0, 0, 0, 0, 0, 0, 0, 0, 0, 0,
   0, 0, 0, 0, 0, 0, 0, 0, 0, 0, 0, 0, 0, 0, 0, 0,
   0, 0, 0, 0, 0, 0, 0, 0, 0, 0, 0, 0, 0, 0, 0, 0]

/-- Entries 256 to 383: math_tables.cc:1004-1017. -/
def pow92 : List Int :=
  [0, 0, 0, 0, 0, 0, 0, 0, 0, 0, 0, 0, 0, 0, 0, 0,
   0, 0, 0, 0, 0, 0, 0, 0, 0, 0, 0, 0, 0, 0, 0, 0,
   0, 0, 0, 0, 0, 0, 0, 0, 0, 0, 0, 0, 0, 0, 0, 0,
   0, 0, 0, 0, 0, 0, 0, 0, 0, 0, 0, 0, 0, 0, 0, 0,
   0, 0, 0, 0, 0, 0, 0, 0, 0, 0, 0, 0, 0, 0, 0, 0,
   0, 0, 0, 0, 0, 0, 0, 0, 0, 0, 0, 0, 0, 0, 0, 0,
   0, 0, 0, 0, 0, 0, 0, 0, 0, 0, 0, 0, 0, 0, 0, 0,
   0, 0, 0, 0, 0, 0, 0, 0, 0, 0, 0, 0, 0, 0, 0, 0]

/-- Entries 384 to 511: math_tables.cc:1017-1030. -/
def pow93 : List Int :=
  [0, 0, 0, 0, 0, 0, 0, 0, 0, 0, 1, 1, 1, 1, 1, 1,
   1, 1, 1, 1, 1, 1, 1, 1, 1, 1, 1, 1, 1, 1, 1, 1,
   1, 1, 1, 1, 1, 1, 1, 1, 1, 1, 1, 1, 1, 1, 1, 1,
   1, 1, 1, 1, 1, 1, 1, 1, 1, 1, 1, 1, 1, 1, 2, 2,
   2, 2, 2, 2, 2, 2, 2, 2, 2, 2, 2, 2, 2, 2, 2, 2,
   2, 2, 2, 2, 2, 2, 2, 2, 2, 3, 3, 3, 3, 3, 3, 3,
   3, 3, 3, 3, 3, 3, 3, 3, 3, 3, 3, 3, 4, 4, 4, 4,
   4, 4, 4, 4, 4, 4, 4, 4, 4, 4, 5, 5, 5, 5, 5, 5]

/-- Entries 512 to 639: math_tables.cc:1030-1042. -/
def pow94 : List Int :=
  [5, 5, 5, 5, 5, 6, 6, 6, 6, 6, 6, 6, 6, 6, 6, 7,
   7, 7, 7, 7, 7, 7, 7, 7, 8, 8, 8, 8, 8, 8, 8, 8,
   9, 9, 9, 9, 9, 9, 9, 10, 10, 10, 10, 10, 10, 11, 11, 11,
   11, 11, 11, 12, 12, 12, 12, 12, 13, 13, 13, 13, 13, 14, 14, 14,
   14, 14, 15, 15, 15, 15, 16, 16, 16, 16, 17, 17, 17, 17, 18, 18,
   18, 18, 19, 19, 19, 20, 20, 20, 20, 21, 21, 21, 22, 22, 22, 23,
   23, 23, 24, 24, 24, 25, 25, 25, 26, 26, 26, 27, 27, 28, 28, 28,
   29, 29, 30, 30, 30, 31, 31, 32, 32, 33, 33, 34, 34, 35, 35, 36]

/-- Entries 640 to 767: math_tables.cc:1043-1055. -/
def pow95 : List Int :=
  [36, 37, 37, 38, 38, 39, 39, 40, 40, 41, 41, 42, 42, 43, 44, 44,
   45, 45, 46, 47, 47, 48, 48, 49, 50, 50, 51, 52, 53, 53, 54, 55,
   55, 56, 57, 58, 58, 59, 60, 61, 61, 62, 63, 64, 65, 65, 66, 67,
   68, 69, 70, 71, 72, 73, 73, 74, 75, 76, 77, 78, 79, 80, 81, 82,
   83, 84, 85, 87, 88, 89, 90, 91, 92, 93, 94, 96, 97, 98, 99, 100,
   102, 103, 104, 105, 107, 108, 109, 111, 112, 113, 115, 116, 117, 119, 120, 122,
   123, 125, 126, 128, 129, 131, 132, 134, 136, 137, 139, 140, 142, 144, 145, 147,
   149, 151, 152, 154, 156, 158, 160, 162, 163, 165, 167, 169, 171, 173, 175, 177]

/-- Entries 768 to 895: math_tables.cc:1055-1068. -/
def pow96 : List Int :=
  [179, 181, 183, 185, 188, 190, 192, 194, 196, 199, 201, 203, 205, 208, 210, 212,
   215, 217, 220, 222, 225, 227, 230, 232, 235, 238, 240, 243, 246, 248, 251, 254,
   257, 259, 262, 265, 268, 271, 274, 277, 280, 283, 286, 289, 293, 296, 299, 302,
   306, 309, 312, 316, 319, 322, 326, 329, 333, 336, 340, 344, 347, 351, 355, 359,
   362, 366, 370, 374, 378, 382, 386, 390, 394, 398, 403, 407, 411, 415, 420, 424,
   429, 433, 438, 442, 447, 451, 456, 461, 466, 470, 475, 480, 485, 490, 495, 500,
   505, 510, 516, 521, 526, 532, 537, 542, 548, 553, 559, 565, 570, 576, 582, 588,
   594, 600, 606, 612, 618, 624, 630, 637, 643, 649, 656, 662, 669, 676, 682, 689]

/-- Entries 896 to 1023: math_tables.cc:1068-1081. -/
def pow97 : List Int :=
  [696, 703, 710, 717, 724, 731, 738, 745, 752, 760, 767, 775, 782, 790, 797, 805,
   813, 821, 829, 837, 845, 853, 861, 870, 878, 886, 895, 904, 912, 921, 930, 939,
   948, 957, 966, 975, 984, 993, 1003, 1012, 1022, 1032, 1041, 1051, 1061, 1071, 1081, 1091,
   1101, 1112, 1122, 1133, 1143, 1154, 1164, 1175, 1186, 1197, 1208, 1220, 1231, 1242, 1254, 1265,
   1277, 1289, 1300, 1312, 1324, 1337, 1349, 1361, 1374, 1386, 1399, 1412, 1424, 1437, 1450, 1464,
   1477, 1490, 1504, 1517, 1531, 1545, 1559, 1573, 1587, 1601, 1615, 1630, 1644, 1659, 1674, 1689,
   1704, 1719, 1734, 1750, 1765, 1781, 1797, 1813, 1829, 1845, 1861, 1878, 1894, 1911, 1928, 1945,
   1962, 1979, 1996, 2014, 2031, 2049, 2067, 2085, 2103, 2121, 2140, 2158, 2177, 2196, 2215, 2234]

/-- Entries 1024 to 1151: math_tables.cc:1081-1094. -/
def pow98 : List Int :=
  [2253, 2273, 2292, 2312, 2332, 2352, 2372, 2392, 2413, 2434, 2454, 2475, 2496, 2518, 2539, 2561,
   2583, 2605, 2627, 2649, 2671, 2694, 2717, 2740, 2763, 2786, 2809, 2833, 2857, 2881, 2905, 2929,
   2954, 2979, 3004, 3029, 3054, 3079, 3105, 3131, 3157, 3183, 3209, 3236, 3263, 3290, 3317, 3344,
   3372, 3400, 3428, 3456, 3484, 3513, 3542, 3571, 3600, 3629, 3659, 3689, 3719, 3749, 3780, 3811,
   3841, 3873, 3904, 3936, 3968, 4000, 4032, 4064, 4097, 4130, 4164, 4197, 4231, 4265, 4299, 4333,
   4368, 4403, 4438, 4474, 4509, 4545, 4581, 4618, 4655, 4692, 4729, 4766, 4804, 4842, 4880, 4919,
   4958, 4997, 5036, 5076, 5116, 5156, 5196, 5237, 5278, 5319, 5361, 5403, 5445, 5488, 5530, 5573,
   5617, 5661, 5704, 5749, 5793, 5838, 5883, 5929, 5975, 6021, 6067, 6114, 6161, 6208, 6256, 6304]

/-- Entries 1152 to 1279: math_tables.cc:1094-1106. -/
def pow99 : List Int :=
  [6352, 6401, 6450, 6500, 6549, 6599, 6650, 6700, 6751, 6803, 6855, 6907, 6959, 7012, 7065, 7118,
   7172, 7227, 7281, 7336, 7391, 7447, 7503, 7560, 7616, 7674, 7731, 7789, 7847, 7906, 7965, 8025,
   8085, 8145, 8206, 8267, 8328, 8390, 8452, 8515, 8578, 8642, 8706, 8770, 8835, 8900, 8966, 9032,
   9098, 9165, 9233, 9300, 9369, 9437, 9506, 9576, 9646, 9717, 9788, 9859, 9931, 10003, 10076, 10149,
   10223, 10297, 10372, 10447, 10523, 10599, 10676, 10753, 10830, 10908, 10987, 11066, 11146, 11226, 11306, 11388,
   11469, 11551, 11634, 11717, 11801, 11885, 11970, 12056, 12142, 12228, 12315, 12402, 12491, 12579, 12668, 12758,
   12848, 12939, 13031, 13123, 13215, 13309, 13402, 13497, 13592, 13687, 13783, 13880, 13977, 14075, 14174, 14273,
   14373, 14473, 14574, 14676, 14778, 14881, 14984, 15088, 15193, 15299, 15405, 15511, 15619, 15727, 15836, 15945]

/-- Entries 1280 to 1407: math_tables.cc:1107-1119. -/
def pow910 : List Int :=
  [16055, 16166, 16277, 16389, 16502, 16615, 16730, 16844, 16960, 17076, 17193, 17311, 17429, 17548, 17668, 17788,
   17910, 18032, 18154, 18278, 18402, 18527, 18653, 18779, 18906, 19034, 19163, 19292, 19423, 19554, 19686, 19818,
   19952, 20086, 20221, 20357, 20493, 20631, 20769, 20908, 21048, 21189, 21330, 21473, 21616, 21760, 21905, 22051,
   22198, 22345, 22494, 22643, 22793, 22944, 23096, 23249, 23402, 23557, 23712, 23869, 24026, 24184, 24344, 24504,
   24665, 24827, 24990, 25153, 25318, 25484, 25651, 25818, 25987, 26157, 26327, 26499, 26672, 26845, 27020, 27195,
   27372, 27550, 27728, 27908, 28089, 28270, 28453, 28637, 28822, 29008, 29195, 29383, 29572, 29762, 29953, 30146,
   30339, 30534, 30730, 30926, 31124, 31323, 31523, 31725, 31927, 32131, 32335, 32541, 32748, 32957, 33166, 33377,
   33588, 33801, 34015, 34231, 34447, 34665, 34884, 35104, 35326, 35548, 35772, 35997, 36224, 36451, 36680, 36911]

/-- Entries 1408 to 1535: math_tables.cc:1119-1132. -/
def pow911 : List Int :=
  [37142, 37375, 37609, 37844, 38081, 38319, 38558, 38799, 39041, 39284, 39529, 39775, 40022, 40271, 40521, 40772,
   41025, 41279, 41535, 41792, 42051, 42310, 42572, 42834, 43098, 43364, 43631, 43900, 44169, 44441, 44714, 44988,
   45264, 45541, 45820, 46101, 46383, 46666, 46951, 47237, 47525, 47815, 48106, 48399, 48693, 48989, 49287, 49586,
   49887, 50189, 50493, 50798, 51106, 51414, 51725, 52037, 52351, 52666, 52984, 53303, 53623, 53945, 54269, 54595,
   54923, 55252, 55583, 55916, 56250, 56586, 56924, 57264, 57606, 57949, 58294, 58642, 58990, 59341, 59694, 60048,
   60404, 60763, 61123, 61485, 61848, 62214, 62582, 62951, 63323, 63696, 64072, 64449, 64829, 65210, 65593, 65978,
   66366, 66755, 67146, 67540, 67935, 68333, 68732, 69134, 69537, 69943, 70351, 70761, 71173, 71587, 72004, 72422,
   72843, 73266, 73691, 74118, 74547, 74979, 75412, 75848, 76287, 76727, 77170, 77615, 78062, 78512, 78963, 79418]

/-- Entries 1536 to 1663: math_tables.cc:1132-1145. -/
def pow912 : List Int :=
  [79874, 80333, 80794, 81257, 81723, 82191, 82662, 83135, 83610, 84088, 84568, 85051, 85536, 86023, 86513, 87006,
   87500, 87998, 88498, 89000, 89505, 90012, 90522, 91035, 91550, 92068, 92588, 93111, 93637, 94165, 94696, 95229,
   95765, 96304, 96846, 97390, 97937, 98486, 99039, 99594, 100152, 100712, 101276, 101842, 102411, 102982, 103557, 104135,
   104715, 105298, 105884, 106473, 107065, 107660, 108257, 108858, 109462, 110068, 110678, 111290, 111906, 112524, 113146, 113770,
   114398, 115029, 115663, 116300, 116940, 117583, 118229, 118878, 119531, 120187, 120846, 121508, 122173, 122842, 123513, 124188,
   124867, 125548, 126233, 126922, 127613, 128308, 129006, 129708, 130413, 131121, 131833, 132548, 133267, 133989, 134714, 135443,
   136176, 136912, 137652, 138395, 139141, 139891, 140645, 141403, 142164, 142928, 143697, 144469, 145244, 146024, 146807, 147593,
   148384, 149178, 149976, 150778, 151583, 152393, 153206, 154023, 154844, 155669, 156497, 157330, 158166, 159007, 159851, 160700]

/-- Entries 1664 to 1791: math_tables.cc:1145-1158. -/
def pow913 : List Int :=
  [161552, 162408, 163269, 164133, 165002, 165874, 166751, 167632, 168516, 169405, 170299, 171196, 172097, 173003, 173913, 174827,
   175746, 176668, 177595, 178527, 179462, 180402, 181347, 182295, 183248, 184206, 185168, 186134, 187105, 188081, 189061, 190045,
   191034, 192027, 193025, 194028, 195035, 196047, 197064, 198085, 199111, 200142, 201177, 202217, 203262, 204312, 205366, 206425,
   207489, 208558, 209632, 210711, 211795, 212883, 213977, 215075, 216179, 217287, 218401, 219520, 220643, 221772, 222906, 224045,
   225189, 226339, 227493, 228653, 229818, 230988, 232164, 233345, 234531, 235723, 236920, 238122, 239330, 240543, 241761, 242985,
   244215, 245450, 246690, 247936, 249188, 250445, 251708, 252977, 254251, 255531, 256817, 258108, 259405, 260708, 262017, 263331,
   264651, 265978, 267310, 268648, 269992, 271342, 272697, 274059, 275427, 276801, 278181, 279567, 280959, 282358, 283762, 285173,
   286590, 288013, 289443, 290878, 292320, 293769, 295223, 296684, 298152, 299626, 301106, 302593, 304086, 305586, 307093, 308606]

/-- Entries 1792 to 1919: math_tables.cc:1158-1170. -/
def pow914 : List Int :=
  [310126, 311652, 313185, 314724, 316271, 317824, 319383, 320950, 322523, 324104, 325691, 327285, 328885, 330493, 332108, 333730,
   335358, 336994, 338637, 340287, 341944, 343608, 345280, 346958, 348644, 350337, 352038, 353745, 355460, 357183, 358913, 360650,
   362395, 364147, 365906, 367673, 369448, 371231, 373020, 374818, 376623, 378436, 380257, 382085, 383922, 385766, 387618, 389477,
   391345, 393221, 395104, 396996, 398896, 400803, 402719, 404643, 406575, 408515, 410463, 412420, 414385, 416358, 418339, 420329,
   422327, 424334, 426349, 428373, 430405, 432445, 434494, 436552, 438619, 440694, 442777, 444870, 446971, 449081, 451200, 453328,
   455464, 457610, 459764, 461928, 464100, 466282, 468473, 470672, 472881, 475099, 477327, 479563, 481809, 484064, 486329, 488603,
   490886, 493179, 495481, 497793, 500114, 502445, 504785, 507136, 509496, 511865, 514245, 516634, 519033, 521442, 523860, 526289,
   528728, 531177, 533635, 536104, 538583, 541072, 543571, 546081, 548601, 551131, 553671, 556222, 558783, 561355, 563937, 566530]

/-- Entries 1920 to 2047: math_tables.cc:1171-1183. -/
def pow915 : List Int :=
  [569133, 571747, 574371, 577007, 579652, 582309, 584976, 587655, 590344, 593044, 595755, 598476, 601209, 603953, 606708, 609475,
   612252, 615040, 617840, 620651, 623474, 626308, 629153, 632010, 634878, 637757, 640649, 643552, 646466, 649392, 652330, 655280,
   658242, 661215, 664200, 667198, 670207, 673228, 676261, 679307, 682365, 685434, 688516, 691611, 694717, 697836, 700968, 704111,
   707268, 710437, 713618, 716812, 720019, 723238, 726470, 729715, 732973, 736244, 739528, 742824, 746134, 749456, 752792, 756141,
   759503, 762879, 766267, 769669, 773085, 776514, 779956, 783412, 786881, 790364, 793861, 797371, 800895, 804433, 807985, 811551,
   815130, 818724, 822331, 825953, 829589, 833239, 836903, 840582, 844274, 847982, 851703, 855439, 859190, 862955, 866735, 870529,
   874339, 878163, 882001, 885855, 889723, 893607, 897506, 901419, 905348, 909292, 913251, 917225, 921215, 925220, 929240, 933276,
   937328, 941395, 945478, 949576, 953690, 957820, 961966, 966128, 970305, 974499, 978709, 982935, 987177, 991435, 995709, 1000000]

/-- `pow9Table`: math_tables.cc:978-1184. -/
def pow9Data : List Int :=
  pow90 ++ pow91 ++ pow92 ++ pow93 ++ pow94 ++ pow95 ++ pow96 ++ pow97 ++ pow98 ++ pow99 ++ pow910 ++ pow911 ++ pow912 ++ pow913 ++ pow914 ++ pow915

end MathTables
