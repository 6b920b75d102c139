/-! The sinTable of util/math_tables.cc, lines 3-230, in millionths: generated from the source text, entry by entry. The rounding of the decimal literals to binary32 is not modelled. -/

namespace MathTables

/-- Entries 0 to 127: math_tables.cc:3-17. -/
def sin0 : List Int :=
  [0, 3068, 6136, 9204, 12272, 15339, 18407, 21474, 24541, 27608, 30675, 33741, 36807, 39873, 42938, 46003,
   49068, 52132, 55195, 58258, 61321, 64383, 67444, 70505, 73565, 76624, 79682, 82740, 85797, 88854, 91909, 94963,
   98017, 101070, 104122, 107172, 110222, 113271, 116319, 119365, 122411, 125455, 128498, 131540, 134581, 137620, 140658, 143695,
   146730, 149765, 152797, 155828, 158858, 161886, 164913, 167938, 170962, 173984, 177004, 180023, 183040, 186055, 189069, 192080,
   195090, 198098, 201105, 204109, 207111, 210112, 213110, 216107, 219101, 222094, 225084, 228072, 231058, 234042, 237024, 240003,
   242980, 245955, 248928, 251898, 254866, 257831, 260794, 263755, 266713, 269668, 272621, 275572, 278520, 281465, 284408, 287347,
   290285, 293219, 296151, 299080, 302006, 304929, 307850, 310767, 313682, 316593, 319502, 322408, 325310, 328210, 331106, 334000,
   336890, 339777, 342661, 345541, 348419, 351293, 354164, 357031, 359895, 362756, 365613, 368467, 371317, 374164, 377007, 379847]

/-- Entries 128 to 255: math_tables.cc:17-31. -/
def sin1 : List Int :=
  [382683, 385516, 388345, 391170, 393992, 396810, 399624, 402435, 405241, 408044, 410843, 413638, 416430, 419217, 422000, 424780,
   427555, 430326, 433094, 435857, 438616, 441371, 444122, 446869, 449611, 452350, 455084, 457813, 460539, 463260, 465977, 468689,
   471397, 474100, 476799, 479494, 482184, 484869, 487550, 490227, 492898, 495565, 498228, 500885, 503538, 506187, 508830, 511469,
   514103, 516732, 519356, 521975, 524590, 527199, 529804, 532403, 534998, 537587, 540172, 542751, 545325, 547894, 550458, 553017,
   555570, 558119, 560662, 563199, 565732, 568259, 570781, 573297, 575808, 578314, 580814, 583309, 585798, 588282, 590760, 593232,
   595699, 598161, 600616, 603067, 605511, 607950, 610383, 612810, 615232, 617647, 620057, 622461, 624860, 627252, 629638, 632019,
   634393, 636762, 639124, 641481, 643832, 646176, 648514, 650847, 653173, 655493, 657807, 660114, 662416, 664711, 667000, 669283,
   671559, 673829, 676093, 678350, 680601, 682846, 685084, 687315, 689541, 691759, 693971, 696177, 698376, 700569, 702755, 704934]

/-- Entries 256 to 383: math_tables.cc:31-45. -/
def sin2 : List Int :=
  [707107, 709273, 711432, 713585, 715731, 717870, 720003, 722128, 724247, 726359, 728464, 730563, 732654, 734739, 736817, 738887,
   740951, 743008, 745058, 747101, 749136, 751165, 753187, 755201, 757209, 759209, 761202, 763188, 765167, 767139, 769103, 771061,
   773010, 774953, 776888, 778817, 780737, 782651, 784557, 786455, 788346, 790230, 792107, 793975, 795837, 797691, 799537, 801376,
   803208, 805031, 806848, 808656, 810457, 812251, 814036, 815814, 817585, 819348, 821102, 822850, 824589, 826321, 828045, 829761,
   831470, 833170, 834863, 836548, 838225, 839894, 841555, 843208, 844854, 846491, 848120, 849742, 851355, 852961, 854558, 856147,
   857729, 859302, 860867, 862424, 863973, 865514, 867046, 868571, 870087, 871595, 873095, 874587, 876070, 877545, 879012, 880471,
   881921, 883363, 884797, 886223, 887640, 889048, 890449, 891841, 893224, 894599, 895966, 897325, 898674, 900016, 901349, 902673,
   903989, 905297, 906596, 907886, 909168, 910441, 911706, 912962, 914210, 915449, 916679, 917901, 919114, 920318, 921514, 922701]

/-- Entries 384 to 511: math_tables.cc:45-59. -/
def sin3 : List Int :=
  [923880, 925049, 926210, 927363, 928506, 929641, 930767, 931884, 932993, 934093, 935184, 936266, 937339, 938404, 939459, 940506,
   941544, 942573, 943593, 944605, 945607, 946601, 947586, 948561, 949528, 950486, 951435, 952375, 953306, 954228, 955141, 956045,
   956940, 957826, 958703, 959571, 960431, 961280, 962121, 962953, 963776, 964590, 965394, 966190, 966976, 967754, 968522, 969281,
   970031, 970772, 971504, 972227, 972940, 973644, 974339, 975025, 975702, 976370, 977028, 977677, 978317, 978948, 979570, 980182,
   980785, 981379, 981964, 982539, 983105, 983662, 984210, 984748, 985278, 985798, 986308, 986809, 987301, 987784, 988258, 988722,
   989177, 989622, 990058, 990485, 990903, 991311, 991710, 992099, 992480, 992850, 993212, 993564, 993907, 994240, 994565, 994879,
   995185, 995481, 995767, 996045, 996313, 996571, 996820, 997060, 997290, 997511, 997723, 997925, 998118, 998302, 998476, 998640,
   998795, 998941, 999078, 999205, 999322, 999431, 999529, 999619, 999699, 999769, 999831, 999882, 999925, 999958, 999981, 999995]

/-- Entries 512 to 639: math_tables.cc:59-74. -/
def sin4 : List Int :=
  [1000000, 999995, 999981, 999958, 999925, 999882, 999831, 999769, 999699, 999619, 999529, 999431, 999322, 999205, 999078, 998941,
   998795, 998640, 998476, 998302, 998118, 997925, 997723, 997511, 997290, 997060, 996820, 996571, 996313, 996045, 995767, 995481,
   995185, 994879, 994565, 994240, 993907, 993564, 993212, 992850, 992480, 992099, 991710, 991311, 990903, 990485, 990058, 989622,
   989177, 988722, 988258, 987784, 987301, 986809, 986308, 985798, 985278, 984748, 984210, 983662, 983105, 982539, 981964, 981379,
   980785, 980182, 979570, 978948, 978317, 977677, 977028, 976370, 975702, 975025, 974339, 973644, 972940, 972227, 971504, 970772,
   970031, 969281, 968522, 967754, 966976, 966190, 965394, 964590, 963776, 962953, 962121, 961280, 960431, 959571, 958703, 957826,
   956940, 956045, 955141, 954228, 953306, 952375, 951435, 950486, 949528, 948561, 947586, 946601, 945607, 944605, 943593, 942573,
   941544, 940506, 939459, 938404, 937339, 936266, 935184, 934093, 932993, 931884, 930767, 929641, 928506, 927363, 926210, 925049]

/-- Entries 640 to 767: math_tables.cc:74-88. -/
def sin5 : List Int :=
  [923880, 922701, 921514, 920318, 919114, 917901, 916679, 915449, 914210, 912962, 911706, 910441, 909168, 907886, 906596, 905297,
   903989, 902673, 901349, 900016, 898674, 897325, 895966, 894599, 893224, 891841, 890449, 889048, 887640, 886222, 884797, 883363,
   881921, 880471, 879012, 877545, 876070, 874587, 873095, 871595, 870087, 868571, 867046, 865514, 863973, 862424, 860867, 859302,
   857729, 856147, 854558, 852961, 851355, 849742, 848120, 846491, 844854, 843208, 841555, 839894, 838225, 836548, 834863, 833170,
   831470, 829761, 828045, 826321, 824589, 822850, 821102, 819348, 817585, 815814, 814036, 812251, 810457, 808656, 806848, 805031,
   803208, 801376, 799537, 797691, 795837, 793975, 792107, 790230, 788346, 786455, 784557, 782651, 780737, 778817, 776888, 774953,
   773010, 771061, 769103, 767139, 765167, 763188, 761202, 759209, 757209, 755201, 753187, 751165, 749136, 747101, 745058, 743008,
   740951, 738887, 736817, 734739, 732654, 730563, 728464, 726359, 724247, 722128, 720003, 717870, 715731, 713585, 711432, 709273]

/-- Entries 768 to 895: math_tables.cc:88-102. -/
def sin6 : List Int :=
  [707107, 704934, 702755, 700569, 698376, 696177, 693971, 691759, 689541, 687315, 685084, 682845, 680601, 678350, 676093, 673829,
   671559, 669283, 667000, 664711, 662416, 660114, 657807, 655493, 653173, 650847, 648514, 646176, 643832, 641481, 639124, 636762,
   634393, 632019, 629638, 627252, 624859, 622461, 620057, 617647, 615232, 612810, 610383, 607950, 605511, 603067, 600617, 598161,
   595699, 593232, 590760, 588282, 585798, 583309, 580814, 578314, 575808, 573297, 570781, 568259, 565732, 563199, 560661, 558118,
   555570, 553017, 550458, 547894, 545325, 542751, 540172, 537587, 534998, 532403, 529804, 527199, 524590, 521975, 519356, 516732,
   514103, 511469, 508830, 506187, 503538, 500885, 498228, 495565, 492898, 490226, 487550, 484869, 482184, 479494, 476799, 474100,
   471397, 468689, 465977, 463260, 460539, 457813, 455084, 452350, 449611, 446869, 444122, 441371, 438616, 435857, 433094, 430326,
   427555, 424780, 422000, 419217, 416429, 413638, 410843, 408044, 405241, 402435, 399624, 396810, 393992, 391170, 388345, 385516]

/-- Entries 896 to 1023: math_tables.cc:102-116. -/
def sin7 : List Int :=
  [382683, 379847, 377007, 374164, 371317, 368467, 365613, 362756, 359895, 357031, 354164, 351293, 348419, 345541, 342661, 339777,
   336890, 334000, 331106, 328210, 325310, 322408, 319502, 316593, 313682, 310767, 307850, 304929, 302006, 299080, 296151, 293219,
   290285, 287347, 284408, 281465, 278520, 275572, 272621, 269668, 266713, 263755, 260794, 257831, 254866, 251898, 248928, 245955,
   242980, 240003, 237024, 234042, 231058, 228072, 225084, 222094, 219101, 216107, 213110, 210112, 207111, 204109, 201105, 198098,
   195090, 192080, 189069, 186055, 183040, 180023, 177004, 173984, 170962, 167938, 164913, 161886, 158858, 155829, 152797, 149765,
   146731, 143695, 140658, 137620, 134581, 131540, 128498, 125455, 122411, 119365, 116319, 113271, 110222, 107172, 104122, 101070,
   98017, 94963, 91909, 88853, 85797, 82740, 79682, 76624, 73564, 70505, 67444, 64383, 61321, 58258, 55195, 52132,
   49068, 46003, 42938, 39873, 36807, 33741, 30675, 27608, 24541, 21474, 18407, 15339, 12271, 9204, 6136, 3068]

/-- Entries 1024 to 1151: math_tables.cc:116-130. -/
def sin8 : List Int :=
  [0, -3068, -6136, -9204, -12271, -15339, -18407, -21474, -24541, -27608, -30675, -33741, -36807, -39873, -42938, -46003,
   -49068, -52132, -55195, -58258, -61321, -64383, -67444, -70505, -73565, -76624, -79683, -82740, -85797, -88854, -91909, -94964,
   -98017, -101070, -104122, -107172, -110222, -113271, -116319, -119365, -122411, -125455, -128498, -131540, -134581, -137620, -140658, -143695,
   -146730, -149765, -152797, -155828, -158858, -161886, -164913, -167938, -170962, -173984, -177004, -180023, -183040, -186055, -189069, -192080,
   -195090, -198098, -201105, -204109, -207111, -210112, -213110, -216107, -219101, -222094, -225084, -228072, -231058, -234042, -237024, -240003,
   -242980, -245955, -248928, -251898, -254866, -257831, -260794, -263755, -266713, -269668, -272621, -275572, -278520, -281465, -284407, -287347,
   -290285, -293219, -296151, -299080, -302006, -304929, -307850, -310767, -313682, -316593, -319502, -322408, -325310, -328210, -331106, -334000,
   -336890, -339777, -342661, -345541, -348419, -351293, -354163, -357031, -359895, -362756, -365613, -368467, -371317, -374164, -377007, -379847]

/-- Entries 1152 to 1279: math_tables.cc:131-145. -/
def sin9 : List Int :=
  [-382683, -385516, -388345, -391170, -393992, -396810, -399624, -402435, -405241, -408044, -410843, -413638, -416430, -419217, -422000, -424780,
   -427555, -430326, -433094, -435857, -438616, -441371, -444122, -446869, -449611, -452350, -455084, -457813, -460539, -463260, -465977, -468689,
   -471397, -474100, -476799, -479494, -482184, -484869, -487550, -490227, -492898, -495565, -498228, -500885, -503538, -506187, -508830, -511469,
   -514103, -516732, -519356, -521975, -524590, -527199, -529804, -532403, -534998, -537587, -540172, -542751, -545325, -547894, -550458, -553017,
   -555570, -558119, -560662, -563199, -565732, -568259, -570781, -573297, -575808, -578314, -580814, -583309, -585798, -588282, -590760, -593232,
   -595699, -598161, -600617, -603067, -605511, -607950, -610383, -612810, -615232, -617647, -620057, -622461, -624860, -627252, -629638, -632019,
   -634393, -636762, -639124, -641481, -643831, -646176, -648514, -650847, -653173, -655493, -657807, -660114, -662416, -664711, -667000, -669283,
   -671559, -673829, -676093, -678350, -680601, -682846, -685084, -687315, -689541, -691759, -693972, -696177, -698376, -700569, -702755, -704934]

/-- Entries 1280 to 1407: math_tables.cc:145-159. -/
def sin10 : List Int :=
  [-707107, -709273, -711432, -713585, -715731, -717870, -720002, -722128, -724247, -726359, -728464, -730563, -732654, -734739, -736817, -738887,
   -740951, -743008, -745058, -747101, -749136, -751165, -753187, -755201, -757209, -759209, -761202, -763188, -765167, -767139, -769103, -771061,
   -773010, -774953, -776888, -778817, -780737, -782651, -784557, -786455, -788346, -790230, -792107, -793976, -795837, -797691, -799537, -801376,
   -803208, -805031, -806848, -808656, -810457, -812251, -814036, -815814, -817585, -819348, -821103, -822850, -824589, -826321, -828045, -829761,
   -831469, -833170, -834863, -836548, -838225, -839894, -841555, -843208, -844853, -846491, -848120, -849742, -851355, -852961, -854558, -856147,
   -857729, -859302, -860867, -862424, -863973, -865514, -867046, -868571, -870087, -871595, -873095, -874587, -876070, -877545, -879012, -880471,
   -881921, -883363, -884797, -886223, -887640, -889048, -890449, -891841, -893224, -894600, -895966, -897325, -898675, -900016, -901349, -902673,
   -903989, -905297, -906596, -907886, -909168, -910441, -911706, -912962, -914210, -915449, -916679, -917901, -919114, -920318, -921514, -922701]

/-- Entries 1408 to 1535: math_tables.cc:159-173. -/
def sin11 : List Int :=
  [-923880, -925049, -926210, -927363, -928506, -929641, -930767, -931884, -932993, -934093, -935183, -936266, -937339, -938404, -939459, -940506,
   -941544, -942573, -943593, -944605, -945607, -946601, -947586, -948561, -949528, -950486, -951435, -952375, -953306, -954228, -955141, -956045,
   -956940, -957826, -958704, -959572, -960431, -961281, -962121, -962953, -963776, -964590, -965394, -966190, -966977, -967754, -968522, -969281,
   -970031, -970772, -971504, -972226, -972940, -973644, -974339, -975025, -975702, -976370, -977028, -977677, -978317, -978948, -979570, -980182,
   -980785, -981379, -981964, -982539, -983105, -983662, -984210, -984748, -985278, -985798, -986308, -986809, -987301, -987784, -988258, -988722,
   -989177, -989622, -990058, -990485, -990903, -991311, -991710, -992099, -992480, -992850, -993212, -993564, -993907, -994240, -994565, -994879,
   -995185, -995481, -995767, -996045, -996313, -996571, -996820, -997060, -997290, -997511, -997723, -997925, -998118, -998302, -998476, -998640,
   -998795, -998941, -999078, -999205, -999322, -999431, -999529, -999619, -999699, -999769, -999831, -999882, -999925, -999958, -999981, -999995]

/-- Entries 1536 to 1663: math_tables.cc:173-187. -/
def sin12 : List Int :=
  [-1000000, -999995, -999981, -999958, -999925, -999882, -999831, -999769, -999699, -999619, -999529, -999431, -999322, -999205, -999078, -998941,
   -998795, -998640, -998476, -998302, -998118, -997925, -997723, -997511, -997290, -997060, -996820, -996571, -996313, -996045, -995767, -995481,
   -995185, -994879, -994565, -994240, -993907, -993564, -993212, -992850, -992480, -992099, -991710, -991311, -990903, -990485, -990058, -989622,
   -989177, -988722, -988258, -987784, -987301, -986809, -986308, -985798, -985278, -984748, -984210, -983662, -983105, -982539, -981964, -981379,
   -980785, -980182, -979570, -978948, -978317, -977677, -977028, -976370, -975702, -975025, -974339, -973644, -972940, -972226, -971504, -970772,
   -970031, -969281, -968522, -967754, -966977, -966190, -965394, -964590, -963776, -962953, -962121, -961281, -960431, -959572, -958704, -957826,
   -956940, -956045, -955141, -954228, -953306, -952375, -951435, -950486, -949528, -948561, -947586, -946601, -945607, -944605, -943593, -942573,
   -941544, -940506, -939459, -938403, -937339, -936266, -935183, -934093, -932993, -931884, -930767, -929641, -928506, -927362, -926210, -925049]

/-- Entries 1664 to 1791: math_tables.cc:187-202. -/
def sin13 : List Int :=
  [-923879, -922701, -921514, -920318, -919114, -917901, -916679, -915449, -914210, -912962, -911706, -910441, -909168, -907886, -906596, -905297,
   -903989, -902673, -901349, -900016, -898675, -897325, -895966, -894600, -893224, -891841, -890449, -889048, -887640, -886223, -884797, -883363,
   -881921, -880471, -879012, -877545, -876070, -874587, -873095, -871595, -870087, -868571, -867046, -865514, -863973, -862424, -860867, -859302,
   -857729, -856147, -854558, -852961, -851355, -849742, -848120, -846491, -844853, -843208, -841555, -839894, -838225, -836548, -834863, -833170,
   -831470, -829761, -828045, -826321, -824589, -822850, -821103, -819348, -817585, -815814, -814036, -812251, -810457, -808656, -806848, -805031,
   -803208, -801376, -799537, -797691, -795837, -793976, -792107, -790230, -788346, -786455, -784557, -782651, -780737, -778817, -776888, -774953,
   -773010, -771060, -769103, -767139, -765167, -763188, -761202, -759209, -757209, -755201, -753187, -751165, -749136, -747100, -745058, -743008,
   -740951, -738887, -736816, -734739, -732654, -730563, -728465, -726359, -724247, -722128, -720003, -717870, -715731, -713585, -711432, -709273]

/-- Entries 1792 to 1919: math_tables.cc:202-216. -/
def sin14 : List Int :=
  [-707107, -704934, -702755, -700569, -698376, -696177, -693972, -691759, -689541, -687315, -685084, -682846, -680601, -678350, -676093, -673829,
   -671559, -669283, -667000, -664711, -662416, -660114, -657807, -655493, -653173, -650847, -648514, -646176, -643831, -641481, -639124, -636762,
   -634393, -632019, -629638, -627252, -624859, -622461, -620057, -617647, -615231, -612810, -610383, -607950, -605511, -603067, -600617, -598161,
   -595699, -593232, -590760, -588282, -585798, -583309, -580814, -578314, -575808, -573297, -570781, -568259, -565732, -563199, -560662, -558119,
   -555570, -553017, -550458, -547894, -545325, -542751, -540172, -537587, -534998, -532403, -529804, -527199, -524590, -521975, -519356, -516732,
   -514103, -511469, -508830, -506187, -503538, -500885, -498228, -495565, -492898, -490226, -487550, -484869, -482184, -479494, -476799, -474100,
   -471397, -468689, -465976, -463260, -460539, -457814, -455084, -452350, -449612, -446869, -444122, -441371, -438616, -435857, -433094, -430327,
   -427555, -424780, -422000, -419217, -416430, -413638, -410843, -408044, -405241, -402435, -399624, -396810, -393992, -391170, -388345, -385516]

/-- Entries 1920 to 2047: math_tables.cc:216-230. -/
def sin15 : List Int :=
  [-382683, -379847, -377007, -374164, -371317, -368467, -365613, -362756, -359895, -357031, -354163, -351293, -348419, -345541, -342661, -339777,
   -336890, -333999, -331106, -328210, -325310, -322407, -319502, -316593, -313682, -310767, -307850, -304929, -302006, -299080, -296151, -293219,
   -290285, -287348, -284408, -281465, -278520, -275572, -272621, -269668, -266713, -263755, -260794, -257831, -254866, -251898, -248928, -245955,
   -242980, -240003, -237024, -234042, -231058, -228072, -225084, -222094, -219101, -216107, -213110, -210112, -207111, -204109, -201105, -198098,
   -195090, -192080, -189069, -186055, -183040, -180023, -177004, -173984, -170962, -167938, -164913, -161886, -158858, -155828, -152797, -149764,
   -146730, -143695, -140658, -137620, -134581, -131540, -128498, -125455, -122411, -119365, -116319, -113271, -110222, -107173, -104122, -101070,
   -98017, -94964, -91909, -88854, -85797, -82740, -79682, -76624, -73565, -70505, -67444, -64383, -61321, -58258, -55195, -52132,
   -49068, -46003, -42938, -39873, -36807, -33741, -30675, -27608, -24541, -21474, -18407, -15339, -12271, -9204, -6136, -3068]

/-- `sinTable`: math_tables.cc:2-231. -/
def sinData : List Int :=
  sin0 ++ sin1 ++ sin2 ++ sin3 ++ sin4 ++ sin5 ++ sin6 ++ sin7 ++ sin8 ++ sin9 ++ sin10 ++ sin11 ++ sin12 ++ sin13 ++ sin14 ++ sin15

end MathTables
