/-! The logTable of util/math_tables.cc, lines 1186-1390, in millionths: generated from the source text, entry by entry. The rounding of the decimal literals to binary32 is not modelled. -/

namespace MathTables

/-- Entries 0 to 127: math_tables.cc:1186-1198. -/
def log0 : List Int :=
  [2995732, 3393186, 3676838, 3897556, 4078258, 4231249, 4363910, 4481016, 4585835, 4680701, 4767342, 4847072, 4920911, 4989671, 5054006, 5114451,
   5171450, 5225374, 5276538, 5325212, 5371626, 5415981, 5458452, 5499192, 5538338, 5576008, 5612311, 5647342, 5681188, 5713925, 5745624, 5776349,
   5806159, 5835105, 5863237, 5890599, 5917233, 5943175, 5968462, 5993124, 6017193, 6040697, 6063660, 6086108, 6108064, 6129547, 6150579, 6171177,
   6191360, 6211143, 6230543, 6249573, 6268249, 6286581, 6304584, 6322268, 6339645, 6356725, 6373518, 6390034, 6406281, 6422269, 6438005, 6453498,
   6468754, 6483781, 6498585, 6513174, 6527552, 6541727, 6555704, 6569488, 6583084, 6596498, 6609735, 6622798, 6635694, 6648425, 6660996, 6673411,
   6685674, 6697788, 6709757, 6721585, 6733274, 6744828, 6756250, 6767544, 6778711, 6789755, 6800678, 6811483, 6822173, 6832749, 6843215, 6853573,
   6863824, 6873971, 6884017, 6893962, 6903810, 6913561, 6923219, 6932784, 6942258, 6951643, 6960942, 6970154, 6979282, 6988328, 6997293, 7006178,
   7014985, 7023715, 7032370, 7040949, 7049457, 7057892, 7066257, 7074552, 7082779, 7090940, 7099033, 7107062, 7115027, 7122930, 7130770, 7138549]

/-- Entries 128 to 255: math_tables.cc:1198-1211. -/
def log1 : List Int :=
  [7146268, 7153928, 7161530, 7169075, 7176562, 7183995, 7191372, 7198695, 7205966, 7213183, 7220349, 7227464, 7234529, 7241544, 7248510, 7255428,
   7262299, 7269123, 7275900, 7282632, 7289319, 7295961, 7302559, 7309115, 7315628, 7322098, 7328527, 7334915, 7341262, 7347569, 7353837, 7360065,
   7366256, 7372407, 7378522, 7384599, 7390640, 7396644, 7402612, 7408545, 7414443, 7420307, 7426136, 7431931, 7437694, 7443423, 7449119, 7454783,
   7460415, 7466016, 7471586, 7477125, 7482633, 7488111, 7493559, 7498977, 7504367, 7509727, 7515059, 7520363, 7525639, 7530887, 7536107, 7541301,
   7546467, 7551608, 7556721, 7561809, 7566871, 7571908, 7576919, 7581905, 7586867, 7591804, 7596717, 7601605, 7606471, 7611312, 7616130, 7620925,
   7625698, 7630447, 7635174, 7639879, 7644562, 7649222, 7653862, 7658480, 7663076, 7667652, 7672207, 7676741, 7681255, 7685748, 7690221, 7694675,
   7699109, 7703523, 7707917, 7712293, 7716649, 7720986, 7725305, 7729606, 7733887, 7738151, 7742396, 7746624, 7750833, 7755025, 7759200, 7763357,
   7767497, 7771620, 7775726, 7779815, 7783887, 7787943, 7791983, 7796006, 7800014, 7804005, 7807980, 7811940, 7815884, 7819812, 7823725, 7827623]

/-- Entries 256 to 383: math_tables.cc:1211-1224. -/
def log2 : List Int :=
  [7831506, 7835374, 7839227, 7843065, 7846888, 7850697, 7854491, 7858271, 7862037, 7865789, 7869526, 7873250, 7876960, 7880656, 7884339, 7888008,
   7891664, 7895306, 7898935, 7902551, 7906154, 7909744, 7913321, 7916886, 7920437, 7923976, 7927504, 7931018, 7934520, 7938010, 7941487, 7944953,
   7948407, 7951848, 7955278, 7958696, 7962103, 7965498, 7968882, 7972254, 7975615, 7978964, 7982302, 7985630, 7988946, 7992251, 7995545, 7998829,
   8002102, 8005364, 8008615, 8011856, 8015087, 8018307, 8021517, 8024716, 8027905, 8031085, 8034254, 8037413, 8040562, 8043701, 8046831, 8049951,
   8053061, 8056161, 8059252, 8062332, 8065404, 8068467, 8071520, 8074563, 8077598, 8080623, 8083639, 8086646, 8089644, 8092633, 8095613, 8098585,
   8101547, 8104502, 8107447, 8110383, 8113311, 8116230, 8119141, 8122043, 8124937, 8127823, 8130700, 8133569, 8136430, 8139282, 8142127, 8144963,
   8147792, 8150613, 8153425, 8156230, 8159026, 8161816, 8164597, 8167370, 8170136, 8172894, 8175645, 8178389, 8181124, 8183852, 8186573, 8189286,
   8191992, 8194691, 8197382, 8200067, 8202744, 8205413, 8208076, 8210732, 8213381, 8216022, 8218657, 8221285, 8223906, 8226520, 8229127, 8231728]

/-- Entries 384 to 511: math_tables.cc:1224-1237. -/
def log3 : List Int :=
  [8234321, 8236908, 8239489, 8242062, 8244629, 8247190, 8249743, 8252291, 8254832, 8257366, 8259894, 8262416, 8264932, 8267441, 8269943, 8272440,
   8274931, 8277414, 8279893, 8282365, 8284830, 8287291, 8289743, 8292192, 8294633, 8297069, 8299499, 8301923, 8304341, 8306753, 8309159, 8311561,
   8313955, 8316344, 8318727, 8321106, 8323478, 8325845, 8328206, 8330561, 8332911, 8335256, 8337594, 8339928, 8342256, 8344579, 8346895, 8349208,
   8351514, 8353815, 8356112, 8358402, 8360687, 8362967, 8365243, 8367513, 8369778, 8372037, 8374291, 8376541, 8378785, 8381024, 8383259, 8385489,
   8387713, 8389933, 8392147, 8394357, 8396562, 8398762, 8400957, 8403147, 8405333, 8407514, 8409690, 8411860, 8414027, 8416189, 8418346, 8420500,
   8422647, 8424790, 8426929, 8429064, 8431193, 8433319, 8435439, 8437555, 8439668, 8441774, 8443877, 8445975, 8448070, 8450159, 8452245, 8454326,
   8456403, 8458475, 8460543, 8462606, 8464666, 8466722, 8468773, 8470819, 8472862, 8474900, 8476934, 8478965, 8480991, 8483013, 8485031, 8487045,
   8489055, 8491061, 8493063, 8495061, 8497054, 8499044, 8501030, 8503012, 8504990, 8506964, 8508934, 8510900, 8512863, 8514822, 8516777, 8518728]

/-- Entries 512 to 639: math_tables.cc:1237-1249. -/
def log4 : List Int :=
  [8520675, 8522618, 8524558, 8526494, 8528426, 8530354, 8532280, 8534201, 8536118, 8538032, 8539942, 8541848, 8543751, 8545650, 8547545, 8549438,
   8551326, 8553211, 8555092, 8556970, 8558845, 8560715, 8562582, 8564445, 8566306, 8568163, 8570017, 8571866, 8573713, 8575556, 8577395, 8579232,
   8581065, 8582895, 8584722, 8586544, 8588364, 8590180, 8591993, 8593803, 8595610, 8597413, 8599213, 8601009, 8602803, 8604593, 8606380, 8608165,
   8609945, 8611723, 8613498, 8615269, 8617037, 8618802, 8620564, 8622323, 8624079, 8625832, 8627582, 8629328, 8631071, 8632812, 8634549, 8636284,
   8638015, 8639744, 8641469, 8643191, 8644911, 8646627, 8648341, 8650052, 8651760, 8653465, 8655167, 8656866, 8658562, 8660255, 8661946, 8663633,
   8665318, 8667001, 8668679, 8670356, 8672029, 8673700, 8675367, 8677033, 8678696, 8680355, 8682012, 8683666, 8685317, 8686966, 8688612, 8690255,
   8691895, 8693534, 8695168, 8696801, 8698431, 8700059, 8701683, 8703305, 8704925, 8706541, 8708155, 8709766, 8711375, 8712981, 8714585, 8716187,
   8717785, 8719381, 8720975, 8722566, 8724154, 8725740, 8727324, 8728905, 8730483, 8732059, 8733632, 8735203, 8736772, 8738338, 8739902, 8741463]

/-- Entries 640 to 767: math_tables.cc:1250-1262. -/
def log5 : List Int :=
  [8743021, 8744577, 8746131, 8747683, 8749232, 8750778, 8752323, 8753865, 8755404, 8756942, 8758476, 8760009, 8761539, 8763066, 8764592, 8766115,
   8767636, 8769155, 8770671, 8772184, 8773696, 8775206, 8776712, 8778217, 8779720, 8781220, 8782718, 8784214, 8785707, 8787199, 8788688, 8790174,
   8791659, 8793141, 8794622, 8796101, 8797576, 8799049, 8800522, 8801991, 8803458, 8804923, 8806386, 8807847, 8809305, 8810762, 8812217, 8813669,
   8815119, 8816567, 8818013, 8819457, 8820899, 8822339, 8823776, 8825212, 8826646, 8828077, 8829507, 8830935, 8832359, 8833783, 8835204, 8836624,
   8838041, 8839457, 8840870, 8842281, 8843691, 8845098, 8846503, 8847907, 8849308, 8850708, 8852105, 8853500, 8854895, 8856286, 8857676, 8859064,
   8860450, 8861834, 8863215, 8864595, 8865974, 8867351, 8868725, 8870097, 8871469, 8872837, 8874204, 8875569, 8876932, 8878294, 8879653, 8881011,
   8882367, 8883720, 8885073, 8886423, 8887772, 8889118, 8890464, 8891807, 8893147, 8894487, 8895825, 8897161, 8898495, 8899827, 8901158, 8902487,
   8903814, 8905139, 8906463, 8907784, 8909104, 8910423, 8911739, 8913054, 8914368, 8915679, 8916988, 8918297, 8919602, 8920907, 8922210, 8923512]

/-- Entries 768 to 895: math_tables.cc:1262-1275. -/
def log6 : List Int :=
  [8924810, 8926108, 8927404, 8928699, 8929992, 8931283, 8932572, 8933860, 8935146, 8936431, 8937714, 8938994, 8940274, 8941552, 8942828, 8944102,
   8945375, 8946647, 8947917, 8949185, 8950452, 8951716, 8952980, 8954242, 8955502, 8956760, 8958017, 8959272, 8960526, 8961779, 8963030, 8964278,
   8965527, 8966772, 8968017, 8969259, 8970501, 8971741, 8972980, 8974216, 8975451, 8976685, 8977918, 8979148, 8980377, 8981605, 8982831, 8984056,
   8985279, 8986501, 8987720, 8988939, 8990156, 8991372, 8992586, 8993799, 8995010, 8996221, 8997429, 8998636, 8999842, 9001045, 9002248, 9003449,
   9004649, 9005847, 9007044, 9008239, 9009433, 9010626, 9011817, 9013006, 9014194, 9015382, 9016567, 9017751, 9018934, 9020115, 9021295, 9022473,
   9023650, 9024826, 9026001, 9027173, 9028345, 9029515, 9030684, 9031852, 9033018, 9034183, 9035346, 9036508, 9037668, 9038828, 9039986, 9041142,
   9042298, 9043452, 9044604, 9045756, 9046906, 9048055, 9049202, 9050348, 9051493, 9052636, 9053779, 9054919, 9056059, 9057198, 9058334, 9059470,
   9060604, 9061737, 9062869, 9063999, 9065128, 9066257, 9067384, 9068509, 9069633, 9070756, 9071877, 9072998, 9074117, 9075235, 9076351, 9077467]

/-- Entries 896 to 1023: math_tables.cc:1275-1288. -/
def log7 : List Int :=
  [9078581, 9079694, 9080806, 9081916, 9083025, 9084133, 9085240, 9086346, 9087450, 9088553, 9089655, 9090755, 9091855, 9092953, 9094050, 9095146,
   9096241, 9097334, 9098427, 9099518, 9100607, 9101696, 9102783, 9103869, 9104955, 9106039, 9107121, 9108203, 9109283, 9110363, 9111441, 9112518,
   9113594, 9114669, 9115742, 9116815, 9117886, 9118956, 9120025, 9121092, 9122159, 9123224, 9124289, 9125352, 9126414, 9127475, 9128534, 9129593,
   9130651, 9131707, 9132763, 9133817, 9134871, 9135922, 9136973, 9138022, 9139071, 9140120, 9141166, 9142211, 9143255, 9144299, 9145341, 9146382,
   9147422, 9148460, 9149499, 9150536, 9151571, 9152606, 9153639, 9154672, 9155704, 9156734, 9157763, 9158791, 9159818, 9160844, 9161869, 9162893,
   9163917, 9164938, 9165959, 9166979, 9167997, 9169016, 9170033, 9171048, 9172063, 9173077, 9174088, 9175100, 9176111, 9177120, 9178129, 9179136,
   9180143, 9181149, 9182153, 9183156, 9184159, 9185161, 9186161, 9187160, 9188159, 9189157, 9190152, 9191148, 9192142, 9193136, 9194129, 9195120,
   9196111, 9197101, 9198089, 9199077, 9200063, 9201049, 9202033, 9203017, 9204000, 9204982, 9205962, 9206943, 9207921, 9208899, 9209876, 9210853]

/-- Entries 1024 to 1151: math_tables.cc:1288-1301. -/
def log8 : List Int :=
  [9211827, 9212801, 9213775, 9214746, 9215718, 9216688, 9217658, 9218626, 9219594, 9220560, 9221526, 9222491, 9223454, 9224418, 9225380, 9226340,
   9227301, 9228260, 9229218, 9230176, 9231132, 9232087, 9233042, 9233995, 9234949, 9235901, 9236852, 9237802, 9238750, 9239699, 9240646, 9241592,
   9242538, 9243484, 9244427, 9245370, 9246312, 9247253, 9248193, 9249132, 9250072, 9251009, 9251945, 9252881, 9253817, 9254750, 9255684, 9256616,
   9257547, 9258478, 9259408, 9260337, 9261265, 9262192, 9263118, 9264044, 9264968, 9265892, 9266815, 9267736, 9268658, 9269579, 9270498, 9271417,
   9272334, 9273252, 9274167, 9275083, 9275997, 9276911, 9277823, 9278736, 9279647, 9280557, 9281466, 9282375, 9283283, 9284190, 9285096, 9286001,
   9286906, 9287809, 9288713, 9289615, 9290516, 9291416, 9292316, 9293215, 9294113, 9295011, 9295906, 9296803, 9297697, 9298591, 9299484, 9300377,
   9301269, 9302159, 9303049, 9303938, 9304827, 9305715, 9306602, 9307487, 9308372, 9309258, 9310141, 9311024, 9311906, 9312788, 9313668, 9314548,
   9315427, 9316305, 9317183, 9318060, 9318935, 9319811, 9320685, 9321559, 9322433, 9323304, 9324176, 9325047, 9325916, 9326785, 9327654, 9328522]

/-- Entries 1152 to 1279: math_tables.cc:1301-1313. -/
def log9 : List Int :=
  [9329389, 9330255, 9331120, 9331985, 9332849, 9333712, 9334574, 9335436, 9336297, 9337157, 9338017, 9338875, 9339733, 9340590, 9341447, 9342302,
   9343158, 9344011, 9344865, 9345718, 9346570, 9347422, 9348272, 9349122, 9349972, 9350820, 9351667, 9352515, 9353361, 9354207, 9355052, 9355896,
   9356739, 9357582, 9358424, 9359265, 9360106, 9360946, 9361786, 9362624, 9363461, 9364299, 9365135, 9365972, 9366806, 9367640, 9368474, 9369308,
   9370139, 9370971, 9371801, 9372632, 9373462, 9374290, 9375118, 9375946, 9376773, 9377599, 9378424, 9379249, 9380073, 9380897, 9381719, 9382541,
   9383362, 9384183, 9385003, 9385822, 9386641, 9387459, 9388276, 9389092, 9389909, 9390724, 9391539, 9392352, 9393166, 9393978, 9394791, 9395601,
   9396413, 9397223, 9398032, 9398841, 9399649, 9400455, 9401262, 9402069, 9402874, 9403679, 9404483, 9405287, 9406090, 9406892, 9407693, 9408494,
   9409294, 9410094, 9410893, 9411692, 9412489, 9413286, 9414083, 9414879, 9415674, 9416469, 9417262, 9418056, 9418848, 9419641, 9420432, 9421223,
   9422012, 9422802, 9423592, 9424379, 9425167, 9425954, 9426741, 9427526, 9428311, 9429096, 9429880, 9430664, 9431446, 9432229, 9433010, 9433791]

/-- Entries 1280 to 1407: math_tables.cc:1314-1326. -/
def log10 : List Int :=
  [9434571, 9435351, 9436131, 9436909, 9437687, 9438464, 9439240, 9440017, 9440792, 9441566, 9442341, 9443115, 9443888, 9444660, 9445433, 9446203,
   9446974, 9447744, 9448514, 9449283, 9450051, 9450819, 9451586, 9452353, 9453118, 9453884, 9454649, 9455413, 9456177, 9456940, 9457702, 9458464,
   9459225, 9459986, 9460746, 9461506, 9462264, 9463023, 9463780, 9464538, 9465295, 9466051, 9466806, 9467562, 9468316, 9469069, 9469823, 9470575,
   9471328, 9472079, 9472830, 9473580, 9474331, 9475080, 9475828, 9476577, 9477324, 9478071, 9478818, 9479564, 9480309, 9481054, 9481798, 9482542,
   9483286, 9484028, 9484770, 9485512, 9486253, 9486993, 9487733, 9488472, 9489211, 9489949, 9490687, 9491425, 9492161, 9492897, 9493632, 9494368,
   9495102, 9495836, 9496570, 9497302, 9498034, 9498766, 9499497, 9500228, 9500958, 9501688, 9502417, 9503145, 9503874, 9504601, 9505328, 9506055,
   9506781, 9507506, 9508231, 9508955, 9509679, 9510403, 9511125, 9511847, 9512569, 9513290, 9514011, 9514731, 9515450, 9516170, 9516889, 9517607,
   9518324, 9519041, 9519758, 9520473, 9521190, 9521905, 9522619, 9523333, 9524047, 9524759, 9525472, 9526184, 9526896, 9527606, 9528316, 9529027]

/-- Entries 1408 to 1535: math_tables.cc:1326-1339. -/
def log11 : List Int :=
  [9529737, 9530445, 9531154, 9531861, 9532569, 9533276, 9533982, 9534688, 9535394, 9536098, 9536803, 9537507, 9538211, 9538914, 9539616, 9540318,
   9541019, 9541720, 9542421, 9543121, 9543820, 9544519, 9545218, 9545917, 9546614, 9547311, 9548007, 9548703, 9549399, 9550095, 9550789, 9551483,
   9552176, 9552870, 9553563, 9554255, 9554947, 9555638, 9556329, 9557019, 9557709, 9558398, 9559088, 9559776, 9560464, 9561152, 9561838, 9562525,
   9563211, 9563897, 9564582, 9565267, 9565950, 9566634, 9567318, 9568001, 9568683, 9569365, 9570046, 9570727, 9571407, 9572087, 9572767, 9573446,
   9574125, 9574803, 9575480, 9576158, 9576835, 9577511, 9578187, 9578862, 9579537, 9580212, 9580886, 9581559, 9582232, 9582906, 9583578, 9584249,
   9584921, 9585591, 9586262, 9586932, 9587602, 9588271, 9588940, 9589607, 9590276, 9590942, 9591610, 9592276, 9592942, 9593608, 9594273, 9594937,
   9595601, 9596265, 9596929, 9597591, 9598254, 9598916, 9599578, 9600239, 9600900, 9601560, 9602220, 9602879, 9603538, 9604197, 9604855, 9605512,
   9606170, 9606826, 9607482, 9608138, 9608794, 9609449, 9610104, 9610758, 9611411, 9612065, 9612718, 9613370, 9614022, 9614675, 9615325, 9615976]

/-- Entries 1536 to 1663: math_tables.cc:1339-1352. -/
def log12 : List Int :=
  [9616627, 9617276, 9617926, 9618575, 9619224, 9619872, 9620520, 9621167, 9621815, 9622461, 9623107, 9623753, 9624398, 9625043, 9625688, 9626332,
   9626976, 9627619, 9628262, 9628904, 9629546, 9630188, 9630829, 9631470, 9632111, 9632751, 9633389, 9634029, 9634667, 9635306, 9635944, 9636581,
   9637218, 9637856, 9638492, 9639128, 9639763, 9640398, 9641033, 9641667, 9642301, 9642935, 9643568, 9644200, 9644833, 9645465, 9646096, 9646727,
   9647358, 9647988, 9648618, 9649247, 9649877, 9650505, 9651134, 9651761, 9652390, 9653016, 9653643, 9654269, 9654895, 9655520, 9656146, 9656771,
   9657395, 9658019, 9658643, 9659266, 9659889, 9660511, 9661134, 9661755, 9662376, 9662997, 9663618, 9664238, 9664858, 9665477, 9666096, 9666715,
   9667333, 9667951, 9668569, 9669186, 9669802, 9670418, 9671034, 9671650, 9672265, 9672879, 9673494, 9674109, 9674722, 9675335, 9675948, 9676560,
   9677173, 9677785, 9678396, 9679007, 9679618, 9680228, 9680838, 9681447, 9682056, 9682666, 9683274, 9683882, 9684489, 9685097, 9685704, 9686311,
   9686916, 9687523, 9688128, 9688733, 9689338, 9689942, 9690546, 9691150, 9691753, 9692356, 9692959, 9693562, 9694163, 9694764, 9695366, 9695967]

/-- Entries 1664 to 1791: math_tables.cc:1352-1365. -/
def log13 : List Int :=
  [9696567, 9697166, 9697766, 9698366, 9698965, 9699563, 9700162, 9700760, 9701357, 9701954, 9702551, 9703148, 9703744, 9704339, 9704935, 9705530,
   9706124, 9706718, 9707313, 9707907, 9708500, 9709092, 9709685, 9710278, 9710869, 9711461, 9712052, 9712643, 9713233, 9713823, 9714413, 9715003,
   9715591, 9716181, 9716769, 9717357, 9717944, 9718532, 9719119, 9719706, 9720292, 9720878, 9721463, 9722049, 9722633, 9723218, 9723803, 9724386,
   9724970, 9725554, 9726136, 9726719, 9727301, 9727883, 9728464, 9729046, 9729627, 9730207, 9730787, 9731367, 9731947, 9732526, 9733105, 9733684,
   9734262, 9734839, 9735416, 9735994, 9736571, 9737147, 9737723, 9738299, 9738875, 9739450, 9740026, 9740600, 9741174, 9741748, 9742321, 9742894,
   9743467, 9744040, 9744612, 9745184, 9745755, 9746326, 9746898, 9747468, 9748038, 9748609, 9749178, 9749747, 9750317, 9750885, 9751453, 9752022,
   9752589, 9753157, 9753723, 9754291, 9754856, 9755423, 9755988, 9756554, 9757119, 9757684, 9758248, 9758812, 9759377, 9759940, 9760503, 9761065,
   9761628, 9762191, 9762753, 9763314, 9763876, 9764437, 9764997, 9765557, 9766118, 9766677, 9767237, 9767796, 9768354, 9768913, 9769471, 9770029]

/-- Entries 1792 to 1919: math_tables.cc:1365-1377. -/
def log14 : List Int :=
  [9770587, 9771144, 9771701, 9772258, 9772814, 9773370, 9773926, 9774481, 9775036, 9775591, 9776145, 9776700, 9777253, 9777807, 9778360, 9778913,
   9779466, 9780018, 9780570, 9781121, 9781673, 9782225, 9782775, 9783325, 9783875, 9784426, 9784975, 9785524, 9786074, 9786622, 9787170, 9787719,
   9788266, 9788814, 9789361, 9789907, 9790455, 9791000, 9791547, 9792092, 9792638, 9793183, 9793728, 9794272, 9794816, 9795361, 9795904, 9796448,
   9796990, 9797533, 9798076, 9798617, 9799159, 9799701, 9800242, 9800783, 9801324, 9801865, 9802404, 9802944, 9803484, 9804023, 9804562, 9805100,
   9805639, 9806177, 9806715, 9807252, 9807789, 9808326, 9808863, 9809399, 9809936, 9810471, 9811007, 9811542, 9812077, 9812611, 9813146, 9813680,
   9814213, 9814747, 9815280, 9815813, 9816345, 9816877, 9817410, 9817942, 9818473, 9819004, 9819535, 9820065, 9820596, 9821126, 9821656, 9822186,
   9822715, 9823243, 9823772, 9824301, 9824829, 9825356, 9825884, 9826411, 9826939, 9827465, 9827991, 9828518, 9829043, 9829569, 9830094, 9830620,
   9831144, 9831669, 9832193, 9832717, 9833241, 9833764, 9834288, 9834810, 9835333, 9835855, 9836377, 9836899, 9837420, 9837941, 9838463, 9838984]

/-- Entries 1920 to 2047: math_tables.cc:1378-1390. -/
def log15 : List Int :=
  [9839503, 9840024, 9840544, 9841063, 9841582, 9842101, 9842621, 9843139, 9843657, 9844175, 9844693, 9845210, 9845728, 9846245, 9846761, 9847278,
   9847794, 9848310, 9848825, 9849340, 9849855, 9850370, 9850884, 9851398, 9851912, 9852427, 9852941, 9853454, 9853967, 9854479, 9854991, 9855503,
   9856015, 9856527, 9857038, 9857550, 9858060, 9858571, 9859081, 9859591, 9860101, 9860611, 9861120, 9861629, 9862138, 9862646, 9863154, 9863663,
   9864170, 9864677, 9865185, 9865692, 9866199, 9866705, 9867211, 9867717, 9868223, 9868729, 9869233, 9869739, 9870243, 9870748, 9871251, 9871756,
   9872259, 9872763, 9873265, 9873769, 9874271, 9874773, 9875276, 9875777, 9876279, 9876781, 9877281, 9877783, 9878283, 9878783, 9879283, 9879784,
   9880283, 9880782, 9881282, 9881781, 9882278, 9882777, 9883275, 9883773, 9884271, 9884768, 9885265, 9885762, 9886259, 9886755, 9887252, 9887748,
   9888243, 9888739, 9889234, 9889729, 9890224, 9890718, 9891212, 9891706, 9892200, 9892693, 9893186, 9893679, 9894172, 9894664, 9895157, 9895648,
   9896140, 9896631, 9897123, 9897614, 9898105, 9898595, 9899086, 9899575, 9900065, 9900555, 9901045, 9901533, 9902022, 9902511, 9903000, 9903487]

/-- `logTable`: math_tables.cc:1185-1391. -/
def logData : List Int :=
  log0 ++ log1 ++ log2 ++ log3 ++ log4 ++ log5 ++ log6 ++ log7 ++ log8 ++ log9 ++ log10 ++ log11 ++ log12 ++ log13 ++ log14 ++ log15

end MathTables
