import Verif.Model.TspData
import Verif.Proofs.TspBound

/-! Bounds of the tours of `TSP299`: prices and clusters for the lower bound, and a short tour (generated data; only the checks matter). -/

namespace Gapp.Proofs.TspBound

open Gapp.Model

set_option maxRecDepth 100000

/-- Clusters for `TSP299`. -/
def tree299 : NatTree :=
  (.node 10330007 (.node 10321356 (.node 10314721 (.node 10306476 (.node 10297506 (.node 10294590 (.node 10289806 (.node 10135889 (.leaf 160 4175 2725 9982057) (.leaf 139 4175 2625 9982054)) (.node 10266710 (.node 10124047 (.leaf 158 3925 2900 10033300) (.leaf 157 3725 2900 10042653)) (.node 10265872 (.leaf 156 3325 2900 10090637) (.node 10262321 (.leaf 142 3325 2450 10093491) (.node 10122515 (.leaf 141 3725 2450 10044188) (.leaf 140 3925 2450 10033297)))))) (.node 10266980 (.leaf 138 4175 2425 9923356) (.node 10249868 (.leaf 96 4275 2325 9951085) (.leaf 95 4275 2225 9899047)))) (.node 10283065 (.node 10273876 (.leaf 210 4275 3025 9937919) (.leaf 209 4275 3125 9888205)) (.leaf 159 4175 2925 9920437))) (.node 10306142 (.node 10302993 (.node 10292721 (.node 10285600 (.node 10284157 (.leaf 101 4775 2125 9963071) (.node 10264204 (.node 10127240 (.leaf 100 4600 2325 10018525) (.leaf 99 4600 2225 9954235)) (.leaf 98 4525 2150 9887627))) (.node 10269926 (.leaf 97 4425 2150 9922664) (.node 10265817 (.leaf 83 4525 2050 9926773) (.leaf 82 4425 2050 9907410)))) (.leaf 94 4325 2150 9884615)) (.node 10302905 (.node 10286357 (.leaf 81 4775 1975 9883936) (.leaf 80 4675 1950 9932784)) (.node 10300740 (.node 10282932 (.node 10197887 (.leaf 79 4925 1925 9968062) (.node 10196620 (.node 10185549 (.node 10143658 (.leaf 77 5075 2075 10022291) (.leaf 75 4975 2025 9945854)) (.leaf 76 5075 1925 9942160)) (.leaf 74 5025 1825 9973023))) (.node 10227061 (.leaf 73 5525 1825 9924543) (.node 10207559 (.leaf 72 5425 1825 9948396) (.leaf 71 5275 1825 9994045)))) (.leaf 78 4775 1875 9889311)))) (.node 10305829 (.node 10302560 (.node 10291275 (.leaf 227 5175 3300 9904821) (.node 10289831 (.leaf 282 4775 3675 9897087) (.node 10269993 (.node 10199800 (.node 10198810 (.node 10195859 (.leaf 232 5275 3525 9935057) (.node 10191278 (.node 10161918 (.leaf 281 4925 3675 9963082) (.node 10150000 (.leaf 280 4925 3800 10000000) (.node 10132003 (.node 10114967 (.leaf 278 5204 3772 10000000) (.node 10106070 (.leaf 276 5375 3675 9989638) (.node 10101441 (.leaf 275 5275 3675 10004292) (.leaf 274 5325 3775 10006070)))) (.leaf 277 5075 3800 10000000)))) (.leaf 231 5375 3525 9969084))) (.node 10174133 (.leaf 230 5025 3450 10000000) (.leaf 229 5175 3475 9977936))) (.leaf 228 4975 3325 9934829)) (.leaf 202 5075 3275 9906981)))) (.node 10300356 (.node 10293831 (.leaf 201 5175 3150 9938123) (.node 10203926 (.leaf 199 5275 3250 9904422) (.leaf 198 5375 3250 9991652))) (.node 10295171 (.node 10292553 (.leaf 70 5675 1825 9919312) (.node 10291957 (.node 10275263 (.node 10256730 (.leaf 200 5450 3025 9940994) (.leaf 165 5450 2925 9902276)) (.leaf 164 5450 2825 9922461)) (.node 10279710 (.node 10266711 (.node 10255492 (.node 10191855 (.node 10180988 (.leaf 240 6775 3425 9960433) (.leaf 239 6875 3325 10000000)) (.leaf 236 6675 3325 9989133)) (.node 10239115 (.node 10223073 (.node 10068667 (.leaf 273 5975 3750 10089173) (.leaf 234 5908 3574 10030481)) (.node 10115348 (.leaf 233 6050 3375 9990914) (.node 9834888 (.leaf 197 6025 3175 10095294) (.node 9560471 (.leaf 196 6125 3025 10250095) (.node 9399274 (.leaf 167 6025 2875 10361292) (.leaf 166 6125 2875 10339434)))))) (.node 10237849 (.node 10235994 (.node 10110826 (.leaf 272 6375 3750 10071712) (.leaf 271 6575 3750 10017462)) (.leaf 237 6575 3525 9971544)) (.leaf 235 6450 3375 9985863)))) (.node 10242410 (.node 10203538 (.node 10076941 (.leaf 270 6975 3725 10039567) (.node 10050891 (.leaf 269 7150 3750 10059880) (.leaf 268 7075 3675 9995295))) (.leaf 238 6975 3525 9956895)) (.node 10188432 (.leaf 242 7150 3475 9972710) (.leaf 241 7150 3325 9988858)))) (.node 10261075 (.node 10224032 (.leaf 195 7325 3225 9932988) (.node 10210826 (.node 10180048 (.node 10179996 (.leaf 189 7825 3125 10023235) (.node 10164898 (.node 10158442 (.node 10153622 (.node 10142571 (.leaf 186 8075 3075 9986649) (.leaf 177 8125 2975 9982583)) (.node 10140979 (.leaf 175 8075 2875 9975598) (.node 10116044 (.leaf 176 8025 2775 9988730) (.leaf 174 8125 2775 9995226)))) (.node 10148807 (.leaf 188 7975 3075 9954863) (.leaf 178 7975 2975 9996330))) (.node 10164893 (.node 10131538 (.leaf 171 7875 2775 9996335) (.node 10116999 (.leaf 173 7750 2800 9984098) (.leaf 127 7750 2650 10048903))) (.node 10164459 (.leaf 172 7825 2925 9996769) (.leaf 170 7925 2875 9950575))))) (.node 10150164 (.node 10149754 (.node 10137756 (.leaf 194 7425 3025 9965869) (.node 10077377 (.leaf 169 7425 2875 10046375) (.leaf 168 7575 2875 10026248))) (.leaf 193 7425 3125 9984377)) (.node 10052322 (.leaf 191 7600 3175 10027183) (.leaf 190 7575 3075 10023572)))) (.node 10210824 (.node 10210802 (.node 10210799 (.node 10209730 (.node 10205971 (.node 10138117 (.leaf 246 7425 3425 9989246) (.leaf 245 7475 3525 9984440)) (.leaf 192 7425 3275 9954783)) (.node 10208908 (.leaf 244 7575 3425 9947251) (.node 10202971 (.leaf 248 7725 3525 9941385) (.leaf 243 7625 3525 9955644)))) (.node 10210780 (.node 10110782 (.leaf 250 7725 3375 9997814) (.leaf 249 7825 3375 9991404)) (.node 10206299 (.node 10200313 (.node 10169231 (.leaf 263 8225 3775 9996535) (.leaf 261 8375 3775 9984234)) (.node 10197110 (.node 10187310 (.node 10183553 (.leaf 265 8075 3675 9966985) (.leaf 262 8175 3625 9961265)) (.node 10184781 (.node 10079102 (.leaf 267 7875 3675 10013187) (.leaf 266 7925 3775 10019514)) (.leaf 264 8075 3775 9945705))) (.leaf 247 7825 3525 9947816))) (.node 10007887 (.leaf 258 8575 3700 10023067) (.node 9862011 (.leaf 257 8675 3800 10110467) (.leaf 256 8775 3700 10168943)))))) (.node 10210693 (.node 10209148 (.node 10205610 (.node 10195090 (.leaf 260 8325 3625 9960825) (.node 10191549 (.leaf 254 8325 3525 9944085) (.node 10026482 (.leaf 252 8225 3325 10067731) (.leaf 251 8225 3425 10005787)))) (.leaf 259 8425 3625 9933565)) (.leaf 187 7975 3275 9978071)) (.leaf 253 8475 3525 9967545))) (.node 10210823 (.node 10210803 (.node 10202927 (.node 10150000 (.node 10143538 (.node 10049130 (.node 10030275 (.leaf 255 8575 3325 10045233) (.leaf 185 8525 3225 10036295)) (.leaf 184 8625 3225 10014575)) (.leaf 183 8775 3275 10000000)) (.node 10100000 (.leaf 182 8775 3125 10000000) (.node 10045282 (.leaf 181 8775 3025 10000000) (.node 9930091 (.leaf 180 8775 2925 10054718) (.leaf 179 8775 2825 10115191))))) (.leaf 119 8625 2600 9952298)) (.node 10207827 (.leaf 118 8725 2525 9961899) (.node 10204163 (.leaf 65 6675 1925 9951782) (.node 10201828 (.node 10201496 (.node 10184348 (.leaf 116 8825 2425 9971695) (.leaf 114 8725 2375 9955760)) (.node 10194756 (.node 10033586 (.leaf 45 7711 1575 9984180) (.leaf 44 7710 1575 9983234)) (.node 10190787 (.node 10080454 (.leaf 115 8703 2197 10021696) (.leaf 113 8825 2225 10023021)) (.node 10181599 (.node 10168125 (.node 10107286 (.node 10022262 (.leaf 55 8825 1825 10000000) (.leaf 54 8820 1928 10080859)) (.leaf 53 8825 1625 10092714)) (.node 10142504 (.node 10100000 (.node 10007286 (.leaf 52 8475 1575 10092714) (.leaf 51 8375 1575 10000000)) (.node 10100000 (.leaf 50 8275 1575 10000000) (.node 10100000 (.leaf 49 8175 1575 10000000) (.node 10100000 (.leaf 48 8075 1575 10000000) (.leaf 47 7975 1575 10000000))))) (.leaf 46 7875 1575 9957496))) (.leaf 43 7825 1675 9972708))))) (.node 10185062 (.node 10071127 (.leaf 42 7560 1576 9964935) (.leaf 40 7560 1575 9964938)) (.node 10184002 (.node 10149003 (.node 10001414 (.leaf 41 7409 1576 10000000) (.leaf 39 7410 1575 10000000)) (.node 10001414 (.leaf 37 7259 1576 10000000) (.leaf 36 7260 1575 10000000))) (.node 10171044 (.leaf 35 7075 1575 10000000) (.node 10160542 (.leaf 34 6875 1575 10028956) (.node 10095091 (.node 10091802 (.leaf 31 6675 1575 10010502) (.node 10088890 (.leaf 33 6525 1725 10010854) (.node 9989916 (.leaf 30 6525 1575 10047696) (.leaf 29 6375 1575 10112388)))) (.leaf 32 6675 1725 10044055)))))))))) (.node 10210813 (.node 10210803 (.leaf 126 7975 2625 9958518) (.node 10205090 (.node 10171313 (.node 10129900 (.leaf 125 8125 2575 9988792) (.node 10115005 (.leaf 124 8225 2600 9978687) (.leaf 123 8225 2500 10006308))) (.node 10119796 (.leaf 121 8475 2600 9980204) (.leaf 120 8375 2600 10000000))) (.leaf 117 8575 2450 9994983))) (.node 10205557 (.node 10198869 (.node 10137101 (.leaf 104 6775 2225 10041044) (.leaf 63 6775 2075 9971855)) (.leaf 62 6825 1925 9987389)) (.node 10199978 (.node 10199061 (.leaf 59 7625 1925 9944245) (.node 10189391 (.node 10177103 (.node 10168389 (.leaf 109 7475 2175 10000000) (.node 10153582 (.leaf 60 7575 2075 9973032) (.leaf 58 7475 1975 10014807))) (.node 10143612 (.leaf 108 7525 2375 10029052) (.leaf 107 7425 2325 9939139))) (.node 10169852 (.node 10113851 (.leaf 106 7075 2175 10024171) (.node 10076052 (.leaf 64 6975 2075 10003399) (.leaf 61 7075 1975 10061970))) (.leaf 105 7275 2275 10029583)))) (.node 10199577 (.node 10193933 (.node 10191084 (.leaf 122 7975 2475 9980669) (.node 10117356 (.leaf 111 7825 2175 10067475) (.node 10114504 (.leaf 112 7875 2350 9988325) (.leaf 110 7775 2350 9997171)))) (.leaf 57 7725 1975 9962198)) (.node 10117801 (.leaf 56 7725 1825 9988225) (.leaf 38 7625 1775 10005777)))))))))) (.node 10144719 (.leaf 67 6425 2075 10078669) (.node 10029219 (.node 9807493 (.leaf 69 6025 2075 10149504) (.leaf 68 6000 1975 10146080)) (.leaf 66 6200 1975 10022833))))))) (.node 10291609 (.node 10234256 (.node 10122772 (.leaf 163 5175 2875 10036521) (.node 10118599 (.node 10118598 (.node 10094780 (.leaf 135 4975 2525 10034896) (.leaf 134 5075 2575 9982127)) (.node 10118586 (.node 10094762 (.leaf 162 5075 2775 9982128) (.leaf 161 4975 2825 10034913)) (.node 10104690 (.leaf 136 5025 2675 10004614) (.leaf 133 5175 2675 10040696)))) (.leaf 137 4875 2675 10026765))) (.leaf 132 5175 2475 9925038)) (.node 10286865 (.node 10259038 (.leaf 131 5250 2400 9885848) (.node 10244950 (.leaf 130 5450 2675 9932368) (.node 10177318 (.leaf 129 5450 2525 9972682) (.node 10147963 (.leaf 128 5350 2400 9955114) (.leaf 103 5450 2375 10000000))))) (.leaf 102 5175 2325 9933353)))))) (.node 10305594 (.node 10289416 (.node 10276067 (.node 10272560 (.leaf 220 4175 3400 9926323) (.node 10111803 (.node 10078828 (.leaf 285 4325 3725 10039567) (.leaf 218 4325 3575 10031605)) (.leaf 284 4425 3675 9960433))) (.leaf 283 4575 3675 9913500)) (.leaf 279 4675 3675 9897084)) (.node 10304890 (.node 10304201 (.node 10303978 (.node 10302945 (.leaf 93 4175 2150 9918384) (.leaf 86 4275 2050 9920092)) (.node 10299879 (.leaf 221 4125 3300 9879846) (.node 10298639 (.node 10292330 (.node 9981917 (.leaf 294 2675 3675 10014333) (.node 9812285 (.node 9432250 (.leaf 296 2375 3675 10283965) (.node 9235982 (.leaf 297 2175 3675 10480233) (.leaf 295 2275 3675 10383785))) (.leaf 293 2575 3675 10103750))) (.node 10280669 (.leaf 292 2925 3725 9948287) (.node 10223606 (.node 10150000 (.node 10132033 (.leaf 291 3125 3725 9971044) (.node 10100000 (.leaf 290 3325 3750 10000000) (.leaf 289 3225 3750 10000000))) (.node 10150000 (.leaf 288 3475 3750 10000000) (.leaf 287 3625 3750 10000000))) (.node 10192106 (.leaf 286 3825 3650 10000000) (.node 10175997 (.node 10166396 (.leaf 217 3975 3375 9945407) (.node 10117106 (.leaf 216 3825 3475 9982894) (.leaf 215 3925 3475 10000000))) (.node 10107639 (.leaf 212 3875 3275 10020017) (.leaf 211 3975 3275 9972344))))))) (.node 10297346 (.node 10294745 (.node 10294639 (.node 10279664 (.leaf 214 2925 3475 9997336) (.leaf 213 2925 3198 10000000)) (.leaf 155 2925 2925 9978361)) (.node 10293545 (.node 10189507 (.node 10140567 (.node 10104904 (.leaf 154 2651 2787 10033683) (.leaf 153 2552 2785 9960433)) (.node 10103000 (.node 10099005 (.leaf 152 2451 2785 10000000) (.leaf 151 2352 2786 10000000)) (.node 10028812 (.leaf 150 2249 2786 10000000) (.leaf 149 2148 2786 10072188)))) (.node 10188653 (.node 10099303 (.leaf 148 2175 2525 10000697) (.node 10081788 (.leaf 147 2375 2525 10018212) (.leaf 146 2275 2525 10000000))) (.node 10093710 (.leaf 145 2675 2525 10013155) (.leaf 144 2575 2525 9993135)))) (.node 10278080 (.leaf 143 2925 2425 9962558) (.leaf 92 2925 2150 10034362)))) (.node 10293702 (.node 10290080 (.node 10278178 (.node 10235313 (.node 10185826 (.node 10174256 (.node 10162609 (.leaf 89 3975 1975 9966547) (.node 10118809 (.leaf 90 3975 2075 9968926) (.leaf 88 3875 2075 10012265))) (.node 10140803 (.leaf 87 3875 1900 9984197) (.leaf 13 3875 1775 10000000))) (.leaf 12 3900 1625 9966243)) (.node 10125000 (.leaf 11 3700 1600 10000000) (.node 10100000 (.leaf 10 3575 1600 10000000) (.node 10055844 (.leaf 9 3475 1600 10000000) (.node 9927939 (.leaf 8 3375 1600 10044156) (.leaf 7 3275 1600 10127905)))))) (.leaf 6 2975 1725 9918917)) (.node 10288529 (.leaf 91 2925 1875 9943292) (.node 9781315 (.node 9622792 (.leaf 5 2556 1639 10197556) (.node 9440952 (.node 9244358 (.node 9053185 (.leaf 3 2256 1640 10474242) (.leaf 0 2156 1639 10572577)) (.leaf 2 2355 1640 10380400)) (.leaf 1 2456 1639 10279652))) (.leaf 4 2656 1640 10121133)))) (.leaf 85 4125 2050 9889441)))))) (.node 10304161 (.leaf 219 4275 3300 9909504) (.leaf 208 4175 3200 9927756))) (.node 10302777 (.node 10294164 (.leaf 84 4175 1950 9916439) (.node 10248754 (.leaf 22 4710 1565 9916618) (.node 10214332 (.leaf 20 4560 1565 9984628) (.node 10209852 (.node 10201438 (.leaf 19 4550 1750 9953947) (.node 10188592 (.leaf 18 4450 1750 9944615) (.node 10077643 (.leaf 16 4375 1675 9972859) (.node 10003081 (.leaf 15 4275 1725 10035618) (.leaf 14 4275 1625 10061301))))) (.leaf 17 4500 1675 9926339))))) (.node 10300772 (.node 10258652 (.node 10246372 (.node 10227704 (.node 10124801 (.leaf 28 5610 1565 10042856) (.leaf 27 5460 1565 9982343)) (.leaf 26 5310 1565 9939953)) (.node 10222077 (.leaf 25 5160 1565 9963675) (.leaf 24 5010 1565 9964248))) (.leaf 23 4860 1565 9927100)) (.leaf 21 4775 1725 9953304)))))))) (.node 10313817 (.leaf 207 4325 3200 9887212) (.node 10313229 (.node 10300915 (.leaf 223 4400 3300 9890877) (.leaf 222 4500 3300 9908208)) (.leaf 206 4425 3200 9898971)))) (.node 10287376 (.node 10170163 (.leaf 205 4575 3025 10000588) (.leaf 204 4575 3125 9929249)) (.leaf 203 4525 3200 9873513))) (.node 10292830 (.leaf 226 4775 3375 9897502) (.node 10290865 (.leaf 225 4675 3400 9912745) (.leaf 224 4725 3525 9931019))))

/-- Prices and clusters for `TSP299`. -/
def cert299 : TspCert where
  scale := 1000
  prices := [
    572577, 279652, 380400, 474242, 121133, 197556, -81083, 127905, 44156, 0, 0, 0, -33757, 0, 61301, 35618, -27141, -73661, -55385, -46053, -15372,
    -46696, -83382, -72900, -35752, -36325, -60047, -17657, 42856, 112388, 47696, 10502, 44055, 10854, 28956, 0, 0, 0, 5777, 0, -35062, 0, -35065,
    -27292, -16766, -15820, -42504, 0, 0, 0, 0, 0, 92714, 92714, 80859, 0, -11775, -37802, 14807, -55755, -26968, 61970, -12611, -28145, 3399,
    -48218, 22833, 78669, 146080, 149504, -80688, -5955, -51604, -75457, -26977, -54146, -57840, 22291, -110689, -31938, -67216, -116064, -92590,
    -73227, -83561, -110559, -79908, -15803, 12265, -33453, -31074, -56708, 34362, -81616, -115385, -100953, -48915, -77336, -112373, -45765, 18525,
    -36929, -66647, 0, 41044, 29583, 24171, -60861, 29052, 0, -2829, 67475, -11675, 23021, -44240, 21696, -28305, -5017, -38101, -47702, 0, -19796,
    -19331, 6308, -21313, -11208, -41482, 48903, -44886, -27318, -67632, -114152, -74962, 40696, -17873, 34896, 4614, 26765, -76644, -17946, 33297,
    44188, 93491, -37442, -6865, 13155, 0, 18212, 697, 72188, 0, 0, 0, -39567, 33683, -21639, 90637, 42653, 33300, -79563, -17943, 34913, -17872,
    36521, -77539, -97724, 339434, 361292, 26248, 46375, -49425, -3665, -3231, -15902, -4774, -24402, -11270, -17417, -3670, 115191, 54718, 0, 0, 0,
    14575, 36295, -13351, -21929, -45137, 23235, 23572, 27183, -45217, -15623, -34131, -67012, 250095, 95294, -8348, -95578, -59006, -61877, -93019,
    -126487, -70751, 588, -101029, -112788, -72244, -111795, -62081, -27656, 20017, 0, -2664, 0, -17106, -54593, 31605, -90496, -73677, -120154,
    -91792, -109123, -68981, -87255, -102498, -95179, -65171, -22064, 0, -30916, -64943, -9086, 30481, -14137, -10867, -28456, -43105, 0, -39567,
    -11142, -27290, -44356, -52749, -15560, -10754, -52184, -58615, -8596, -2186, 5787, 67731, -32455, -55915, 45233, 168943, 110467, 23067, -66435,
    -39175, -15766, -38735, -3465, -54295, -33015, 19514, 13187, -4705, 59880, 39567, 17462, 71712, 89173, 6070, 4292, -10362, 0, 0, -102916, 0,
    -36918, -102913, -86500, -39567, 39567, 0, 0, 0, 0, 0, -28956, -51713, 103750, 14333, 383785, 283965, 480233, 0]
  tree := tree299.decode 10000000
  next := 226
  b1 := 252498
  b2 := 282254

/-- A short tour of `TSP299`. -/
def tour299 : List Nat := [
  205, 204, 203, 206, 207, 209, 210, 159, 160, 139, 138, 140, 141, 142, 156, 157, 158, 212, 211, 217, 215, 216, 286, 287, 288, 290, 289, 291, 292,
  294, 293, 296, 295, 297, 214, 213, 155, 154, 153, 152, 151, 150, 149, 148, 146, 147, 144, 145, 143, 92, 91, 0, 3, 2, 1, 5, 4, 6, 7, 8, 9, 10, 11,
  12, 13, 87, 89, 88, 90, 85, 84, 86, 93, 96, 95, 94, 97, 82, 83, 98, 99, 100, 101, 75, 77, 76, 74, 79, 81, 80, 78, 21, 19, 18, 15, 14, 16, 17, 20,
  22, 23, 24, 25, 26, 27, 28, 71, 72, 73, 70, 68, 69, 66, 67, 104, 63, 64, 106, 61, 62, 65, 32, 33, 29, 30, 31, 34, 35, 37, 36, 41, 39, 40, 42, 44,
  45, 43, 46, 47, 48, 49, 50, 51, 52, 53, 55, 54, 115, 113, 114, 116, 118, 117, 120, 121, 119, 179, 180, 181, 182, 183, 184, 255, 185, 252, 251, 254,
  260, 259, 253, 256, 257, 258, 261, 263, 262, 265, 264, 266, 267, 247, 248, 243, 245, 246, 244, 250, 249, 187, 189, 172, 170, 178, 188, 186, 177,
  175, 176, 174, 124, 123, 125, 126, 122, 112, 110, 111, 57, 56, 38, 59, 58, 60, 109, 105, 107, 108, 127, 171, 173, 168, 169, 194, 193, 190, 191,
  192, 195, 241, 242, 269, 268, 270, 238, 239, 240, 236, 235, 237, 271, 272, 273, 234, 233, 197, 196, 166, 167, 200, 165, 164, 130, 129, 103, 128,
  131, 102, 132, 133, 136, 134, 135, 137, 161, 162, 163, 201, 198, 199, 227, 202, 228, 230, 229, 232, 231, 276, 275, 274, 278, 277, 280, 281, 282,
  279, 283, 284, 285, 218, 220, 221, 208, 219, 223, 222, 225, 224, 226]

/-- Bounds of the lengths of its steps. -/
def tourSteps299 : List Int := [
  282843, 100000, 90139, 100000, 100000, 90139, 100000, 141422, 200000, 100000, 200000, 251247, 200000, 400000, 450000, 400000, 200000, 378319,
  100000, 100000, 111804, 100000, 175000, 223607, 150000, 150000, 100000, 103078, 200000, 254951, 100000, 200000, 100000, 100000, 776209, 277000,
  273000, 306790, 99021, 101000, 99006, 103000, 101000, 262393, 100000, 100000, 200000, 100000, 269259, 275000, 275000, 804399, 100005, 99000,
  101005, 100000, 100005, 330131, 325000, 100000, 100000, 100000, 125000, 201557, 152070, 125000, 125000, 141422, 100000, 152070, 111804, 141422,
  141422, 201557, 100000, 90139, 100000, 100000, 100000, 100000, 106067, 100000, 265754, 223607, 111804, 150000, 111804, 141422, 158114, 103078,
  125000, 150000, 226385, 100000, 176777, 100000, 111804, 125000, 125300, 150000, 150000, 150000, 150000, 150000, 150000, 150000, 424058, 150000,
  100000, 150000, 357946, 103078, 201557, 246222, 380789, 150000, 200000, 141422, 200000, 254951, 150000, 200000, 150000, 212133, 150000, 150000,
  200000, 200000, 184003, 1415, 149004, 1415, 150000, 1000, 150004, 1000, 151645, 111804, 100000, 100000, 100000, 100000, 100000, 100000, 353554,
  200000, 103122, 293343, 125172, 180278, 111804, 141422, 167706, 250000, 100000, 150000, 270417, 100000, 100000, 100000, 150000, 158114, 111804,
  111804, 316228, 100000, 141422, 100000, 100000, 111804, 347312, 141422, 141422, 213601, 150000, 158114, 111804, 100000, 150000, 111804, 158114,
  100000, 100000, 150000, 111804, 150000, 158114, 100000, 180278, 212133, 200000, 111804, 111804, 100000, 100000, 111804, 111804, 111804, 100000,
  201557, 100000, 125000, 158114, 150000, 160079, 100000, 182003, 223607, 150000, 111804, 150000, 158114, 141422, 141422, 223607, 158114, 111804,
  355317, 176777, 127476, 190395, 150000, 150000, 100000, 158114, 103078, 201557, 111804, 201557, 150000, 275000, 106067, 111804, 200000, 223607,
  141422, 141422, 230489, 195257, 225000, 200000, 400000, 188322, 244469, 201557, 180278, 150000, 100000, 594244, 100000, 100000, 150000, 150000,
  150000, 103078, 100000, 106067, 150000, 200000, 150000, 111804, 111804, 180278, 180278, 111804, 141422, 275000, 223607, 100000, 111804, 103078,
  111804, 134630, 152070, 111804, 100000, 150000, 100000, 111804, 121038, 132004, 150000, 125000, 150000, 100000, 100000, 150000, 111804, 150000,
  230489, 111804, 111804, 141422, 125000, 100000, 201557, 134630, 158114, 150000]

theorem cert299_check : cert299.check tsp299Coords = true :=
  TspCert.check_of (T := tree299) (s := 1000) (k := 10000000) rfl rfl (by decide +kernel) (by decide +kernel)

theorem cert299_bound : 47387243 ≤ cert299.bound := by decide +kernel

theorem tour299_check : tourCheck 1000 tsp299Coords tour299 tourSteps299 = true := by decide +kernel

theorem tour299_sum : tourSteps299.sum ≤ 48194995 := by decide +kernel

end Gapp.Proofs.TspBound
