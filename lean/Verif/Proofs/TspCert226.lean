import Verif.Model.TspData
import Verif.Proofs.TspBound

/-! Bounds of the tours of `TSP226`: prices and clusters for the lower bound, and a short tour (generated data; only the checks matter). -/

namespace Gapp.Proofs.TspBound

open Gapp.Model

set_option maxRecDepth 100000

/-- Clusters for `TSP226`. -/
def tree226 : NatTree :=
  (.node 17086820 (.node 17085461 (.leaf 224 13825 11850 6557050) (.leaf 223 13725 11850 6457489)) (.node 16888949 (.leaf 222 13625 11850 6555691) (.node 16689439 (.leaf 221 13525 11850 6655360) (.node 16489815 (.leaf 220 13425 11850 6755201) (.node 16292832 (.leaf 219 13325 11850 6854984) (.node 16096624 (.leaf 218 13225 11850 6952184) (.node 15898058 (.leaf 217 13125 11850 7051192) (.node 15698707 (.leaf 216 13025 11850 7150750) (.node 14899422 (.leaf 215 12625 11850 7550543) (.node 14700575 (.leaf 214 12525 11850 7650035) (.node 14502643 (.leaf 213 12425 11850 7749390) (.node 14304998 (.leaf 212 12325 11850 7847967) (.node 14107813 (.leaf 211 12225 11850 7947035) (.node 13910843 (.leaf 210 12125 11850 8045152) (.node 13714600 (.leaf 209 12025 11850 8144005) (.node 13517281 (.leaf 208 11925 11850 8241395) (.node 13317991 (.leaf 207 11825 11850 8341324) (.node 13119771 (.leaf 206 11725 11850 8440685) (.node 12522990 (.leaf 205 11425 11850 8739544) (.node 12325178 (.leaf 204 11325 11850 8837466) (.node 12322654 (.node 12126337 (.leaf 203 11225 11850 8937356) (.node 11927676 (.leaf 202 11125 11850 9036307) (.node 11731509 (.leaf 201 11025 11850 9136017) (.node 11383923 (.node 11235383 (.leaf 200 10775 11850 9382474) (.node 11114006 (.node 11097594 (.node 11083867 (.node 11067240 (.node 11050386 (.leaf 199 10675 11850 9482143) (.node 11011280 (.leaf 198 10575 11850 9567471) (.leaf 197 10475 11850 9521249))) (.leaf 196 10375 11850 9511511)) (.leaf 195 10275 11850 9504622)) (.leaf 194 10175 11850 9497784)) (.leaf 193 10075 11850 9488210))) (.node 11165261 (.leaf 192 9725 11850 9477867) (.node 11117195 (.leaf 191 9625 11850 9456872) (.leaf 190 9525 11850 9525933))))))) (.node 12029949 (.node 12029518 (.node 12028935 (.node 10400283 (.leaf 114 12625 6900 9829219) (.node 10400242 (.node 10400164 (.leaf 117 12625 7200 9870093) (.node 10400069 (.leaf 115 12625 7000 9870153) (.node 10400017 (.leaf 109 12525 7200 9829529) (.node 10399995 (.node 10399803 (.leaf 116 12625 7100 9829743) (.node 10399768 (.leaf 108 12525 7100 9870454) (.leaf 107 12525 7000 9829778))) (.leaf 106 12525 6900 9870227))))) (.node 10399971 (.node 10399962 (.leaf 110 12625 6500 9829019) (.node 10399759 (.node 10399740 (.node 10399713 (.leaf 113 12625 6800 9870498) (.node 10399549 (.leaf 112 12625 6700 9829789) (.leaf 111 12625 6600 9870662))) (.node 10399408 (.leaf 104 12525 6600 9829573) (.leaf 102 12525 6500 9871019))) (.leaf 103 12525 6700 9870452))) (.leaf 105 12525 6800 9829531)))) (.node 12019686 (.node 11766897 (.node 11723845 (.node 10300000 (.node 10219379 (.node 10127829 (.node 9973031 (.node 9805118 (.node 9657237 (.node 8888495 (.node 8695921 (.node 8508935 (.node 8331634 (.node 8142866 (.node 7948261 (.node 7761601 (.node 7575586 (.node 7389250 (.leaf 189 6275 11850 11401413) (.leaf 188 6175 11850 11309337)) (.leaf 187 6075 11850 11215077)) (.leaf 186 5975 11850 11123322)) (.leaf 185 5875 11850 11028417)) (.leaf 184 5775 11850 10928717)) (.leaf 183 5675 11850 10839649)) (.leaf 182 5575 11850 10751416)) (.leaf 181 5475 11850 10652663)) (.leaf 180 5375 11850 10558842)) (.leaf 179 4975 11850 10183921)) (.leaf 178 4875 11850 10110961)) (.leaf 177 4775 11850 10016008)) (.leaf 176 4675 11850 9956163)) (.node 10175542 (.leaf 175 4575 11850 9924458) (.node 10100000 (.leaf 174 4475 11850 10000000) (.node 10100000 (.leaf 173 4375 11850 10000000) (.node 10100000 (.leaf 172 4275 11850 10000000) (.node 10100000 (.leaf 171 4175 11850 10000000) (.leaf 170 4075 11850 10000000))))))) (.node 10250000 (.node 10100000 (.leaf 169 3775 11850 10000000) (.node 10100000 (.leaf 168 3675 11850 10000000) (.node 10100000 (.leaf 167 3575 11850 10000000) (.node 10100000 (.leaf 166 3475 11850 10000000) (.leaf 165 3375 11850 10000000))))) (.node 10100000 (.leaf 164 3125 11850 10000000) (.node 10100000 (.leaf 163 3025 11850 10000000) (.node 10100000 (.leaf 162 2925 11850 10000000) (.node 10100000 (.leaf 161 2825 11850 10000000) (.node 10100000 (.leaf 160 2725 11850 10000000) (.node 10100000 (.leaf 159 2625 11850 10000000) (.node 10021620 (.leaf 158 2525 11850 10000000) (.node 9860122 (.leaf 157 2425 11850 10078380) (.node 9200287 (.leaf 156 2075 11850 10411498) (.node 9039361 (.leaf 155 1975 11850 10488215) (.leaf 154 1875 11850 10572424))))))))))))) (.node 8720806 (.node 8662849 (.leaf 153 2125 8800 10763959) (.leaf 152 2225 8800 10673192)) (.node 8596849 (.leaf 151 2325 8800 10706002) (.leaf 150 2425 8800 10797149)))) (.node 11073793 (.node 10327112 (.node 10327021 (.node 10324809 (.node 10323930 (.leaf 148 4875 8850 9886424) (.node 10316843 (.node 10315291 (.node 10302762 (.node 10301600 (.leaf 149 4875 9050 9895063) (.leaf 142 4975 9050 9903337)) (.leaf 141 4975 8950 9893901)) (.leaf 147 4875 8950 9889646)) (.leaf 140 4975 8850 9889256))) (.leaf 139 4975 8750 9885935)) (.node 10327011 (.node 10326859 (.leaf 143 4875 8450 9885380) (.node 10326670 (.node 10326460 (.leaf 145 4875 8550 9887595) (.leaf 144 4875 8650 9885945)) (.node 10326504 (.leaf 137 4975 8550 9885735) (.leaf 136 4975 8450 9887761)))) (.leaf 138 4975 8650 9887044))) (.leaf 146 4875 8750 9886464)) (.node 9525118 (.node 9524663 (.node 9523502 (.node 9521619 (.node 9516822 (.leaf 95 4975 6600 10273007) (.leaf 94 4975 6500 10310171)) (.leaf 86 4875 6500 10268210)) (.node 9523484 (.node 9522434 (.leaf 97 4975 6800 10275295) (.leaf 96 4975 6700 10302271)) (.node 9522264 (.leaf 88 4875 6600 10303491) (.leaf 87 4875 6700 10274245)))) (.node 9522083 (.node 9521839 (.leaf 101 4975 7200 10284055) (.leaf 100 4975 7100 10294106)) (.node 9521111 (.node 9519852 (.node 9518493 (.leaf 99 4975 7000 10283034) (.leaf 98 4975 6900 10298473)) (.node 9519075 (.leaf 92 4875 7100 10283811) (.leaf 91 4875 7000 10297114))) (.node 9519542 (.leaf 90 4875 6900 10280416) (.leaf 89 4875 6800 10300042))))) (.leaf 93 4875 7200 10290827)))) (.node 11059032 (.node 10570216 (.node 10527563 (.node 10495015 (.node 10479764 (.node 10474915 (.node 10393121 (.node 10132294 (.node 9446737 (.leaf 40 2075 3850 11567295) (.leaf 39 2075 1450 11385968)) (.node 10129393 (.leaf 43 5025 2150 10235799) (.node 10129292 (.node 10126406 (.node 10124900 (.node 10123297 (.node 9974271 (.leaf 46 5475 3000 10357857) (.leaf 45 5475 2500 10167872)) (.leaf 44 5450 2150 10059722)) (.leaf 42 4375 3300 10657418)) (.leaf 41 3775 2300 10382366)) (.node 10121240 (.node 9886915 (.leaf 38 3775 1600 10188342) (.leaf 37 4375 1300 10595563)) (.leaf 36 5025 1725 10059808))))) (.leaf 35 5450 1725 9972071)) (.node 10468462 (.node 10315390 (.node 10096822 (.leaf 34 5525 1200 10083344) (.leaf 33 5675 1200 9969834)) (.node 10291112 (.leaf 29 5825 1200 9864776) (.leaf 28 5975 1200 9994112))) (.node 10464441 (.node 10450216 (.leaf 48 6325 2200 10237338) (.node 10442205 (.leaf 47 5825 2050 9834461) (.node 10426559 (.leaf 32 5825 1900 9873334) (.node 10351699 (.leaf 31 5825 1750 9850107) (.leaf 30 5825 1600 9948194))))) (.leaf 27 6325 1500 9998221)))) (.leaf 26 6275 1200 9826124)) (.leaf 25 6375 1200 9778861)) (.leaf 24 6475 1200 9793576)) (.node 10163792 (.leaf 23 6775 1200 9936208) (.node 10100000 (.leaf 22 6875 1200 10000000) (.leaf 21 6975 1200 10000000)))) (.node 10911167 (.node 10817095 (.node 10678024 (.node 10526385 (.node 10518981 (.node 10424001 (.node 10301812 (.node 10233446 (.node 10200261 (.leaf 63 9725 3850 10800988) (.node 10100000 (.leaf 62 8725 3800 10000000) (.node 10100000 (.leaf 61 8725 3700 10000000) (.node 10100000 (.leaf 60 8725 3600 10000000) (.node 10100000 (.leaf 59 8725 3500 10000000) (.node 10100000 (.leaf 58 8725 3400 10000000) (.node 10100000 (.leaf 57 8725 3300 10000000) (.leaf 56 8725 3200 10000000)))))))) (.leaf 55 8725 3050 9916554)) (.leaf 54 8725 2950 9881634)) (.leaf 53 8725 2850 9794365)) (.leaf 52 8725 2750 9786654)) (.node 10426750 (.leaf 51 8725 2650 9786961) (.leaf 50 8725 2550 9886289))) (.node 10367587 (.node 9670090 (.node 9669915 (.node 9669800 (.node 9669534 (.node 9668047 (.node 9520916 (.leaf 69 13125 3000 10585655) (.leaf 68 13125 2500 10393429)) (.leaf 67 13100 2150 10289415)) (.node 9669122 (.leaf 65 12025 3300 10884986) (.leaf 64 11425 2300 10612082))) (.leaf 66 12675 2150 10465785)) (.node 9669377 (.node 9434674 (.leaf 18 11425 1600 10418003) (.leaf 17 12025 1300 10818143)) (.leaf 16 12675 1725 10289091))) (.node 9400040 (.leaf 15 13100 1725 10465165) (.node 9305756 (.node 9305745 (.node 9304902 (.node 9207101 (.node 8968813 (.leaf 14 13175 1200 10665019) (.leaf 13 13325 1200 10516168)) (.node 9147358 (.leaf 9 13475 1200 10426731) (.leaf 8 13625 1200 10575911))) (.node 9304459 (.node 9303869 (.leaf 71 13975 2200 10815507) (.node 9303652 (.node 9301079 (.leaf 70 13475 2050 10402639) (.leaf 12 13475 1900 10446282)) (.node 9219855 (.leaf 11 13475 1750 10400066) (.leaf 10 13475 1600 10530079)))) (.leaf 7 13975 1500 10580034))) (.node 9305139 (.leaf 6 13925 1200 10418344) (.node 9276652 (.leaf 5 14025 1200 10376517) (.leaf 4 14125 1200 10446831)))) (.node 9305082 (.node 9103407 (.leaf 3 14425 1200 10547413) (.node 9103358 (.leaf 2 14525 1200 10449180) (.leaf 1 14625 1200 10547462))) (.node 8637611 (.node 7834614 (.node 6678058 (.node 6561662 (.node 6363784 (.node 6164676 (.node 5966487 (.node 5668904 (.node 5470388 (.node 5270623 (.node 5070795 (.node 4871840 (.node 4673441 (.leaf 85 16375 3800 12762922) (.leaf 84 16375 3700 12663637)) (.leaf 83 16375 3600 12564523)) (.leaf 82 16375 3500 12464682)) (.leaf 81 16375 3400 12364695)) (.leaf 80 16375 3300 12264917)) (.leaf 79 16375 3200 12166179)) (.leaf 78 16375 3050 12017334)) (.leaf 77 16375 2950 11917990)) (.leaf 76 16375 2850 11818226)) (.leaf 75 16375 2750 11720112)) (.node 6596468 (.leaf 74 16375 2650 11701830) (.leaf 73 16375 2550 11801702))) (.leaf 72 15625 2150 11213684)) (.leaf 0 15625 1150 11148705)))))) (.leaf 19 9725 1450 10920988))) (.leaf 49 7975 2150 10146616)) (.leaf 20 7975 1150 9942217))))) (.node 8002910 (.node 7951080 (.node 7769556 (.leaf 135 9775 8800 11211536) (.leaf 134 9875 8800 11118908)) (.leaf 133 9975 8800 11030012)) (.leaf 132 10075 8800 11067078))) (.node 11400764 (.node 11389704 (.node 11389436 (.node 11389229 (.leaf 131 12525 9050 9365296) (.leaf 129 12525 8950 9345475)) (.node 11389182 (.leaf 123 12625 8950 9365089) (.leaf 122 12625 8850 9345729))) (.leaf 124 12625 9050 9345000)) (.node 11399249 (.leaf 130 12525 8850 9353483) (.node 11399225 (.leaf 128 12525 8750 9347268) (.node 11399000 (.node 11398905 (.node 11398901 (.leaf 121 12625 8750 9353507) (.leaf 120 12625 8650 9347592)) (.node 11398832 (.leaf 127 12525 8550 9347665) (.node 11398618 (.leaf 125 12525 8450 9353390) (.node 11398505 (.leaf 119 12625 8550 9353503) (.leaf 118 12625 8450 9347992))))) (.leaf 126 12525 8650 9353335)))))))))))))))))))))))))))

/-- Prices and clusters for `TSP226`. -/
def cert226 : TspCert where
  scale := 1000
  prices := [
    1148705, 547462, 449180, 547413, 446831, 376517, 418344, 580034, 575911, 426731, 530079, 400066, 446282, 516168, 665019, 465165, 289091, 818143,
    418003, 920988, -57783, 0, 0, -63792, -206424, -221139, -173876, -1779, -5888, -135224, -51806, -149893, -126666, -30166, 83344, -27929, 59808,
    595563, 188342, 1385968, 1567295, 382366, 657418, 235799, 59722, 167872, 357857, -165539, 237338, 146616, -113711, -213039, -213346, -205635,
    -118366, -83446, 0, 0, 0, 0, 0, 0, 0, 800988, 612082, 884986, 465785, 289415, 393429, 585655, 402639, 815507, 1213684, 1801702, 1701830, 1720112,
    1818226, 1917990, 2017334, 2166179, 2264917, 2364695, 2464682, 2564523, 2663637, 2762922, 268210, 274245, 303491, 300042, 280416, 297114, 283811,
    290827, 310171, 273007, 302271, 275295, 298473, 283034, 294106, 284055, -128981, -129548, -170427, -170469, -129773, -170222, -129546, -170471,
    -170981, -129338, -170211, -129502, -170781, -129847, -170257, -129907, -652008, -646497, -652408, -646493, -654271, -634911, -655000, -646610,
    -646665, -652335, -652732, -654525, -646517, -634704, 1067078, 1030012, 1118908, 1211536, -112239, -114265, -112956, -114065, -110744, -106099,
    -96663, -114620, -114055, -112405, -113536, -110354, -113576, -104937, 797149, 706002, 673192, 763959, 572424, 488215, 411498, 78380, 0, 0, 0, 0,
    0, 0, 0, 0, 0, 0, 0, 0, 0, 0, 0, 0, 0, -75542, -43837, 16008, 110961, 183921, 558842, 652663, 751416, 839649, 928717, 1028417, 1123322, 1215077,
    1309337, 1401413, -474067, -543128, -522133, -511790, -502216, -495378, -488489, -478751, -432529, -517857, -617526, -863983, -963693, -1062644,
    -1162534, -1260456, -1559315, -1658676, -1758605, -1855995, -1954848, -2052965, -2152033, -2250610, -2349965, -2449457, -2849250, -2948808,
    -3047816, -3145016, -3244799, -3344640, -3444309, -3542511, -3442950, 0]
  tree := tree226.decode 10000000
  next := 224
  b1 := 3542950
  b2 := 3742069

/-- A short tour of `TSP226`. -/
def tour226 : List Nat := [
  124, 131, 129, 123, 122, 121, 120, 119, 118, 125, 127, 126, 128, 130, 132, 133, 134, 135, 109, 117, 108, 116, 115, 107, 106, 114, 113, 105, 103,
  112, 111, 104, 102, 110, 85, 84, 83, 82, 81, 80, 79, 78, 77, 76, 75, 74, 73, 72, 0, 1, 2, 3, 4, 5, 6, 7, 71, 70, 12, 11, 10, 8, 9, 13, 14, 15, 16,
  66, 67, 68, 69, 65, 64, 17, 18, 19, 63, 62, 61, 60, 59, 58, 57, 56, 55, 54, 53, 52, 51, 50, 49, 20, 21, 22, 23, 24, 25, 26, 27, 48, 47, 32, 31, 30,
  28, 29, 33, 34, 35, 36, 43, 44, 45, 46, 42, 41, 37, 38, 39, 40, 86, 94, 95, 88, 87, 96, 97, 89, 90, 98, 99, 91, 92, 100, 101, 93, 143, 136, 137,
  145, 144, 138, 139, 140, 141, 142, 149, 147, 148, 146, 150, 151, 152, 153, 154, 155, 156, 157, 158, 159, 160, 161, 162, 163, 164, 165, 166, 167,
  168, 169, 170, 171, 172, 173, 174, 175, 176, 177, 178, 179, 180, 181, 182, 183, 184, 185, 186, 187, 188, 189, 190, 191, 192, 193, 194, 195, 196,
  197, 198, 199, 200, 201, 202, 203, 204, 205, 206, 207, 208, 209, 210, 211, 212, 213, 214, 215, 216, 217, 218, 219, 220, 221, 222, 223, 224]

/-- Bounds of the lengths of its steps. -/
def tourSteps226 : List Int := [
  3087070, 100000, 100000, 100000, 100000, 100000, 100000, 100000, 100000, 100000, 100000, 100000, 100000, 100000, 2450511, 100000, 100000, 100000,
  3181588, 100000, 141422, 100000, 100000, 100000, 100000, 100000, 100000, 100000, 100000, 100000, 100000, 100000, 100000, 100000, 4620877, 100000,
  100000, 100000, 100000, 100000, 100000, 150000, 100000, 100000, 100000, 100000, 100000, 850000, 1000000, 1001250, 100000, 100000, 300000, 100000,
  100000, 304139, 700000, 522016, 150000, 150000, 150000, 427201, 150000, 150000, 150000, 530331, 425000, 425000, 425000, 350892, 500000, 1140176,
  1166191, 1166191, 670821, 1706605, 2400000, 1001250, 100000, 100000, 100000, 100000, 100000, 100000, 150000, 100000, 100000, 100000, 100000,
  100000, 850000, 1000000, 1001250, 100000, 100000, 300000, 100000, 100000, 304139, 700000, 522016, 150000, 150000, 150000, 427201, 150000, 150000,
  150000, 530331, 425000, 425000, 425000, 350892, 500000, 1140176, 1166191, 1166191, 670821, 1706605, 2400000, 3855192, 100000, 100000, 100000,
  100000, 100000, 100000, 100000, 100000, 100000, 100000, 100000, 100000, 100000, 100000, 100000, 1250000, 100000, 100000, 100000, 100000, 100000,
  100000, 100000, 100000, 100000, 100000, 100000, 100000, 100000, 2450511, 100000, 100000, 100000, 3060229, 100000, 100000, 350000, 100000, 100000,
  100000, 100000, 100000, 100000, 100000, 250000, 100000, 100000, 100000, 100000, 300000, 100000, 100000, 100000, 100000, 100000, 100000, 100000,
  100000, 100000, 400000, 100000, 100000, 100000, 100000, 100000, 100000, 100000, 100000, 100000, 3250000, 100000, 100000, 350000, 100000, 100000,
  100000, 100000, 100000, 100000, 100000, 250000, 100000, 100000, 100000, 100000, 300000, 100000, 100000, 100000, 100000, 100000, 100000, 100000,
  100000, 100000, 400000, 100000, 100000, 100000, 100000, 100000, 100000, 100000, 100000, 100000]

theorem cert226_check : cert226.check tsp226Coords = true :=
  TspCert.check_of (T := tree226) (s := 1000) (k := 10000000) rfl rfl (by decide +kernel) (by decide +kernel)

theorem cert226_bound : 80089333 ≤ cert226.bound := by decide +kernel

theorem tour226_check : tourCheck 1000 tsp226Coords tour226 tourSteps226 = true := by decide +kernel

theorem tour226_sum : tourSteps226.sum ≤ 80370276 := by decide +kernel

end Gapp.Proofs.TspBound
