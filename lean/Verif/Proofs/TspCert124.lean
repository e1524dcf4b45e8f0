import Verif.Model.TspData
import Verif.Proofs.TspBound

/-! Bounds of the tours of `TSP124`: prices and clusters for the lower bound, and a short tour (generated data; only the checks matter). -/

namespace Gapp.Proofs.TspBound

open Gapp.Model

set_option maxRecDepth 100000

/-- Clusters for `TSP124`. -/
def tree124 : NatTree :=
  (.node 12737075 (.leaf 122 13585 10863 8692922) (.node 12602418 (.node 12558833 (.leaf 121 13585 10707 8726003) (.node 12270851 (.leaf 120 13585 10551 8871164) (.node 11985605 (.leaf 119 13585 10395 9013985) (.node 11687872 (.leaf 118 13585 10239 9156410) (.node 11495288 (.leaf 117 13585 10083 9311718) (.node 11317923 (.leaf 116 13585 9927 9348994) (.node 11036933 (.leaf 115 13585 9771 9489083) (.leaf 114 13585 9615 9629984)))))))) (.node 12222595 (.node 12183146 (.node 12096884 (.node 12016800 (.node 11918997 (.node 11800504 (.node 11694784 (.leaf 99 12963 11225 9200092) (.node 11669622 (.node 11534824 (.leaf 98 12807 11225 9261124) (.node 11442253 (.node 11319973 (.leaf 97 12651 11225 9360052) (.node 11250983 (.leaf 96 12495 11225 9475975) (.leaf 95 12339 11225 9429042))) (.leaf 94 12183 11225 9284705))) (.leaf 93 12027 11225 9201673))) (.leaf 92 11871 11225 9153823)) (.leaf 91 11715 11225 9083180)) (.leaf 79 11559 11225 9056020)) (.leaf 78 11403 11225 9003096)) (.leaf 77 11247 11225 8969758)) (.node 12151110 (.leaf 76 11091 11225 8963647) (.node 12108850 (.node 12103321 (.node 12092777 (.node 12058088 (.leaf 65 9275 10050 9127791) (.node 12042428 (.node 8907138 (.node 8308415 (.leaf 100 13325 6100 11292198) (.leaf 90 12500 5950 11237912)) (.node 8875681 (.node 8834845 (.node 8776706 (.node 8572127 (.node 8519652 (.node 8378340 (.node 8171738 (.leaf 113 13585 3379 11036882) (.leaf 112 13585 3223 10947380)) (.leaf 111 13585 3067 10830280)) (.leaf 110 13585 2911 10806068)) (.node 8542125 (.leaf 109 13585 2755 10777805) (.node 8455730 (.leaf 108 13585 2599 10836070) (.node 8392337 (.leaf 107 13585 2443 10864200) (.node 8388859 (.node 8328404 (.leaf 106 13585 2287 10899463) (.node 8149226 (.leaf 105 13585 2131 10928133) (.leaf 104 13585 1975 11078641))) (.leaf 103 12850 2425 11394314)))))) (.node 8521673 (.leaf 102 12825 3800 11055227) (.leaf 101 13100 4625 11292726))) (.node 8389668 (.leaf 88 11650 3350 11285973) (.leaf 87 11000 3600 11020778))) (.node 8339704 (.leaf 89 11725 4825 11221057) (.node 8309762 (.node 7986513 (.leaf 86 11000 4600 11103541) (.leaf 85 11025 4750 11062015)) (.leaf 84 11125 5350 11236499))))) (.node 11615684 (.node 10791139 (.node 10671821 (.node 10582509 (.leaf 53 7700 4725 10156397) (.node 10579374 (.leaf 44 7100 4675 9863173) (.leaf 43 7100 4875 9757453))) (.node 10497099 (.leaf 42 7100 5075 9770726) (.node 10291133 (.leaf 41 7100 5275 9932175) (.leaf 40 7100 5425 9926692)))) (.node 10761894 (.node 10627559 (.node 10470792 (.leaf 20 6475 5475 9909165) (.leaf 19 6475 5275 9820043)) (.node 10313740 (.leaf 18 6475 4875 9952398) (.leaf 17 6475 4675 9933862))) (.node 10537924 (.node 10050747 (.leaf 52 7850 3700 10088377) (.leaf 51 7700 3725 10012945)) (.node 9563318 (.node 9561342 (.node 9532990 (.node 9510445 (.node 9209087 (.leaf 50 6925 1800 10660975) (.leaf 49 6925 2100 10429938)) (.leaf 48 6925 2400 10359617)) (.node 9488939 (.leaf 47 6925 2700 10407393) (.leaf 46 6925 3000 10403668))) (.node 9556789 (.node 9371219 (.leaf 16 6375 3375 10608084) (.leaf 15 6000 3375 10395697)) (.node 9503021 (.node 9457018 (.node 9189950 (.leaf 14 6375 2375 10573374) (.leaf 13 6000 2375 10611676)) (.node 9383796 (.node 9053377 (.leaf 12 5425 1800 10744478) (.leaf 11 5425 2100 10502145)) (.leaf 10 5425 2400 10414059))) (.node 8989696 (.leaf 9 5425 3000 10682920) (.leaf 8 5425 3300 10627384))))) (.leaf 45 6925 3300 10333014))))) (.node 11352752 (.leaf 61 8350 9775 9779133) (.node 11150464 (.node 11133588 (.node 11007966 (.leaf 60 7975 9075 9635179) (.node 10943968 (.leaf 58 7600 9025 9735173) (.node 10435565 (.node 10396347 (.node 10368262 (.node 10328799 (.leaf 31 5775 9750 9931738) (.node 10193298 (.leaf 5 5475 9750 10039463) (.leaf 4 5450 10475 10492669))) (.node 10300000 (.leaf 30 6075 9750 10000000) (.node 10147471 (.node 9904129 (.leaf 33 6675 9750 10152529) (.leaf 32 6975 9750 10243342)) (.leaf 29 6375 9750 10000000)))) (.node 10318871 (.node 9848129 (.leaf 3 4475 9719 10344742) (.leaf 2 4475 9407 10119129)) (.node 10227360 (.leaf 1 4475 8969 10000000) (.node 9937352 (.leaf 7 4575 8425 10230642) (.leaf 0 4475 8657 10084640))))) (.node 10406521 (.node 10365187 (.node 10021566 (.leaf 35 6875 8650 10137100) (.leaf 34 6675 8650 10041334)) (.leaf 28 6375 8650 9893479)) (.node 10246210 (.leaf 27 6075 8650 10000000) (.node 9984719 (.leaf 26 5775 8650 10053790) (.leaf 6 5475 8650 10261491))))))) (.node 11091745 (.leaf 59 8350 9025 9609551) (.node 10644073 (.leaf 57 8500 8225 10112645) (.node 10459594 (.leaf 56 8500 7475 9993282) (.node 10304972 (.leaf 55 8125 7525 9925442) (.leaf 54 7750 7475 10147904)))))) (.node 11130234 (.node 11116565 (.node 11115971 (.node 11097194 (.leaf 37 6600 7275 9529220) (.leaf 36 6850 7275 9623586)) (.leaf 25 6550 7625 9708362)) (.node 10933646 (.leaf 24 6100 7275 9738169) (.leaf 23 6350 7275 9578185))) (.node 10960326 (.node 10893433 (.leaf 39 6850 6675 9732378) (.leaf 38 6600 6675 9624189)) (.node 10852918 (.leaf 22 6350 6675 9665485) (.leaf 21 6100 6675 9731597))))))))) (.node 10452828 (.node 10271457 (.leaf 82 10650 9400 10032331) (.leaf 66 10375 9525 9998288)) (.node 10221952 (.leaf 83 11275 9175 10119129) (.node 10206258 (.leaf 81 11275 9475 9958919) (.leaf 80 11175 9800 10174859))))) (.leaf 64 9475 10275 9069927)) (.node 12088672 (.leaf 75 10935 11225 9041243) (.node 12046751 (.leaf 74 10779 11225 9026085) (.node 11931798 (.leaf 73 10623 11225 9083164) (.node 11755410 (.leaf 72 10467 11225 9141038) (.node 11541522 (.leaf 71 10311 11225 9259552) (.node 11390091 (.leaf 70 10155 11225 9354926) (.node 11237212 (.leaf 69 9999 11225 9410983) (.node 11062421 (.leaf 68 9843 11225 9507805) (.node 10901514 (.leaf 67 9687 11225 9585774) (.node 10710817 (.leaf 63 9531 11225 9668712) (.leaf 62 9375 11225 9776471))))))))))))))))

/-- Prices and clusters for `TSP124`. -/
def cert124 : TspCert where
  scale := 1000
  prices := [
    84640, 0, 119129, 344742, 492669, 39463, 261491, 230642, 627384, 682920, 414059, 502145, 744478, 611676, 573374, 395697, 608084, -66138, -47602,
    -179957, -90835, -268403, -334515, -421815, -261831, -291638, 53790, 0, -106521, 0, 0, -68262, 243342, 152529, 41334, 137100, -376414, -470780,
    -375811, -267622, -73308, -67825, -229274, -242547, -136827, 333014, 403668, 407393, 359617, 429938, 660975, 12945, 88377, 156397, 147904,
    -74558, -6718, 112645, -264827, -390449, -364821, -220867, -223529, -331288, -930073, -872209, -1712, -414226, -492195, -589017, -645074,
    -740448, -858962, -916836, -973915, -958757, -1036353, -1030242, -996904, -943980, 174859, -41081, 32331, 119129, 1236499, 1062015, 1103541,
    1020778, 1285973, 1221057, 1237912, -916820, -846177, -798327, -715295, -570958, -524025, -639948, -738876, -799908, 1292198, 1292726, 1055227,
    1394314, 1078641, 928133, 899463, 864200, 836070, 777805, 806068, 830280, 947380, 1036882, -370016, -510917, -651006, -688282, -843590, -986015,
    -1128836, -1273997, -1307078, 0]
  tree := tree124.decode 10000000
  next := 99
  b1 := 1455133
  b2 := 1463078

/-- A short tour of `TSP124`. -/
def tour124 : List Nat := [
  99, 98, 97, 96, 95, 94, 93, 92, 91, 79, 78, 77, 76, 75, 74, 73, 72, 71, 70, 69, 68, 67, 63, 62, 80, 81, 83, 82, 66, 64, 65, 61, 32, 33, 29, 30, 31,
  5, 4, 3, 2, 1, 0, 7, 6, 26, 27, 28, 34, 35, 58, 60, 59, 57, 56, 55, 54, 36, 37, 25, 23, 24, 21, 22, 38, 39, 20, 19, 40, 41, 42, 43, 53, 44, 18, 17,
  16, 15, 8, 9, 10, 11, 12, 13, 14, 50, 49, 48, 47, 46, 45, 51, 52, 87, 88, 103, 104, 105, 106, 107, 108, 109, 110, 111, 112, 113, 102, 101, 89, 86,
  85, 84, 90, 100, 114, 115, 116, 117, 118, 119, 120, 121, 122]

/-- Bounds of the lengths of its steps. -/
def tourSteps124 : List Int := [
  655226, 156000, 156000, 156000, 156000, 156000, 156000, 156000, 156000, 156000, 156000, 156000, 156000, 156000, 156000, 156000, 156000, 156000,
  156000, 156000, 156000, 156000, 156000, 156000, 2295785, 340037, 300000, 664267, 302077, 1171538, 301040, 965013, 1375228, 300000, 300000, 300000,
  300000, 300000, 725431, 1233759, 312000, 438000, 312000, 252635, 927699, 300000, 300000, 300000, 300000, 200000, 816242, 378319, 378319, 813942,
  750000, 378319, 378319, 921955, 250000, 353554, 403113, 250000, 600000, 250000, 250000, 250000, 1257230, 200000, 642749, 150000, 200000, 200000,
  618466, 602080, 656221, 200000, 1303841, 375000, 579871, 300000, 600000, 300000, 300000, 813173, 375000, 795692, 300000, 300000, 300000, 300000,
  300000, 883884, 152070, 3151587, 696420, 1515133, 861815, 156000, 156000, 156000, 156000, 156000, 156000, 156000, 156000, 156000, 868816, 869627,
  1389470, 759112, 152070, 608277, 1500209, 838526, 3524603, 156000, 156000, 156000, 156000, 156000, 156000, 156000, 156000, 156000]

theorem cert124_check : cert124.check tsp124Coords = true :=
  TspCert.check_of (T := tree124) (s := 1000) (k := 10000000) rfl rfl (by decide +kernel) (by decide +kernel)

theorem cert124_bound : 58067901 ≤ cert124.bound := by decide +kernel

theorem tour124_check : tourCheck 1000 tsp124Coords tour124 tourSteps124 = true := by decide +kernel

theorem tour124_sum : tourSteps124.sum ≤ 59030759 := by decide +kernel

end Gapp.Proofs.TspBound
