import Verif.Model.TspData
import Verif.Proofs.TspBound

/-! Bounds of the tours of `TSP52`: prices and clusters for the lower bound, and a short tour (generated data; only the checks matter). -/

namespace Gapp.Proofs.TspBound

open Gapp.Model

set_option maxRecDepth 100000

/-- Clusters for `TSP52`. -/
def tree52 : NatTree :=
  (.node 1353660439 (.node 1294295077 (.node 1213638847 (.leaf 27 1250 400 953770489) (.node 1198281896 (.leaf 26 1320 315 942704241) (.node 1110247679 (.leaf 46 1170 65 1090083917) (.leaf 25 1215 245 985208157)))) (.node 1284964483 (.leaf 13 1530 5 980539995) (.leaf 12 1465 200 940043569))) (.node 1351242916 (.node 1346821755 (.node 1246466999 (.leaf 50 1340 725 959160421) (.leaf 10 1605 620 1079416436)) (.node 1248341715 (.node 1196298071 (.leaf 42 875 920 1000000000) (.leaf 32 1150 1160 1168701929)) (.node 1203304469 (.node 1203179889 (.node 1172370867 (.leaf 29 410 250 1030890518) (.node 1163047404 (.node 1151918078 (.node 1136363027 (.leaf 22 480 415 975973098) (.node 1069652905 (.leaf 49 595 360 983698748) (.leaf 19 560 365 982003686))) (.leaf 28 660 180 1055759766)) (.node 1149137173 (.node 1123223254 (.node 1117080695 (.leaf 45 830 485 1024583256) (.leaf 43 700 500 989198572)) (.node 1109907392 (.node 1108011191 (.node 1093986504 (.node 1093576074 (.node 1070820769 (.leaf 47 830 610 975824951) (.leaf 23 835 625 969165668)) (.node 1088467513 (.node 1079887735 (.leaf 14 845 680 976231231) (.leaf 4 845 655 968881034)) (.leaf 5 880 660 975612544))) (.node 1083276998 (.node 1074619636 (.leaf 37 795 645 979686019) (.node 1072966476 (.leaf 39 760 650 979558609) (.leaf 36 770 610 988705971))) (.leaf 38 720 635 979884411))) (.node 1104478305 (.leaf 24 975 580 1018705137) (.leaf 3 945 685 986018206))) (.node 1105935885 (.leaf 35 685 610 953219823) (.node 1097790737 (.leaf 34 685 595 955844292) (.leaf 33 700 580 967578174))))) (.leaf 15 725 370 982003686)))) (.node 866281745 (.leaf 41 95 260 1079654281) (.node 758400242 (.leaf 6 25 230 1130221705) (.leaf 1 25 185 1156378053)))) (.node 1198598971 (.node 1114414277 (.node 954758946 (.leaf 9 650 1130 1059432552) (.leaf 8 580 1175 1069025086)) (.node 1098537644 (.node 1064031242 (.leaf 40 475 960 1000000000) (.leaf 7 525 1000 1000000000)) (.node 1075000000 (.leaf 44 555 815 1006613763) (.leaf 18 510 875 993386237)))) (.node 1181528380 (.node 1181115736 (.leaf 48 605 625 922356895) (.node 1166660152 (.leaf 20 300 465 1006955030) (.node 1166392291 (.node 1156461766 (.node 1141576219 (.leaf 30 420 555 968590605) (.leaf 17 415 635 969989273)) (.node 1129718621 (.leaf 16 145 665 1079416436) (.leaf 2 345 750 1008178081))) (.node 1116118942 (.leaf 21 520 585 969420169) (.leaf 0 565 575 960558611))))) (.leaf 31 575 665 946114725)))))) (.leaf 11 1220 580 875051947)))

/-- Prices and clusters for `TSP52`. -/
def cert52 : TspCert where
  scale := 1000000
  prices := [
    -39441389, 156378053, 8178081, -13981794, -31118966, -24387456, 130221705, 0, 69025086, 59432552, 79416436, -124948053, -59956431, -19460005,
    -23768769, -17996314, 79416436, -30010727, -6613763, -17996314, 6955030, -30579831, -24026902, -30834332, 18705137, -14791843, -57295759,
    -46229511, 55759766, 30890518, -31409395, -53885275, 168701929, -32421826, -44155708, -46780177, -11294029, -20313981, -20115589, -20441391, 0,
    79654281, 0, -10801428, 6613763, 24583256, 90083917, -24175049, -77643105, -16301252, -40839579, 0]
  tree := tree52.decode 1000000000
  next := 10
  b1 := 319143471
  b2 := 338364379

/-- A short tour of `TSP52`. -/
def tour52 : List Nat := [
  13, 12, 46, 25, 26, 27, 11, 24, 3, 5, 14, 4, 23, 47, 37, 36, 39, 38, 35, 34, 33, 43, 45, 15, 28, 49, 19, 22, 29, 1, 6, 41, 20, 16, 2, 17, 30, 21,
  0, 48, 31, 44, 18, 40, 7, 8, 9, 42, 32, 50, 10]

/-- Bounds of the lengths of its steps. -/
def tourSteps52 : List Int := [
  318904375, 205548048, 324422564, 185539754, 126194295, 110113578, 182482876, 245000000, 109201649, 69641942, 40311289, 25000000, 31622777,
  15811389, 49497475, 43011627, 41231057, 42720019, 43011627, 15000000, 21213204, 80000000, 130862524, 155724116, 200810857, 191376593, 35355340,
  94339812, 179234484, 390448461, 45000000, 76157732, 289913781, 253031619, 217313139, 134629121, 80156098, 104403066, 46097723, 64031243, 50000000,
  151327460, 75000000, 91923882, 64031243, 183439364, 83216585, 307774268, 365000000, 474684106, 285043857, 398559908]

theorem cert52_check : cert52.check tsp52Coords = true :=
  TspCert.check_of (T := tree52) (s := 1000000) (k := 1000000000) rfl rfl (by decide +kernel) (by decide +kernel)

theorem cert52_bound : 7544365883 ≤ cert52.bound := by decide +kernel

theorem tour52_check : tourCheck 1000000 tsp52Coords tour52 tourSteps52 = true := by decide +kernel

theorem tour52_sum : tourSteps52.sum ≤ 7544365927 := by decide +kernel

end Gapp.Proofs.TspBound
