import Verif.Model.TspData
import Verif.Proofs.TspBound

/-! Bounds of the tours of `TSP152`: prices and clusters for the lower bound, and a short tour (generated data; only the checks matter). -/

namespace Gapp.Proofs.TspBound

open Gapp.Model

set_option maxRecDepth 100000

/-- Clusters for `TSP152`. -/
def tree152 : NatTree :=
  (.node 22344215 (.node 22224434 (.leaf 125 15726 1803 3904548) (.node 22060679 (.leaf 124 15624 1777 3976279) (.leaf 123 15503 1747 4087705))) (.node 22313492 (.node 22137827 (.leaf 150 15825 2025 3970317) (.node 21842966 (.node 21819695 (.leaf 127 15725 2325 4170826) (.node 21592794 (.leaf 122 15499 2456 4270701) (.node 18138459 (.node 18077354 (.node 18047450 (.node 17996561 (.leaf 148 15819 4350 6026386) (.node 17931231 (.leaf 147 15825 4425 6052292) (.node 17692248 (.leaf 146 15825 4575 6166477) (.node 17320815 (.node 17232980 (.leaf 131 15725 4875 6443558) (.node 16972000 (.leaf 120 15499 5006 6584684) (.node 15405032 (.node 13530758 (.node 13473467 (.node 13427755 (.node 13373558 (.leaf 145 15819 6900 8343084) (.node 13324085 (.leaf 144 15825 6975 8358597) (.node 13078590 (.leaf 143 15825 7125 8467318) (.node 12859892 (.node 12703799 (.node 12636607 (.leaf 135 15725 7425 8747757) (.leaf 118 15499 7556 8876858)) (.leaf 134 15775 7325 8660247)) (.node 9933988 (.node 9884366 (.node 9835847 (.node 9813832 (.node 9810653 (.leaf 142 15819 9450 10122727) (.leaf 141 15825 9525 10141859)) (.node 9623570 (.leaf 140 15825 9675 10194309) (.node 9233613 (.node 9104579 (.leaf 139 15725 9975 10489914) (.leaf 116 15499 10106 10666729)) (.leaf 138 15775 9875 10388276)))) (.leaf 137 15726 9453 10134474)) (.leaf 136 15624 9427 10086421)) (.leaf 117 15503 9397 10104254)))))) (.leaf 133 15726 6903 8322209)) (.leaf 132 15624 6877 8309585)) (.leaf 119 15503 6847 8284320)) (.node 12144440 (.node 12065510 (.node 11995651 (.node 11827416 (.leaf 115 9975 3025 9241885) (.node 11821126 (.leaf 114 9925 3345 9254581) (.leaf 95 9775 3525 9158600))) (.leaf 90 9498 3555 9124368)) (.node 11918765 (.node 11655115 (.node 11640710 (.node 11569501 (.leaf 94 9775 2375 9322199) (.node 11486310 (.leaf 93 9757 2181 9303133) (.leaf 92 9784 2098 9297838))) (.leaf 91 9500 2400 9313225)) (.node 11487504 (.leaf 76 9250 1850 9635812) (.node 11242567 (.node 11180863 (.leaf 74 8675 2025 9453439) (.node 10955199 (.node 10949595 (.leaf 72 8625 2225 9571853) (.leaf 50 8575 2325 9590355)) (.leaf 46 8349 2456 9715668))) (.node 11163696 (.node 11129838 (.leaf 75 8669 1800 9459316) (.node 10994556 (.leaf 49 8576 1803 9503894) (.node 10788455 (.leaf 48 8474 1777 9606811) (.leaf 47 8353 1747 9729397)))) (.leaf 73 8675 1875 9452227))))) (.leaf 77 9250 3000 9418010))) (.node 12141958 (.node 12130827 (.node 11645942 (.node 11199901 (.node 10952794 (.node 10808278 (.node 10701779 (.leaf 113 9975 5575 9821585) (.leaf 112 9925 5895 9800518)) (.leaf 99 9775 6075 9625511)) (.leaf 88 9498 6105 9700314)) (.node 11182527 (.leaf 79 9250 5550 9703944) (.node 11182498 (.node 11181321 (.node 10855122 (.node 10820777 (.leaf 98 9775 4925 9657483) (.node 10575084 (.leaf 97 9757 4731 9716573) (.leaf 96 9784 4648 9795624))) (.leaf 89 9500 4950 9763529)) (.leaf 78 9250 4400 9611833)) (.node 10562087 (.node 10527212 (.node 10526596 (.leaf 71 8669 4350 9767431) (.leaf 70 8675 4425 9781212)) (.node 10411809 (.leaf 52 8576 4353 9798405) (.node 10248753 (.leaf 51 8474 4327 9895047) (.leaf 45 8353 4297 9980863)))) (.node 10527135 (.leaf 69 8675 4575 9806701) (.node 10307962 (.leaf 68 8625 4775 9872319) (.node 10163681 (.leaf 53 8575 4875 9931522) (.leaf 44 8349 5006 10166019)))))))) (.node 11296841 (.node 11276908 (.node 11234274 (.node 10998831 (.leaf 111 9975 8125 9784042) (.leaf 110 9925 8445 9541009)) (.node 11187959 (.leaf 103 9775 8625 9459024) (.leaf 86 9498 8655 9631636))) (.node 11270346 (.node 10941841 (.node 10896445 (.leaf 102 9775 7475 9619119) (.node 10650469 (.leaf 101 9757 7281 9679269) (.leaf 100 9784 7198 9757543))) (.leaf 87 9500 7500 9715174)) (.leaf 81 9250 8100 9664480))) (.node 11278754 (.leaf 80 9250 6950 9534385) (.node 10599696 (.node 10547500 (.node 10519740 (.leaf 67 8669 6900 9765336) (.node 10387174 (.leaf 55 8576 6903 9807972) (.node 10196405 (.leaf 54 8474 6877 9910115) (.leaf 43 8353 6847 10018143)))) (.leaf 66 8675 6975 9762403)) (.node 10574092 (.leaf 65 8675 7125 9787901) (.node 10370634 (.leaf 64 8625 7325 9844162) (.node 10273046 (.leaf 56 8575 7425 9897007) (.leaf 42 8349 7556 10091169)))))))) (.node 12107813 (.node 11505043 (.node 11485583 (.leaf 61 8675 9675 9337883) (.node 11415597 (.node 11381619 (.leaf 63 8669 9450 9333113) (.node 11247589 (.leaf 58 8576 9453 9378316) (.node 11043370 (.leaf 57 8474 9427 9479356) (.leaf 41 8353 9397 9601937)))) (.leaf 62 8675 9525 9326529))) (.node 11419252 (.leaf 60 8625 9875 9363229) (.node 11395099 (.leaf 59 8575 9975 9329322) (.leaf 40 8349 10106 9536801)))) (.node 6185029 (.node 5402113 (.node 5396235 (.node 5358935 (.leaf 37 2825 5575 12555079) (.node 5232284 (.node 4918644 (.node 4890721 (.node 4869967 (.leaf 30 2634 4648 12619711) (.node 4846040 (.leaf 29 2607 4731 12597603) (.leaf 28 2625 4925 12751190))) (.node 4358676 (.node 3255831 (.leaf 14 2348 3555 13443619) (.node 3254847 (.node 3248134 (.leaf 36 2825 3025 13560761) (.node 3140153 (.leaf 32 2775 3345 13514987) (.leaf 31 2625 3525 13579167))) (.node 3002327 (.node 2630485 (.leaf 15 2350 2400 13739235) (.node 2600179 (.node 2584794 (.leaf 35 2607 2181 13730189) (.node 2582048 (.leaf 34 2634 2098 13772298) (.leaf 0 2100 1850 14234432))) (.leaf 33 2625 2375 13864465))) (.leaf 1 2100 3000 13908438)))) (.leaf 2 2100 4400 13078346))) (.leaf 13 2350 4950 12606300)) (.leaf 3 2100 5550 12811416))) (.node 5354553 (.leaf 27 2775 5895 12372568) (.leaf 26 2625 6075 12507186))) (.leaf 12 2348 6105 12369320)) (.node 5837550 (.node 5559366 (.node 5539544 (.node 5306076 (.leaf 25 2634 7198 12424936) (.leaf 24 2607 7281 12356269)) (.leaf 23 2625 7475 12299020)) (.node 5526435 (.leaf 11 2350 7500 12417748) (.node 5198541 (.node 5165457 (.node 4935624 (.leaf 38 2825 8125 12821072) (.leaf 22 2775 8445 12567186)) (.node 5100180 (.leaf 21 2625 8625 12501664) (.node 4904300 (.leaf 10 2348 8655 12676775) (.node 3776621 (.node 3330372 (.node 3314165 (.node 3116601 (.leaf 20 2607 9831 13458089) (.leaf 19 2634 9748 13512591)) (.leaf 18 2625 10025 13422579)) (.node 3321242 (.leaf 9 2350 10050 13523183) (.node 2976334 (.node 2921666 (.node 2741830 (.leaf 39 2825 10675 13908613) (.leaf 17 2775 10995 13673439)) (.node 2813438 (.leaf 16 2625 11175 13639202) (.leaf 8 2348 11205 13825979))) (.leaf 7 2100 10650 13805575)))) (.leaf 6 2100 9500 13299566))))) (.leaf 5 2100 8100 12705817)))) (.leaf 4 2100 6950 12326292))))) (.node 12137436 (.node 11950510 (.node 11696305 (.node 11680072 (.leaf 106 9775 10025 9241737) (.node 11469962 (.leaf 105 9757 9831 9273024) (.leaf 104 9784 9748 9344295))) (.leaf 85 9500 10050 9338092)) (.node 11733537 (.node 11655022 (.leaf 109 9975 10675 9481466) (.node 11651404 (.leaf 108 9925 10995 9187394) (.node 11370157 (.leaf 107 9775 11175 9395509) (.leaf 84 9498 11205 9512953)))) (.leaf 83 9250 10650 9361398))) (.leaf 82 9250 9500 9107047))))))) (.leaf 130 15775 4775 6347430))))) (.leaf 129 15726 4353 6019212)) (.leaf 128 15624 4327 6008695)) (.leaf 121 15503 4297 5977509)))) (.leaf 126 15775 2225 4098011))) (.leaf 149 15825 1875 3866191)))

/-- Prices and clusters for `TSP152`. -/
def cert152 : TspCert where
  scale := 1000
  prices := [
    4234432, 3908438, 3078346, 2811416, 2326292, 2705817, 3299566, 3805575, 3825979, 3523183, 2676775, 2417748, 2369320, 2606300, 3443619, 3739235,
    3639202, 3673439, 3422579, 3512591, 3458089, 2501664, 2567186, 2299020, 2356269, 2424936, 2507186, 2372568, 2751190, 2597603, 2619711, 3579167,
    3514987, 3864465, 3772298, 3730189, 3560761, 2555079, 2821072, 3908613, -463199, -398063, 91169, 18143, 166019, -19137, -284332, -270603,
    -393189, -496106, -409645, -104953, -201595, -68478, -89885, -192028, -102993, -520644, -621684, -670678, -636771, -662117, -673471, -666887,
    -155838, -212099, -237597, -234664, -127681, -193299, -218788, -232569, -428147, -547773, -546561, -540684, -364188, -581990, -388167, -296056,
    -465615, -335520, -892953, -638602, -487047, -661908, -368364, -284826, -299686, -236471, -875632, -686775, -702162, -696867, -677801, -841400,
    -204376, -283427, -342517, -374489, -242457, -320731, -380881, -540976, -655705, -726976, -758263, -604491, -812606, -518534, -458991, -215958,
    -199482, -178415, -745419, -758115, 666729, 104254, -1123142, -1715680, -3415316, -4022491, -5729299, -5912295, -6023721, -6095452, -5901989,
    -5829174, -3991305, -3980788, -3652570, -3556442, -1690415, -1677791, -1339753, -1252243, 86421, 134474, 388276, 489914, 194309, 141859, 122727,
    -1532682, -1641403, -1656916, -3833523, -3947708, -3973614, -6133809, -6029683, 0]
  tree := tree152.decode 10000000
  next := 125
  b1 := 6188500
  b2 := 6209048

/-- A short tour of `TSP152`. -/
def tour152 : List Nat := [
  125, 124, 123, 115, 114, 95, 90, 77, 91, 94, 93, 92, 76, 73, 75, 49, 48, 47, 74, 72, 50, 46, 33, 35, 34, 0, 15, 1, 36, 32, 31, 14, 2, 30, 29, 28,
  13, 3, 37, 27, 26, 12, 4, 25, 24, 23, 11, 5, 38, 22, 21, 10, 6, 19, 20, 18, 9, 7, 8, 16, 17, 39, 40, 59, 60, 61, 62, 63, 58, 57, 41, 42, 56, 64,
  65, 66, 67, 55, 54, 43, 44, 53, 68, 69, 45, 51, 52, 71, 70, 78, 96, 97, 98, 89, 79, 113, 112, 99, 88, 80, 100, 101, 102, 87, 81, 111, 110, 103, 86,
  82, 104, 105, 106, 85, 83, 84, 107, 108, 109, 116, 139, 138, 140, 141, 142, 137, 136, 117, 118, 135, 134, 143, 144, 145, 133, 132, 119, 120, 131,
  130, 146, 147, 148, 129, 128, 121, 122, 127, 126, 150, 149]

/-- Bounds of the lengths of its steps. -/
def tourSteps152 : List Int := [
  93049, 105262, 124664, 5673806, 323883, 234308, 278620, 607889, 650000, 276135, 194834, 87282, 588779, 575544, 75240, 93049, 105262, 124664,
  425404, 206156, 111804, 261223, 5724574, 194834, 87282, 588779, 604153, 650000, 725431, 323883, 234308, 278620, 880642, 588779, 87282, 194834,
  276135, 650000, 725431, 323883, 234308, 278620, 880642, 588779, 87282, 194834, 276135, 650000, 725431, 323883, 234308, 278620, 880642, 588779,
  87282, 194834, 276135, 650000, 607889, 278620, 234308, 323883, 5553228, 261223, 111804, 206156, 150000, 75240, 93049, 105262, 124664, 1841005,
  261223, 111804, 206156, 150000, 75240, 93049, 105262, 124664, 1841005, 261223, 111804, 206156, 425404, 124664, 105262, 93049, 75240, 575544,
  588779, 87282, 194834, 276135, 650000, 725431, 323883, 234308, 278620, 880642, 588779, 87282, 194834, 276135, 650000, 725431, 323883, 234308,
  278620, 880642, 588779, 87282, 194834, 276135, 650000, 607889, 278620, 234308, 323883, 5553228, 261223, 111804, 206156, 150000, 75240, 93049,
  105262, 124664, 1841005, 261223, 111804, 206156, 150000, 75240, 93049, 105262, 124664, 1841005, 261223, 111804, 206156, 150000, 75240, 93049,
  105262, 124664, 1841005, 261223, 111804, 206156, 150000, 75240]

theorem cert152_check : cert152.check tsp152Coords = true :=
  TspCert.check_of (T := tree152) (s := 1000) (k := 10000000) rfl rfl (by decide +kernel) (by decide +kernel)

theorem cert152_bound : 73211257 ≤ cert152.bound := by decide +kernel

theorem tour152_check : tourCheck 1000 tsp152Coords tour152 tourSteps152 = true := by decide +kernel

theorem tour152_sum : tourSteps152.sum ≤ 73683719 := by decide +kernel

end Gapp.Proofs.TspBound
