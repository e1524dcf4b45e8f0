import Verif.Model.TspData
import Verif.Proofs.TspBound

/-! Bounds of the tours of `TSP76`: prices and clusters for the lower bound, and a short tour (generated data; only the checks matter). -/

namespace Gapp.Proofs.TspBound

open Gapp.Model

set_option maxRecDepth 100000

/-- Clusters for `TSP76`. -/
def tree76 : NatTree :=
  (.node 15990965 (.leaf 74 200 1100 10000000) (.node 15736468 (.node 15392549 (.node 13121959 (.node 12802586 (.leaf 22 5400 1600 8987427) (.node 12091167 (.node 11652624 (.leaf 68 14900 1600 10000000) (.node 10913642 (.node 10290140 (.leaf 69 19800 800 13252528) (.leaf 66 16800 3300 10362456)) (.leaf 67 16150 2300 9780030))) (.node 11968627 (.leaf 21 6650 2300 9642641) (.node 11931320 (.node 11928506 (.node 11648913 (.leaf 45 10150 1600 10000000) (.leaf 44 11400 2300 9783741)) (.node 11851950 (.node 11643631 (.leaf 47 12600 3300 9425930) (.leaf 43 12050 3300 9480439)) (.leaf 46 13100 2300 9840153))) (.node 11705332 (.node 11555881 (.leaf 24 7850 3300 9412701) (.leaf 20 7300 3300 9581418)) (.leaf 23 8350 2300 10000000)))))) (.node 11975246 (.node 11890535 (.node 11832091 (.node 11831075 (.node 10692830 (.leaf 38 10150 11650 10004896) (.leaf 37 9450 11650 10002274)) (.node 11698455 (.node 11341654 (.node 11177147 (.node 10926433 (.leaf 36 7850 10950 9623567) (.node 10762579 (.leaf 17 7300 10950 10000000) (.leaf 16 6650 10800 9904504))) (.node 11104126 (.node 11043363 (.node 10823311 (.node 10011197 (.node 9442858 (.leaf 73 200 12200 13371286) (.leaf 13 3100 10950 10343782)) (.leaf 12 3600 10800 10167036)) (.node 9931141 (.leaf 15 5400 11650 10429970) (.leaf 14 4700 11650 10338889))) (.leaf 11 4492 10052 9953717)) (.leaf 10 5610 10053 10060157))) (.leaf 35 8350 10800 9556794)) (.node 11661571 (.node 10970594 (.leaf 9 5400 8450 9858084) (.leaf 8 4700 8450 9871322)) (.node 11046017 (.node 10027197 (.leaf 7 3100 7250 10467107) (.leaf 6 3600 6950 10088791)) (.leaf 5 4493 7102 9771035))))) (.node 11832083 (.node 11827144 (.node 11661334 (.node 11562733 (.node 10434969 (.leaf 55 14900 8450 10135156) (.leaf 54 14200 8450 10129875)) (.node 11562433 (.node 11429583 (.node 10858792 (.node 10771132 (.node 7496001 (.node 5606313 (.leaf 72 19800 12200 12478868) (.leaf 71 19800 11900 12214819)) (.leaf 70 19800 10000 12189180)) (.leaf 63 16800 10950 10000000)) (.leaf 62 16150 10800 9808291)) (.node 11423566 (.node 10300418 (.leaf 65 16150 6950 9964531) (.leaf 64 16800 7250 10450942)) (.leaf 50 15108 7103 9665075))) (.node 11560120 (.node 10420420 (.leaf 61 14900 11650 10140879) (.leaf 60 14200 11650 10138701)) (.node 11295606 (.leaf 57 13992 10052 9912646) (.leaf 56 15110 10053 9909748))))) (.node 11174698 (.node 11095271 (.node 10895608 (.leaf 59 12600 10950 9836636) (.leaf 40 12050 10950 9817756)) (.leaf 58 13100 10800 9590108)) (.leaf 39 11400 10800 9674629))) (.leaf 51 13993 7102 9406781)) (.node 11832078 (.node 11828993 (.node 11725689 (.node 11570874 (.leaf 34 9242 10052 9773366) (.leaf 33 10360 10053 9773760)) (.node 10478243 (.leaf 32 10150 8450 10105366) (.leaf 31 9450 8450 10116391))) (.leaf 27 10358 7103 9428605)) (.node 11832073 (.node 11135930 (.node 10923403 (.leaf 42 11400 6950 9792488) (.node 10769763 (.leaf 53 12600 7250 9780237) (.leaf 41 12050 7250 10000000))) (.leaf 52 13100 6950 9666928)) (.node 11829825 (.node 11743614 (.node 11115673 (.node 10918206 (.leaf 19 6650 6950 9797685) (.node 10748741 (.leaf 30 7850 7250 9801259) (.leaf 18 7300 7250 10000000))) (.leaf 29 8350 6950 9666163)) (.leaf 4 5608 7103 9511873)) (.node 11826610 (.leaf 28 9243 7102 9409855) (.node 10460500 (.leaf 26 10150 5750 10108211) (.leaf 25 9450 5750 10131289)))))))) (.node 11192902 (.leaf 3 5400 5750 9966481) (.leaf 2 4700 5750 9540617))) (.node 11098304 (.leaf 49 14900 5750 9615988) (.leaf 48 14200 5750 9985708)))) (.leaf 0 3600 2300 7551344)) (.leaf 1 3100 3300 7649089)))

/-- Prices and clusters for `TSP76`. -/
def cert76 : TspCert where
  scale := 1000
  prices := [
    -2448656, -2350911, -459383, -33519, -488127, -228965, 88791, 467107, -128678, -141916, 60157, -46283, 167036, 343782, 338889, 429970, -95496, 0,
    0, -202315, -418582, -357359, -1012573, 0, -587299, 131289, 108211, -571395, -590145, -333837, -198741, 116391, 105366, -226240, -226634,
    -443206, -376433, 2274, 4896, -325371, -182244, 0, -207512, -519561, -216259, 0, -159847, -574070, -14292, -384012, -334925, -593219, -333072,
    -219763, 129875, 135156, -90252, -87354, -409892, -163364, 138701, 140879, -191709, 0, 450942, -35469, 362456, -219970, 0, 3252528, 2189180,
    2214819, 2478868, 3371286, 0, 0]
  tree := tree76.decode 10000000
  next := 74
  b1 := 300000
  b2 := 6164836

/-- A short tour of `TSP76`. -/
def tour76 : List Nat := [
  0, 22, 21, 20, 24, 23, 45, 44, 43, 47, 46, 68, 67, 69, 66, 49, 48, 50, 65, 64, 70, 71, 72, 63, 62, 61, 60, 40, 59, 58, 57, 56, 55, 54, 51, 52, 53,
  41, 42, 27, 26, 25, 19, 18, 30, 29, 28, 31, 32, 34, 33, 39, 38, 37, 35, 36, 17, 16, 15, 14, 73, 13, 12, 11, 10, 9, 8, 7, 6, 5, 4, 3, 2, 1, 74]

/-- Bounds of the lengths of its steps. -/
def tourSteps76 : List Int := [
  3716181, 1931321, 1432655, 1192687, 550000, 1118034, 1931321, 1432655, 1192687, 550000, 1118034, 1931321, 1432655, 3946201, 3905125, 3100404,
  700000, 1629440, 1053173, 715892, 4069706, 1900000, 300000, 3250000, 667084, 1511622, 700000, 2261084, 550000, 522016, 1164117, 1118001, 1616697,
  700000, 1363801, 905844, 583096, 550000, 715892, 1053173, 1368895, 700000, 3046310, 715892, 550000, 583096, 905844, 1363801, 700000, 1841431,
  1118001, 1280473, 1511622, 700000, 1390144, 522016, 550000, 667084, 1511622, 700000, 4533487, 3157927, 522016, 1164117, 1118001, 1616697, 700000,
  2000000, 583096, 905844, 1115001, 1368895, 700000, 2926175, 3640055, 300000]

theorem cert76_check : cert76.check tsp76Coords = true :=
  TspCert.check_of (T := tree76) (s := 1000) (k := 10000000) rfl rfl (by decide +kernel) (by decide +kernel)

theorem cert76_bound : 105120159 ≤ cert76.bound := by decide +kernel

theorem tour76_check : tourCheck 1000 tsp76Coords tour76 tourSteps76 = true := by decide +kernel

theorem tour76_sum : tourSteps76.sum ≤ 108159461 := by decide +kernel

end Gapp.Proofs.TspBound
