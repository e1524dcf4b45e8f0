import Mathlib.Data.Real.Basic

/-!
The travelling salesman benchmark problems: `problems/tsp_data/*.txt` (generated from these files, all the coordinates are
integers) and `problems/travelling_salesman.hpp`.
-/

namespace Gapp.Model

/-- travelling_salesman.hpp:20-36: the arguments of the constructor of `TSP`. -/
structure TspInstance where
  /-- the coordinates of the cities -/
  cities : List (Int × Int)
  /-- `optimal_value`, which is also the documented ideal and nadir point (travelling_salesman.cpp:14-16) -/
  optimalValue : Int

/-- tsp_data.hpp:10: the coordinates as `double`s. The coordinates are integers below 2^53, so they are represented exactly. -/
def planePoints (cities : List (Int × Int)) : List (ℝ × ℝ) := cities.map (fun q => ((q.1 : ℝ), (q.2 : ℝ)))

/-- tsp_data/tsp52.txt:1-52: the coordinates. -/
def tsp52Coords : List (Int × Int) := [
  (565, 575), (25, 185), (345, 750), (945, 685), (845, 655), (880, 660), (25, 230), (525, 1000), (580, 1175), (650, 1130), (1605, 620), (1220, 580),
  (1465, 200), (1530, 5), (845, 680), (725, 370), (145, 665), (415, 635), (510, 875), (560, 365), (300, 465), (520, 585), (480, 415), (835, 625),
  (975, 580), (1215, 245), (1320, 315), (1250, 400), (660, 180), (410, 250), (420, 555), (575, 665), (1150, 1160), (700, 580), (685, 595),
  (685, 610), (770, 610), (795, 645), (720, 635), (760, 650), (475, 960), (95, 260), (875, 920), (700, 500), (555, 815), (830, 485), (1170, 65),
  (830, 610), (605, 625), (595, 360), (1340, 725), (1740, 245)]

/-- travelling_salesman.hpp:45: the constructor of `TSP52`. -/
def tsp52 : TspInstance := ⟨tsp52Coords, -7542⟩

/-- tsp_data/tsp76.txt:1-76: the coordinates. -/
def tsp76Coords : List (Int × Int) := [
  (3600, 2300), (3100, 3300), (4700, 5750), (5400, 5750), (5608, 7103), (4493, 7102), (3600, 6950), (3100, 7250), (4700, 8450), (5400, 8450),
  (5610, 10053), (4492, 10052), (3600, 10800), (3100, 10950), (4700, 11650), (5400, 11650), (6650, 10800), (7300, 10950), (7300, 7250), (6650, 6950),
  (7300, 3300), (6650, 2300), (5400, 1600), (8350, 2300), (7850, 3300), (9450, 5750), (10150, 5750), (10358, 7103), (9243, 7102), (8350, 6950),
  (7850, 7250), (9450, 8450), (10150, 8450), (10360, 10053), (9242, 10052), (8350, 10800), (7850, 10950), (9450, 11650), (10150, 11650),
  (11400, 10800), (12050, 10950), (12050, 7250), (11400, 6950), (12050, 3300), (11400, 2300), (10150, 1600), (13100, 2300), (12600, 3300),
  (14200, 5750), (14900, 5750), (15108, 7103), (13993, 7102), (13100, 6950), (12600, 7250), (14200, 8450), (14900, 8450), (15110, 10053),
  (13992, 10052), (13100, 10800), (12600, 10950), (14200, 11650), (14900, 11650), (16150, 10800), (16800, 10950), (16800, 7250), (16150, 6950),
  (16800, 3300), (16150, 2300), (14900, 1600), (19800, 800), (19800, 10000), (19800, 11900), (19800, 12200), (200, 12200), (200, 1100), (200, 800)]

/-- travelling_salesman.hpp:58: the constructor of `TSP76`. -/
def tsp76 : TspInstance := ⟨tsp76Coords, -108159⟩

/-- tsp_data/tsp124.txt:1-124: the coordinates. -/
def tsp124Coords : List (Int × Int) := [
  (4475, 8657), (4475, 8969), (4475, 9407), (4475, 9719), (5450, 10475), (5475, 9750), (5475, 8650), (4575, 8425), (5425, 3300), (5425, 3000),
  (5425, 2400), (5425, 2100), (5425, 1800), (6000, 2375), (6375, 2375), (6000, 3375), (6375, 3375), (6475, 4675), (6475, 4875), (6475, 5275),
  (6475, 5475), (6100, 6675), (6350, 6675), (6350, 7275), (6100, 7275), (6550, 7625), (5775, 8650), (6075, 8650), (6375, 8650), (6375, 9750),
  (6075, 9750), (5775, 9750), (6975, 9750), (6675, 9750), (6675, 8650), (6875, 8650), (6850, 7275), (6600, 7275), (6600, 6675), (6850, 6675),
  (7100, 5425), (7100, 5275), (7100, 5075), (7100, 4875), (7100, 4675), (6925, 3300), (6925, 3000), (6925, 2700), (6925, 2400), (6925, 2100),
  (6925, 1800), (7700, 3725), (7850, 3700), (7700, 4725), (7750, 7475), (8125, 7525), (8500, 7475), (8500, 8225), (7600, 9025), (8350, 9025),
  (7975, 9075), (8350, 9775), (9375, 11225), (9531, 11225), (9475, 10275), (9275, 10050), (10375, 9525), (9687, 11225), (9843, 11225), (9999, 11225),
  (10155, 11225), (10311, 11225), (10467, 11225), (10623, 11225), (10779, 11225), (10935, 11225), (11091, 11225), (11247, 11225), (11403, 11225),
  (11559, 11225), (11175, 9800), (11275, 9475), (10650, 9400), (11275, 9175), (11125, 5350), (11025, 4750), (11000, 4600), (11000, 3600),
  (11650, 3350), (11725, 4825), (12500, 5950), (11715, 11225), (11871, 11225), (12027, 11225), (12183, 11225), (12339, 11225), (12495, 11225),
  (12651, 11225), (12807, 11225), (12963, 11225), (13325, 6100), (13100, 4625), (12825, 3800), (12850, 2425), (13585, 1975), (13585, 2131),
  (13585, 2287), (13585, 2443), (13585, 2599), (13585, 2755), (13585, 2911), (13585, 3067), (13585, 3223), (13585, 3379), (13585, 9615),
  (13585, 9771), (13585, 9927), (13585, 10083), (13585, 10239), (13585, 10395), (13585, 10551), (13585, 10707), (13585, 10863), (13585, 11019)]

/-- travelling_salesman.hpp:70: the constructor of `TSP124`. -/
def tsp124 : TspInstance := ⟨tsp124Coords, -59030⟩

/-- tsp_data/tsp152.txt:1-152: the coordinates. -/
def tsp152Coords : List (Int × Int) := [
  (2100, 1850), (2100, 3000), (2100, 4400), (2100, 5550), (2100, 6950), (2100, 8100), (2100, 9500), (2100, 10650), (2348, 11205), (2350, 10050),
  (2348, 8655), (2350, 7500), (2348, 6105), (2350, 4950), (2348, 3555), (2350, 2400), (2625, 11175), (2775, 10995), (2625, 10025), (2634, 9748),
  (2607, 9831), (2625, 8625), (2775, 8445), (2625, 7475), (2607, 7281), (2634, 7198), (2625, 6075), (2775, 5895), (2625, 4925), (2607, 4731),
  (2634, 4648), (2625, 3525), (2775, 3345), (2625, 2375), (2634, 2098), (2607, 2181), (2825, 3025), (2825, 5575), (2825, 8125), (2825, 10675),
  (8349, 10106), (8353, 9397), (8349, 7556), (8353, 6847), (8349, 5006), (8353, 4297), (8349, 2456), (8353, 1747), (8474, 1777), (8576, 1803),
  (8575, 2325), (8474, 4327), (8576, 4353), (8575, 4875), (8474, 6877), (8576, 6903), (8575, 7425), (8474, 9427), (8576, 9453), (8575, 9975),
  (8625, 9875), (8675, 9675), (8675, 9525), (8669, 9450), (8625, 7325), (8675, 7125), (8675, 6975), (8669, 6900), (8625, 4775), (8675, 4575),
  (8675, 4425), (8669, 4350), (8625, 2225), (8675, 1875), (8675, 2025), (8669, 1800), (9250, 1850), (9250, 3000), (9250, 4400), (9250, 5550),
  (9250, 6950), (9250, 8100), (9250, 9500), (9250, 10650), (9498, 11205), (9500, 10050), (9498, 8655), (9500, 7500), (9498, 6105), (9500, 4950),
  (9498, 3555), (9500, 2400), (9784, 2098), (9757, 2181), (9775, 2375), (9775, 3525), (9784, 4648), (9757, 4731), (9775, 4925), (9775, 6075),
  (9784, 7198), (9757, 7281), (9775, 7475), (9775, 8625), (9784, 9748), (9757, 9831), (9775, 10025), (9775, 11175), (9925, 10995), (9975, 10675),
  (9925, 8445), (9975, 8125), (9925, 5895), (9975, 5575), (9925, 3345), (9975, 3025), (15499, 10106), (15503, 9397), (15499, 7556), (15503, 6847),
  (15499, 5006), (15503, 4297), (15499, 2456), (15503, 1747), (15624, 1777), (15726, 1803), (15775, 2225), (15725, 2325), (15624, 4327),
  (15726, 4353), (15775, 4775), (15725, 4875), (15624, 6877), (15726, 6903), (15775, 7325), (15725, 7425), (15624, 9427), (15726, 9453),
  (15775, 9875), (15725, 9975), (15825, 9675), (15825, 9525), (15819, 9450), (15825, 7125), (15825, 6975), (15819, 6900), (15825, 4575),
  (15825, 4425), (15819, 4350), (15825, 1875), (15825, 2025), (15819, 1800)]

/-- travelling_salesman.hpp:82: the constructor of `TSP152`. -/
def tsp152 : TspInstance := ⟨tsp152Coords, -73682⟩

/-- tsp_data/tsp226.txt:1-226: the coordinates. -/
def tsp226Coords : List (Int × Int) := [
  (15625, 1150), (14625, 1200), (14525, 1200), (14425, 1200), (14125, 1200), (14025, 1200), (13925, 1200), (13975, 1500), (13625, 1200),
  (13475, 1200), (13475, 1600), (13475, 1750), (13475, 1900), (13325, 1200), (13175, 1200), (13100, 1725), (12675, 1725), (12025, 1300),
  (11425, 1600), (9725, 1450), (7975, 1150), (6975, 1200), (6875, 1200), (6775, 1200), (6475, 1200), (6375, 1200), (6275, 1200), (6325, 1500),
  (5975, 1200), (5825, 1200), (5825, 1600), (5825, 1750), (5825, 1900), (5675, 1200), (5525, 1200), (5450, 1725), (5025, 1725), (4375, 1300),
  (3775, 1600), (2075, 1450), (2075, 3850), (3775, 2300), (4375, 3300), (5025, 2150), (5450, 2150), (5475, 2500), (5475, 3000), (5825, 2050),
  (6325, 2200), (7975, 2150), (8725, 2550), (8725, 2650), (8725, 2750), (8725, 2850), (8725, 2950), (8725, 3050), (8725, 3200), (8725, 3300),
  (8725, 3400), (8725, 3500), (8725, 3600), (8725, 3700), (8725, 3800), (9725, 3850), (11425, 2300), (12025, 3300), (12675, 2150), (13100, 2150),
  (13125, 2500), (13125, 3000), (13475, 2050), (13975, 2200), (15625, 2150), (16375, 2550), (16375, 2650), (16375, 2750), (16375, 2850),
  (16375, 2950), (16375, 3050), (16375, 3200), (16375, 3300), (16375, 3400), (16375, 3500), (16375, 3600), (16375, 3700), (16375, 3800),
  (4875, 6500), (4875, 6700), (4875, 6600), (4875, 6800), (4875, 6900), (4875, 7000), (4875, 7100), (4875, 7200), (4975, 6500), (4975, 6600),
  (4975, 6700), (4975, 6800), (4975, 6900), (4975, 7000), (4975, 7100), (4975, 7200), (12525, 6500), (12525, 6700), (12525, 6600), (12525, 6800),
  (12525, 6900), (12525, 7000), (12525, 7100), (12525, 7200), (12625, 6500), (12625, 6600), (12625, 6700), (12625, 6800), (12625, 6900),
  (12625, 7000), (12625, 7100), (12625, 7200), (12625, 8450), (12625, 8550), (12625, 8650), (12625, 8750), (12625, 8850), (12625, 8950),
  (12625, 9050), (12525, 8450), (12525, 8650), (12525, 8550), (12525, 8750), (12525, 8950), (12525, 8850), (12525, 9050), (10075, 8800),
  (9975, 8800), (9875, 8800), (9775, 8800), (4975, 8450), (4975, 8550), (4975, 8650), (4975, 8750), (4975, 8850), (4975, 8950), (4975, 9050),
  (4875, 8450), (4875, 8650), (4875, 8550), (4875, 8750), (4875, 8950), (4875, 8850), (4875, 9050), (2425, 8800), (2325, 8800), (2225, 8800),
  (2125, 8800), (1875, 11850), (1975, 11850), (2075, 11850), (2425, 11850), (2525, 11850), (2625, 11850), (2725, 11850), (2825, 11850),
  (2925, 11850), (3025, 11850), (3125, 11850), (3375, 11850), (3475, 11850), (3575, 11850), (3675, 11850), (3775, 11850), (4075, 11850),
  (4175, 11850), (4275, 11850), (4375, 11850), (4475, 11850), (4575, 11850), (4675, 11850), (4775, 11850), (4875, 11850), (4975, 11850),
  (5375, 11850), (5475, 11850), (5575, 11850), (5675, 11850), (5775, 11850), (5875, 11850), (5975, 11850), (6075, 11850), (6175, 11850),
  (6275, 11850), (9525, 11850), (9625, 11850), (9725, 11850), (10075, 11850), (10175, 11850), (10275, 11850), (10375, 11850), (10475, 11850),
  (10575, 11850), (10675, 11850), (10775, 11850), (11025, 11850), (11125, 11850), (11225, 11850), (11325, 11850), (11425, 11850), (11725, 11850),
  (11825, 11850), (11925, 11850), (12025, 11850), (12125, 11850), (12225, 11850), (12325, 11850), (12425, 11850), (12525, 11850), (12625, 11850),
  (13025, 11850), (13125, 11850), (13225, 11850), (13325, 11850), (13425, 11850), (13525, 11850), (13625, 11850), (13725, 11850), (13825, 11850),
  (13925, 11850)]

/-- travelling_salesman.hpp:94: the constructor of `TSP226`. -/
def tsp226 : TspInstance := ⟨tsp226Coords, -80369⟩

/-- tsp_data/tsp299.txt:1-299: the coordinates. -/
def tsp299Coords : List (Int × Int) := [
  (2156, 1639), (2456, 1639), (2355, 1640), (2256, 1640), (2656, 1640), (2556, 1639), (2975, 1725), (3275, 1600), (3375, 1600), (3475, 1600),
  (3575, 1600), (3700, 1600), (3900, 1625), (3875, 1775), (4275, 1625), (4275, 1725), (4375, 1675), (4500, 1675), (4450, 1750), (4550, 1750),
  (4560, 1565), (4775, 1725), (4710, 1565), (4860, 1565), (5010, 1565), (5160, 1565), (5310, 1565), (5460, 1565), (5610, 1565), (6375, 1575),
  (6525, 1575), (6675, 1575), (6675, 1725), (6525, 1725), (6875, 1575), (7075, 1575), (7260, 1575), (7259, 1576), (7625, 1775), (7410, 1575),
  (7560, 1575), (7409, 1576), (7560, 1576), (7825, 1675), (7710, 1575), (7711, 1575), (7875, 1575), (7975, 1575), (8075, 1575), (8175, 1575),
  (8275, 1575), (8375, 1575), (8475, 1575), (8825, 1625), (8820, 1928), (8825, 1825), (7725, 1825), (7725, 1975), (7475, 1975), (7625, 1925),
  (7575, 2075), (7075, 1975), (6825, 1925), (6775, 2075), (6975, 2075), (6675, 1925), (6200, 1975), (6425, 2075), (6000, 1975), (6025, 2075),
  (5675, 1825), (5275, 1825), (5425, 1825), (5525, 1825), (5025, 1825), (4975, 2025), (5075, 1925), (5075, 2075), (4775, 1875), (4925, 1925),
  (4675, 1950), (4775, 1975), (4425, 2050), (4525, 2050), (4175, 1950), (4125, 2050), (4275, 2050), (3875, 1900), (3875, 2075), (3975, 1975),
  (3975, 2075), (2925, 1875), (2925, 2150), (4175, 2150), (4325, 2150), (4275, 2225), (4275, 2325), (4425, 2150), (4525, 2150), (4600, 2225),
  (4600, 2325), (4775, 2125), (5175, 2325), (5450, 2375), (6775, 2225), (7275, 2275), (7075, 2175), (7425, 2325), (7525, 2375), (7475, 2175),
  (7775, 2350), (7825, 2175), (7875, 2350), (8825, 2225), (8725, 2375), (8703, 2197), (8825, 2425), (8575, 2450), (8725, 2525), (8625, 2600),
  (8375, 2600), (8475, 2600), (7975, 2475), (8225, 2500), (8225, 2600), (8125, 2575), (7975, 2625), (7750, 2650), (5350, 2400), (5450, 2525),
  (5450, 2675), (5250, 2400), (5175, 2475), (5175, 2675), (5075, 2575), (4975, 2525), (5025, 2675), (4875, 2675), (4175, 2425), (4175, 2625),
  (3925, 2450), (3725, 2450), (3325, 2450), (2925, 2425), (2575, 2525), (2675, 2525), (2275, 2525), (2375, 2525), (2175, 2525), (2148, 2786),
  (2249, 2786), (2352, 2786), (2451, 2785), (2552, 2785), (2651, 2787), (2925, 2925), (3325, 2900), (3725, 2900), (3925, 2900), (4175, 2925),
  (4175, 2725), (4975, 2825), (5075, 2775), (5175, 2875), (5450, 2825), (5450, 2925), (6125, 2875), (6025, 2875), (7575, 2875), (7425, 2875),
  (7925, 2875), (7875, 2775), (7825, 2925), (7750, 2800), (8125, 2775), (8075, 2875), (8025, 2775), (8125, 2975), (7975, 2975), (8775, 2825),
  (8775, 2925), (8775, 3025), (8775, 3125), (8775, 3275), (8625, 3225), (8525, 3225), (8075, 3075), (7975, 3275), (7975, 3075), (7825, 3125),
  (7575, 3075), (7600, 3175), (7425, 3275), (7425, 3125), (7425, 3025), (7325, 3225), (6125, 3025), (6025, 3175), (5375, 3250), (5275, 3250),
  (5450, 3025), (5175, 3150), (5075, 3275), (4525, 3200), (4575, 3125), (4575, 3025), (4425, 3200), (4325, 3200), (4175, 3200), (4275, 3125),
  (4275, 3025), (3975, 3275), (3875, 3275), (2925, 3198), (2925, 3475), (3925, 3475), (3825, 3475), (3975, 3375), (4325, 3575), (4275, 3300),
  (4175, 3400), (4125, 3300), (4500, 3300), (4400, 3300), (4725, 3525), (4675, 3400), (4775, 3375), (5175, 3300), (4975, 3325), (5175, 3475),
  (5025, 3450), (5375, 3525), (5275, 3525), (6050, 3375), (5908, 3574), (6450, 3375), (6675, 3325), (6575, 3525), (6975, 3525), (6875, 3325),
  (6775, 3425), (7150, 3325), (7150, 3475), (7625, 3525), (7575, 3425), (7475, 3525), (7425, 3425), (7825, 3525), (7725, 3525), (7825, 3375),
  (7725, 3375), (8225, 3425), (8225, 3325), (8475, 3525), (8325, 3525), (8575, 3325), (8775, 3700), (8675, 3800), (8575, 3700), (8425, 3625),
  (8325, 3625), (8375, 3775), (8175, 3625), (8225, 3775), (8075, 3775), (8075, 3675), (7925, 3775), (7875, 3675), (7075, 3675), (7150, 3750),
  (6975, 3725), (6575, 3750), (6375, 3750), (5975, 3750), (5325, 3775), (5275, 3675), (5375, 3675), (5075, 3800), (5204, 3772), (4675, 3675),
  (4925, 3800), (4925, 3675), (4775, 3675), (4575, 3675), (4425, 3675), (4325, 3725), (3825, 3650), (3625, 3750), (3475, 3750), (3225, 3750),
  (3325, 3750), (3125, 3725), (2925, 3725), (2575, 3675), (2675, 3675), (2275, 3675), (2375, 3675), (2175, 3675), (4775, 3225)]

/-- travelling_salesman.hpp:106: the constructor of `TSP299`. -/
def tsp299 : TspInstance := ⟨tsp299Coords, -48191⟩

/-- tsp_data/tsp439.txt:1-439: the coordinates. -/
def tsp439Coords : List (Int × Int) := [
  (7125, 11300), (7225, 11050), (7225, 11150), (7375, 11300), (7500, 11200), (7625, 11275), (7725, 11275), (7825, 11275), (7925, 11275),
  (8050, 11225), (8050, 11125), (8150, 11125), (8275, 11300), (8400, 11300), (8525, 11300), (8650, 11300), (8750, 11200), (12475, 10800),
  (12075, 10800), (11975, 10975), (11575, 10975), (11525, 10850), (11400, 10975), (11425, 10850), (11000, 10975), (10475, 10850), (10375, 10850),
  (10300, 10975), (10250, 10850), (9900, 10975), (9850, 10850), (9350, 11000), (8750, 11000), (8650, 10900), (8525, 10900), (8400, 10900),
  (8275, 10900), (8050, 10775), (7900, 10775), (7925, 10975), (7825, 10975), (7750, 10775), (7725, 10975), (7600, 10775), (7625, 10975),
  (7500, 11000), (7425, 10750), (7325, 10750), (7375, 10900), (7225, 10750), (7125, 10750), (7125, 10900), (7125, 10450), (7225, 10450),
  (7325, 10450), (7425, 10450), (8300, 10500), (8600, 10500), (8950, 10425), (9050, 10425), (9150, 10425), (9350, 10600), (10200, 10600),
  (10700, 10600), (11375, 10575), (11525, 10625), (11650, 10625), (11775, 10450), (11775, 10250), (11650, 10125), (11525, 10125), (11375, 10175),
  (10250, 10325), (10250, 10125), (9275, 10275), (9175, 10275), (8950, 10200), (8750, 10200), (8050, 10275), (7900, 10275), (7750, 10275),
  (7600, 10275), (4975, 10125), (4750, 10125), (4525, 10125), (8750, 10000), (8950, 10000), (11375, 10000), (11475, 10000), (11575, 10000),
  (11675, 10000), (12100, 9875), (12225, 9875), (12350, 9875), (12750, 9925), (12875, 9925), (13125, 9875), (13000, 9800), (13000, 9550),
  (12600, 9775), (12600, 9575), (11975, 9800), (11975, 9550), (11675, 9700), (11575, 9700), (11475, 9700), (11375, 9700), (10975, 9600),
  (10850, 9600), (10375, 9250), (10475, 9250), (10575, 9250), (11725, 9325), (11850, 9375), (12100, 9475), (12050, 9275), (12225, 9475),
  (12150, 9275), (12250, 9275), (12350, 9475), (12350, 9275), (12525, 9325), (12750, 9425), (12775, 9275), (12875, 9425), (12875, 9275),
  (12975, 9275), (13125, 9475), (13075, 9275), (13250, 9375), (13375, 9375), (13500, 9375), (13625, 9375), (13075, 8975), (12975, 8975),
  (12875, 8975), (12775, 8975), (12525, 8925), (12350, 8975), (12250, 8975), (12150, 8975), (12050, 8975), (11725, 8925), (10975, 9200),
  (10900, 8975), (10850, 9200), (10800, 9075), (10800, 8975), (5150, 8750), (11650, 8725), (11775, 8775), (11850, 8875), (11900, 8725),
  (12025, 8625), (12150, 8650), (12275, 8725), (12400, 8625), (12525, 8725), (12650, 8625), (12850, 8725), (12975, 8625), (13100, 8775),
  (13250, 8875), (13375, 8875), (13500, 8875), (13475, 8725), (13625, 8875), (13700, 8500), (13600, 8600), (13600, 8500), (13475, 8325),
  (13350, 8350), (13250, 8450), (13250, 8350), (12975, 8425), (12850, 8325), (12650, 8425), (12525, 8325), (12400, 8425), (12275, 8325),
  (12150, 8400), (12025, 8425), (11900, 8325), (11650, 8325), (11000, 8575), (4900, 8500), (6150, 8275), (6625, 8300), (7025, 8300), (11225, 8125),
  (11550, 8125), (11775, 8275), (11850, 8125), (11975, 8125), (12100, 8125), (12225, 8125), (12350, 8125), (12475, 8025), (12600, 8125),
  (12725, 8125), (12850, 8125), (12975, 8125), (13100, 8125), (13100, 8275), (13225, 8125), (13375, 8175), (13500, 8175), (13625, 8125),
  (13625, 7725), (13225, 7725), (13100, 7725), (12975, 7725), (12850, 7725), (12725, 7725), (12600, 7725), (12475, 7825), (12350, 7725),
  (12225, 7725), (12100, 7725), (11975, 7725), (11850, 7725), (11550, 7725), (11225, 7725), (11000, 7775), (6625, 7950), (4800, 7825), (4550, 7825),
  (4550, 7425), (4800, 7425), (6150, 7525), (6825, 7575), (7075, 7575), (11450, 7500), (11550, 7500), (11650, 7500), (11750, 7500), (11850, 7500),
  (11950, 7500), (12050, 7500), (12150, 7500), (12325, 7550), (12500, 7500), (12600, 7500), (12700, 7500), (12800, 7500), (13025, 7500),
  (13125, 7500), (13225, 7500), (13325, 7500), (13375, 7675), (13500, 7675), (13500, 7450), (13625, 7550), (13625, 7150), (13500, 7250),
  (13325, 7200), (13225, 7200), (13125, 7200), (13025, 7200), (12800, 7200), (12700, 7200), (12600, 7200), (12500, 7200), (12325, 7150),
  (12150, 7200), (12050, 7200), (11950, 7200), (11850, 7200), (11750, 7200), (11650, 7200), (11550, 7200), (11450, 7200), (11050, 7125),
  (10950, 7125), (10850, 7125), (10750, 7125), (10650, 7125), (10550, 7125), (10450, 7125), (7075, 7175), (5825, 7350), (5425, 7350), (4425, 7275),
  (4425, 6875), (7075, 7075), (7250, 7025), (7250, 6900), (7750, 6900), (7900, 6900), (8200, 6900), (8350, 6900), (8650, 6900), (8800, 6900),
  (10450, 6825), (10550, 6825), (10650, 6825), (10750, 6825), (10850, 6825), (10950, 6825), (11050, 6825), (11425, 6975), (11575, 6925),
  (11575, 6825), (11675, 6825), (11850, 6975), (11975, 6975), (12225, 6975), (12350, 6975), (12475, 6975), (12600, 6975), (12725, 6875),
  (12850, 6975), (12975, 6975), (13125, 7025), (13275, 6975), (13400, 7025), (13400, 6525), (13275, 6575), (13125, 6525), (12975, 6575),
  (12850, 6575), (12725, 6675), (12600, 6575), (12475, 6575), (12350, 6575), (12225, 6575), (11975, 6575), (11850, 6575), (11675, 6575),
  (11575, 6675), (11575, 6575), (11425, 6575), (11050, 6625), (10950, 6625), (10850, 6625), (10750, 6625), (10650, 6625), (10550, 6625),
  (10450, 6625), (7075, 6675), (5675, 6650), (5175, 6650), (5050, 6575), (4650, 6575), (7650, 6375), (7750, 6375), (7750, 6500), (7850, 6375),
  (7900, 6500), (8100, 6375), (8200, 6375), (8200, 6500), (8300, 6375), (8350, 6500), (8550, 6375), (8650, 6375), (8650, 6500), (8750, 6375),
  (8800, 6500), (10450, 6325), (10550, 6325), (10650, 6325), (10750, 6325), (10850, 6325), (10950, 6325), (11050, 6325), (11100, 6075),
  (10950, 6075), (10800, 6125), (10300, 6125), (5550, 5675), (5625, 5625), (5675, 5750), (6175, 5750), (6225, 5625), (7625, 5850), (7875, 5850),
  (10950, 5800), (7875, 5350), (7625, 5350), (6175, 5400), (5675, 5400), (5550, 5425), (5550, 5200), (10950, 5300), (11050, 5075), (11200, 5075),
  (11350, 4875), (7875, 4875), (7675, 4875), (6225, 5000), (6175, 4875), (5675, 4875), (5625, 5000), (5550, 4950), (5550, 4475), (5550, 4675),
  (5675, 4675), (6175, 4675), (11350, 4425), (11350, 4650), (13225, 4275), (4225, 4075), (13225, 4075), (13225, 3700), (6350, 3600), (5950, 3600),
  (4225, 3675), (4225, 3525), (4475, 3300), (4475, 3450), (4975, 3300), (4975, 3450), (7900, 3350), (10650, 3525), (10850, 3525), (13225, 3500),
  (13225, 3125), (8275, 3000), (8125, 3000), (7900, 3200), (4975, 3000), (4975, 3150), (4475, 3000), (4475, 3150), (4225, 3125), (4675, 2700),
  (13225, 2925), (13225, 2525), (4675, 2550), (13225, 2325), (4675, 1825), (4675, 1975), (1975, 4025), (2075, 5675), (1975, 5575), (1875, 5475),
  (1775, 5375), (2075, 6475)]

/-- travelling_salesman.hpp:118: the constructor of `TSP439`. -/
def tsp439 : TspInstance := ⟨tsp439Coords, -107217⟩

end Gapp.Model
