import Verif.Model.DoubleOps
/-!
# Statistics of a population in binary64 arithmetic

Source: `/repo/src/metrics/pop_stats.cpp:22-103`, `/repo/src/utility/algorithm.hpp:303-323`. The fitness values are values of the type `double`: rounded numbers, infinities, NaN.
A fitness matrix is the list of its rows. A precondition that does not hold is `none`. The compiler may evaluate `a * b + c` with one rounding (`fused`).
-/

namespace Gapp.Model
open Dbl

/-- pop_stats.cpp:22-34 `minFitness`, algorithm.hpp:303-312 `elementwise_min`. -/
def minFitnessD : List (List Dbl) → Option (List Dbl)
  | [] => none
  | first :: rest => rest.foldlM (fun a b => if a.length = b.length then some (List.zipWith Dbl.min a b) else none) first

/-- pop_stats.cpp:36-48 `maxFitness`, algorithm.hpp:314-323 `elementwise_max`. -/
def maxFitnessRowD : List (List Dbl) → Option (List Dbl)
  | [] => none
  | first :: rest => rest.foldlM (fun a b => if a.length = b.length then some (List.zipWith Dbl.max a b) else none) first

/-- pop_stats.cpp:50-66 `fitnessMean`. -/
def fitnessMeanD (fused : Bool) : List (List Dbl) → Option (List Dbl)
  | [] => none
  | first :: rest =>
    let ninv := div (.fin 1) (ofNatD (first :: rest).length)
    some ((first :: rest).foldl (fun mean fvec => List.zipWith (fun m f => mulAdd fused f ninv m) mean fvec) (List.replicate first.length (.fin 0)))

/-- pop_stats.cpp:68-87 `fitnessVariance` with a given mean; `std::pow(x, 2)` is `x * x`. -/
def fitnessVarianceOfD (fused : Bool) (mean : List Dbl) : List (List Dbl) → Option (List Dbl)
  | [] => none
  | first :: rest =>
    if first.length = mean.length then
      let ninv := div (.fin 1) (sub (ofNatD (first :: rest).length) (.fin 1))
      if (first :: rest).length = 1 then some (List.replicate first.length (.fin 0))
      else some ((first :: rest).foldl (fun var fvec => List.zipWith (fun v (p : Dbl × Dbl) => mulAdd fused (mul (sub p.1 p.2) (sub p.1 p.2)) ninv v) var (fvec.zip mean))
        (List.replicate first.length (.fin 0)))
    else none

/-- pop_stats.cpp:89-92 `fitnessVariance`. -/
def fitnessVarianceD (fused : Bool) (fmat : List (List Dbl)) : Option (List Dbl) := do
  fitnessVarianceOfD fused (← fitnessMeanD fused fmat) fmat

/-- pop_stats.cpp:94-103 `fitnessStdDev`; `sqrt` is `std::sqrt`. -/
def fitnessStdDevD (fused : Bool) (sqrt : Dbl → Dbl) (fmat : List (List Dbl)) : Option (List Dbl) := do
  return (← fitnessVarianceOfD fused (← fitnessMeanD fused fmat) fmat).map sqrt

end Gapp.Model
