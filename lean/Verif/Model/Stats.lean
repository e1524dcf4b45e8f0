import Mathlib.Algebra.Field.Basic
import Mathlib.Order.Defs.LinearOrder
/-!
# Statistics of a population

Source: `/repo/src/metrics/pop_stats.cpp:22-103`, `/repo/src/utility/algorithm.hpp:303-323`.

A fitness matrix is the list of its rows. A precondition that does not hold is `none`. Means and variances are computed in a field, without rounding.
-/

namespace Gapp.Model

section
variable {V : Type} [LinearOrder V]

/-- algorithm.hpp:303-312 `elementwise_min`, with `std::min(a, b) = (b < a) ? b : a`. The sizes are asserted to be equal. -/
def elementwiseMin? (left right : List V) : Option (List V) :=
  if left.length = right.length then some (List.zipWith (fun a b => if b < a then b else a) left right) else none

/-- algorithm.hpp:314-323 `elementwise_max`, with `std::max(a, b) = (a < b) ? b : a`. -/
def elementwiseMax? (left right : List V) : Option (List V) :=
  if left.length = right.length then some (List.zipWith (fun a b => if a < b then b else a) left right) else none

/-- pop_stats.cpp:22-34 `minFitness`. -/
def minFitness : List (List V) → Option (List V)
  | [] => none
  | first :: rest => rest.foldlM elementwiseMin? first

/-- pop_stats.cpp:36-48 `maxFitness`. -/
def maxFitness : List (List V) → Option (List V)
  | [] => none
  | first :: rest => rest.foldlM elementwiseMax? first
end

section
variable {K : Type} [Field K]

/-- pop_stats.cpp:50-66 `fitnessMean`. The rows of a matrix have the same size. -/
def fitnessMean : List (List K) → Option (List K)
  | [] => none
  | first :: rest =>
    let ninv := 1 / ((first :: rest).length : K)
    some ((first :: rest).foldl (fun mean fvec => List.zipWith (fun m f => m + f * ninv) mean fvec) (List.replicate first.length 0))

/-- pop_stats.cpp:68-87 `fitnessVariance` with a given mean. -/
def fitnessVarianceOf (mean : List K) : List (List K) → Option (List K)
  | [] => none
  | first :: rest =>
    if first.length = mean.length then
      let ninv := 1 / (((first :: rest).length : K) - 1)
      if (first :: rest).length = 1 then some (List.replicate first.length 0)
      else some ((first :: rest).foldl
        (fun var fvec => List.zipWith (fun v (p : K × K) => v + (p.1 - p.2) ^ 2 * ninv) var (fvec.zip mean)) (List.replicate first.length 0))
    else none

/-- pop_stats.cpp:89-92 `fitnessVariance`. -/
def fitnessVariance (fmat : List (List K)) : Option (List K) := do
  fitnessVarianceOf (← fitnessMean fmat) fmat

/-- pop_stats.cpp:94-103 `fitnessStdDev`; `sqrt` is `std::sqrt`. -/
def fitnessStdDev (sqrt : K → K) (fmat : List (List K)) : Option (List K) := do
  return (← fitnessVarianceOf (← fitnessMean fmat) fmat).map sqrt
end

end Gapp.Model
