import Mathlib.Algebra.Field.Basic
import Mathlib.Algebra.Order.Field.Basic
import Mathlib.Algebra.BigOperators.Group.List.Basic
import Verif.Model.Algorithm
import Verif.Model.ParetoFront
/-!
# Model of the single-objective selection and replacement methods

Source: `/repo/src/algorithm/soga_selection.cpp:22-190`, `/repo/src/algorithm/soga_replacement.cpp:15-51`, `/repo/src/utility/rng.hpp:346-351, 526-535`.

Finite numbers are elements of a linearly ordered field; there is no rounding. `small` and `large` are the least positive normal number and the largest finite
number. A violated precondition is `none`. The results of random draws are arguments.
-/

namespace Gapp.Model
section
variable {K : Type} [Field K] [LinearOrder K]

/-- soga_selection.cpp:35: `std::inclusive_scan` with `std::plus`. -/
def inclusiveScan (acc : K) : List K → List K
  | [] => []
  | x :: xs => (acc + x) :: inclusiveScan (acc + x) xs

/-- soga_selection.cpp:22-38 `weightsToCdf`. The lines 25-26 are the preconditions. `1.0 / wsum` is taken to be finite if `wsum` is not 0. -/
def weightsToCdf (small large : K) (weights : List K) : Option (List K) :=
  if weights.all (fun w => decide (0 ≤ w ∧ w ≤ large)) then do
    let largest ← weights[maxElement weights]?
    let wmax := if small < largest then largest else small
    let wsum := (weights.map (fun w => w / wmax)).sum
    let idiv := if wsum ≠ 0 then 1 / wsum else 1
    let corr := if wsum ≠ 0 then 0 else 1 / (weights.length : K)
    return inclusiveScan 0 (weights.map (fun w => (idiv / wmax) * w + corr))
  else none

/-- rng.hpp:346-351 `randomReal(lbound, ubound)`; `r` is the result of `randomReal()`. -/
def randomRealBetween (lbound ubound r : K) : Option K := if lbound ≤ ubound then some (lbound + (ubound - lbound) * r) else none

/-- rng.hpp:526-535 `sampleCdf`. -/
def sampleCdf (cdf : List K) (r : K) : Option Nat := do
  let front ← cdf.head?
  if 0 ≤ front then
    let back ← cdf.getLast?
    let threshold ← randomRealBetween 0 back r
    lowerBound (fun x => decide (x < threshold)) cdf
  else none

/-- soga_selection.cpp:41-55 `Roulette::prepareSelectionsImpl`: the weights. -/
def rouletteWeights (fvec : List K) : Option (List K) := do
  let lowest ← fvec[minElement fvec]?
  let offset := -(2 / 3) * (if lowest < 0 then lowest else 0)
  let scale := if lowest ≥ 0 then 1 else 1 / 3
  return fvec.map (fun f => scale * f + offset)

/-- soga_selection.cpp:41-60 `Roulette`. -/
def rouletteSelect (small large : K) (fvec : List K) (r : K) : Option Nat := do
  sampleCdf (← weightsToCdf small large (← rouletteWeights fvec)) r

/-- soga_selection.cpp:63-76 `Tournament::selectImpl`; `draws` are the results of `randomIndex`. -/
def tournamentSelect (size : Nat) (fvec : List K) (draws : List Nat) : Option Nat :=
  if fvec.length ≥ size ∧ draws.length = size then do
    let vals ← draws.mapM (fun i => fvec[i]?)
    draws[maxElement vals]?
  else none

/-- soga_selection.cpp:103: `std::lerp`. -/
def stdLerp (a b t : K) : K := a + t * (b - a)

/-- soga_selection.cpp:93-107 `Rank::prepareSelectionsImpl`: the weights; `indices` is the result of the sort. For a single candidate `t` is `0 / 0`, so the weight
is not a number (`none`). -/
def rankWeights (minWeight maxWeight : K) (indices : List Nat) : Option (List K) :=
  if indices.length = 1 then none
  else (indices.zipIdx).foldlM (fun weights p =>
    if p.1 < weights.length then
      some (weights.set p.1 (stdLerp minWeight maxWeight ((p.2 : K) / ((indices.length : K) - 1))))
    else none) (List.replicate indices.length 0)

/-- soga_selection.cpp:93-112 `Rank`. -/
def rankSelect (small large minWeight maxWeight : K) (indices : List Nat) (r : K) : Option Nat := do
  sampleCdf (← weightsToCdf small large (← rankWeights minWeight maxWeight indices)) r

/-- math.cpp:99-104 `math::mean`. -/
def mathMean (vec : List K) : K := (vec.map (fun x => x / (vec.length : K))).sum

/-- math.cpp:111-124 `math::stdDev`. The terms `pow(val - mean / sqrt(n), 2)` are written as `(val - mean)^2 / n`. -/
def mathStdDev (sqrt : K → K) (vec : List K) (mean : K) : K :=
  if vec.length = 1 then 0 else sqrt ((vec.map (fun x => (x - mean) ^ 2 / (vec.length : K))).sum)

/-- soga_selection.cpp:120, 126, 151: `std::clamp`. -/
def clampTo (x lo hi : K) : K := if x < lo then lo else if hi < x then hi else x

/-- soga_selection.cpp:115-130 `Sigma::prepareSelectionsImpl`: the weights. -/
def sigmaWeights (sqrt : K → K) (small large : K) (fvec : List K) : List K :=
  let fmean := mathMean fvec
  let fdev := mathStdDev sqrt fvec fmean
  let idiv := 1 / clampTo fdev small large
  fvec.map (fun f => clampTo (1 + (f - fmean) * idiv) 0 large)

/-- soga_selection.cpp:115-135 `Sigma`. -/
def sigmaSelect (sqrt : K → K) (small large : K) (fvec : List K) (r : K) : Option Nat := do
  sampleCdf (← weightsToCdf small large (sigmaWeights sqrt small large fvec)) r

/-- soga_selection.cpp:145-163 `Boltzmann::prepareSelectionsImpl`: the weights; `exp` is `std::exp`. -/
def boltzmannWeights (exp : K → K) (small large temperature : K) (fvec : List K) : Option (List K) := do
  let fmin ← fvec[minElement fvec]?
  let fmax ← fvec[maxElement fvec]?
  let df := clampTo (fmax - fmin) small large
  return fvec.map (fun f =>
    let fnorm := f / df - fmin / df
    let e := exp (fnorm / temperature)
    if e < large then e else large)

/-- soga_selection.cpp:145-168 `Boltzmann`. -/
def boltzmannSelect (exp : K → K) (small large temperature : K) (fvec : List K) (r : K) : Option Nat := do
  sampleCdf (← weightsToCdf small large (← boltzmannWeights exp small large temperature fvec)) r
end

/-! ## Replacement -/

section
variable {K : Type} [CommRing K] [LinearOrder K]

/-- soga_replacement.cpp:15-18 `KeepChildren`. -/
def keepChildren (popSize : Nat) : List Nat := List.range' popSize popSize

/-- soga_replacement.cpp:27-30, 45-48: the descending comparator. -/
def rowDescending (t : Tol K) (lhs rhs : FVec K) : Bool := paretoCompareLess t rhs lhs

/-- soga_replacement.cpp:20-37 `Elitism`: the results allowed for a call. -/
def ElitismResult (t : Tol K) (n popSize : Nat) (fmat : FMat K) (res : List Nat) : Prop :=
  fmat.length ≥ 2 * popSize ∧
  ∃ sorted, IsPartialArgsortOf false (rowDescending t) (fmat.take popSize) (min n popSize) sorted ∧
    res = sorted.take (min n popSize) ++ List.range' popSize (popSize - min n popSize)

/-- soga_replacement.cpp:39-51 `KeepBest`: the results allowed for a call. -/
def KeepBestResult (t : Tol K) (popSize : Nat) (fmat : FMat K) (res : List Nat) : Prop :=
  fmat.length ≥ popSize ∧
  ∃ sorted, IsPartialArgsortOf false (rowDescending t) fmat popSize sorted ∧ res = sorted.take popSize
end

end Gapp.Model
