import Verif.Model.Double
import Verif.Model.DoubleOps
import Verif.Model.Selection
/-!
# The single-objective selections in binary64 arithmetic

Source: `/repo/src/algorithm/soga_selection.cpp:22-168`, `/repo/src/utility/rng.hpp:526-535`, `/repo/src/utility/math.cpp:99-104`.

The sums of `std::transform_reduce` may be evaluated in any order: the function `sumQ` is a parameter, it is `std::transform_reduce(first, last, 0.0, std::plus{}, divide_by(n))`
for a divisor `n`. `std::transform_inclusive_scan` is sequential, as it is in the standard libraries. The compiler may replace a division by the product with the reciprocal
(`-freciprocal-math`, `/repo/CMakeLists.txt:88`): the flags `recip`. Other rewritings that this option allows are not modelled. `std::exp`, `std::lerp` and the standard deviation (computed in `long double`) are parameters. A violated precondition is `none`.
-/

namespace Gapp.Model
open Dbl

instance : LT Dbl := ⟨fun a b => Dbl.lt a b = true⟩
instance : DecidableLT Dbl := fun a b => inferInstanceAs (Decidable (Dbl.lt a b = true))

/-- math.hpp:25-26 `math::small<double>`. -/
def smallD : Dbl := .fin (2 ^ (-1022 : ℤ))

/-- math.hpp:28-29 `math::large<double>`. -/
def largeD : Dbl := .fin (2 ^ 1024 - 2 ^ 971)

/-- soga_selection.cpp:35: The sequential `std::inclusive_scan` with `std::plus`, after the first element. -/
def scanD (acc : Dbl) : List Dbl → List Dbl
  | [] => []
  | x :: xs => add acc x :: scanD (add acc x) xs

/-- soga_selection.cpp:35: `std::inclusive_scan` with `std::plus`. -/
def inclusiveScanD : List Dbl → List Dbl
  | [] => []
  | x :: xs => x :: scanD x xs

/-- soga_selection.cpp:23-38: The compilation choices of the expressions of `weightsToCdf`. -/
structure CdfFlags where
  /-- the division of line 35 -/
  recipScan : Bool
  /-- the multiplication and the addition of line 35 -/
  fused : Bool

/-- soga_selection.cpp:22-38 `weightsToCdf`. `1.0 / wsum` is NaN in the model if `wsum` is 0; it is infinite in the code, what is not finite either. -/
def weightsToCdfD (fl : CdfFlags) (sumQ : Dbl → List Dbl → Dbl) (weights : List Dbl) : Option (List Dbl) :=
  if weights.all (fun w => le (.fin 0) w && le w largeD) then do
    let largest ← weights[maxElement weights]?
    let wmax := Dbl.max smallD largest
    let wsum := sumQ wmax weights
    let idiv := if isFinite (div (.fin 1) wsum) then div (.fin 1) wsum else .fin 1
    let corr := if isFinite (div (.fin 1) wsum) then .fin 0 else div (.fin 1) (ofNatD weights.length)
    return inclusiveScanD (weights.map (fun w => mulAdd fl.fused (divR fl.recipScan idiv wmax) w corr))
  else none

/-- rng.hpp:526-535 `sampleCdf`. `k` is the draw of `randomReal()`. -/
def sampleCdfD (fused : Bool) (cdf : List Dbl) (k : ℕ) : Option Nat := do
  let front ← cdf.head?
  if le (.fin 0) front then
    let back ← cdf.getLast?
    let threshold ← randomRealD fused (.fin 0) back k
    lowerBound (fun x => lt x threshold) cdf
  else none

/-- soga_selection.cpp:54-59, 106-111, 129-134, 162-167: The selection of a candidate by weights: `weightsToCdf`, then `sampleCdf`. -/
def selectByWeightD (fl : CdfFlags) (fused : Bool) (sumQ : Dbl → List Dbl → Dbl) (weights : List Dbl) (k : ℕ) : Option Nat := do
  sampleCdfD fused (← weightsToCdfD fl sumQ weights) k

/-- soga_selection.cpp:41-52 `Roulette::prepareSelectionsImpl`: the weights. The constants are rounded by the compiler. -/
def rouletteWeightsD (fused : Bool) (fvec : List Dbl) : Option (List Dbl) := do
  let lowest ← fvec[minElement fvec]?
  let offset := mul (neg (div (.fin 2) (.fin 3))) (Dbl.min (.fin 0) lowest)
  let scale := if le (.fin 0) lowest then .fin 1 else div (.fin 1) (.fin 3)
  return fvec.map (fun f => mulAdd fused scale f offset)

/-- soga_selection.cpp:41-60 `Roulette`. -/
def rouletteSelectD (fl : CdfFlags) (fused fusedW : Bool) (sumQ : Dbl → List Dbl → Dbl) (fvec : List Dbl) (k : ℕ) : Option Nat := do
  selectByWeightD fl fused sumQ (← rouletteWeightsD fusedW fvec) k

/-- soga_selection.cpp:93-107 `Rank::prepareSelectionsImpl`: the weights; `indices` is the result of the sort. -/
def rankWeightsD (lerp : Dbl → Dbl → Dbl → Dbl) (minWeight maxWeight : Dbl) (indices : List Nat) : Option (List Dbl) :=
  (indices.zipIdx).foldlM (fun weights p =>
    if p.1 < weights.length then
      some (weights.set p.1 (lerp minWeight maxWeight (div (ofNatD p.2) (sub (ofNatD indices.length) (.fin 1)))))
    else none) (List.replicate indices.length (.fin 0))

/-- soga_selection.cpp:93-112 `Rank`. -/
def rankSelectD (fl : CdfFlags) (fused : Bool) (sumQ : Dbl → List Dbl → Dbl) (lerp : Dbl → Dbl → Dbl → Dbl) (minWeight maxWeight : Dbl) (indices : List Nat) (k : ℕ) : Option Nat := do
  selectByWeightD fl fused sumQ (← rankWeightsD lerp minWeight maxWeight indices) k

/-- math.cpp:99-104 `math::mean`. -/
def mathMeanD (sumQ : Dbl → List Dbl → Dbl) (vec : List Dbl) : Dbl := sumQ (ofNatD vec.length) vec

/-- soga_selection.cpp:115-130 `Sigma::prepareSelectionsImpl`: the weights. `stdDev` is `math::stdDev`. -/
def sigmaWeightsD (fused : Bool) (sumQ : Dbl → List Dbl → Dbl) (stdDev : List Dbl → Dbl → Dbl) (fvec : List Dbl) : List Dbl :=
  let fmean := mathMeanD sumQ fvec
  let fdev := stdDev fvec fmean
  let idiv := div (.fin 1) (clamp fdev smallD largeD)
  fvec.map (fun f => clamp (mulAdd fused (sub f fmean) idiv (.fin 1)) (.fin 0) largeD)

/-- soga_selection.cpp:115-135 `Sigma`. -/
def sigmaSelectD (fl : CdfFlags) (fused fusedW : Bool) (sumQ : Dbl → List Dbl → Dbl) (stdDev : List Dbl → Dbl → Dbl) (fvec : List Dbl) (k : ℕ) : Option Nat :=
  selectByWeightD fl fused sumQ (sigmaWeightsD fusedW sumQ stdDev fvec) k

/-- soga_selection.cpp:157: The ways in which the compiler may evaluate `f / df - f_min / df`: as it is written, with the reciprocal of `df`, and with one of the two products not rounded. -/
inductive FnormForm where
  | plain
  | recip
  | fuseFirst
  | fuseSecond
  deriving DecidableEq, Repr

/-- soga_selection.cpp:157: `c + a * b` with one rounding. -/
def fma : Dbl → Dbl → Dbl → Dbl
  | .fin x, .fin y, .fin z => roundD (z + x * y)
  | .fin _, .fin _, c => c
  | a, b, c => add c (mul a b)

/-- soga_selection.cpp:157: the normalized fitness. -/
def fnormD (form : FnormForm) (df fmin f : Dbl) : Dbl :=
  match form with
  | .plain => sub (div f df) (div fmin df)
  | .recip => sub (mul f (div (.fin 1) df)) (mul fmin (div (.fin 1) df))
  | .fuseFirst => fma f (div (.fin 1) df) (neg (mul fmin (div (.fin 1) df)))
  | .fuseSecond => fma (neg fmin) (div (.fin 1) df) (mul f (div (.fin 1) df))

/-- soga_selection.cpp:145-163 `Boltzmann::prepareSelectionsImpl`: the weights; `exp` is `std::exp`. -/
def boltzmannWeightsD (form : FnormForm) (recipT : Bool) (exp : Dbl → Dbl) (temperature : Dbl) (fvec : List Dbl) : Option (List Dbl) := do
  let fmin ← fvec[minElement fvec]?
  let fmax ← fvec[maxElement fvec]?
  let df := clamp (sub fmax fmin) smallD largeD
  return fvec.map (fun f => Dbl.min largeD (exp (divR recipT (fnormD form df fmin f) temperature)))

/-- soga_selection.cpp:145-168 `Boltzmann`. -/
def boltzmannSelectD (fl : CdfFlags) (fused : Bool) (form : FnormForm) (recipT : Bool) (sumQ : Dbl → List Dbl → Dbl) (exp : Dbl → Dbl) (temperature : Dbl) (fvec : List Dbl) (k : ℕ) :
    Option Nat := do
  selectByWeightD fl fused sumQ (← boltzmannWeightsD form recipT exp temperature fvec) k

end Gapp.Model
