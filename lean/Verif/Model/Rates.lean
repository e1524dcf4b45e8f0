import Mathlib.Analysis.SpecialFunctions.Sqrt
import Verif.Model.Rng
/-!
# Model of the tests whether an operator is applied

Source: `/repo/src/crossover/crossover_base.impl.hpp:23-27`, `/repo/src/mutation/permutation.cpp:22, 39, 52, 68, 87`, `/repo/src/utility/rng.hpp:340-344, 379-380, 405`.
-/

namespace Gapp.Model
section
variable {K : Type} [Field K] [LinearOrder K]

/-- rng.hpp:340-344 `randomReal()` for an output `x` of the generator, as a number. -/
def outputReal (x : BitVec 64) : Option K := (randomReal 64 53 x).map (fun m => (m : K) / 2 ^ 53)

/-- crossover_base.impl.hpp:23-27: the crossover is performed. -/
def crossoverApplies (pc : K) (x : BitVec 64) : Option Bool := (outputReal x).map (fun r => !decide (r ≥ pc))

/-- permutation.cpp:22: `Inversion` changes the chromosome. -/
def inversionApplies (pm : K) (x : BitVec 64) : Option Bool := (outputReal x).map (fun r => decide (r < pm))

/-- permutation.cpp:39, 52, 68, 87: `Swap2`, `Swap3`, `Shuffle` and `Shift` change the chromosome. -/
def permutationApplies (pm : K) (x : BitVec 64) : Option Bool := (outputReal x).map (fun r => decide (r ≤ pm))

end

/-- rng.hpp:379-380 `std_dev` in `randomBinomialApproxNormal`. -/
noncomputable def binomialDev (n : Nat) (p : ℝ) : ℝ := Real.sqrt (n * p * (1 - p))

/-- rng.hpp:405 `mean` in `randomBinomialApproxPoisson`. -/
noncomputable def poissonMean (n : Nat) (p : ℝ) : ℝ := n * p

end Gapp.Model
