import Mathlib.Analysis.SpecialFunctions.Pow.Real
import Verif.Model.Mutation
/-!
# Model of the mutations of real genes with their parameters

Source: `/repo/src/mutation/real.cpp:38-50, 80-96`. The genes are real numbers, and `std::pow` is the power of real numbers.
-/

namespace Gapp.Model

/-- real.cpp:40-43 `multiplier` of `NonUniform`, for the random number `rand`. -/
noncomputable def nonUniformMultiplier (beta : ℝ) (gen maxGen : Nat) (rand : ℝ) : ℝ :=
  let exponent := (1 - (gen : ℝ) / maxGen) ^ beta
  1 - rand ^ exponent

/-- real.cpp:38-50 `NonUniform`: the draws are the random number and the random boolean. -/
noncomputable def nonUniformGene (beta : ℝ) (gen maxGen : Nat) (b : GeneBounds ℝ) (d : ℝ × Bool) (old : ℝ) : ℝ :=
  realNonUniformGene b (nonUniformMultiplier beta gen maxGen d.1, d.2) old

/-- real.cpp:83-92: the power in `Polynomial`, for the random number `alpha`. -/
noncomputable def polynomialPower (eta alpha : ℝ) : ℝ :=
  if alpha ≤ 1 / 2 then (2 * alpha) ^ (1 / (1 + eta)) else (2 - 2 * alpha) ^ (1 / (1 + eta))

/-- real.cpp:80-96 `Polynomial`: the draw is the random number. -/
noncomputable def polynomialGene (eta : ℝ) (b : GeneBounds ℝ) (alpha : ℝ) (old : ℝ) : ℝ := realPolynomialGene b (alpha, polynomialPower eta alpha) old

end Gapp.Model
