import Mathlib.MeasureTheory.Measure.Lebesgue.Basic
import Mathlib.Probability.UniformOn
/-! # Specification: how far mutated genes are from the old ones, and probabilities of their values -/

namespace Gapp.Spec
open MeasureTheory

/-- Every gene of `near` is at most as far from the gene of the old chromosome as that of `far`. -/
def CloserGenes (old near far : List ℝ) : Prop :=
  near.length = old.length ∧ far.length = old.length ∧
  ∀ (i : Nat) (o a b : ℝ), old[i]? = some o → near[i]? = some a → far[i]? = some b → |a - o| ≤ |b - o|

/-- The probability of an event that depends on a random number, uniform on `[0, 1)`. -/
noncomputable def chanceOf (event : ℝ → Prop) : ℝ := (volume {r | 0 ≤ r ∧ r < 1 ∧ event r}).toReal

/-- The probability of an event that depends on a random number, uniform on `[0, 1)`, and a fair random boolean. -/
noncomputable def chanceOfBoth (event : ℝ → Bool → Prop) : ℝ := (chanceOf (fun r => event r true) + chanceOf (fun r => event r false)) / 2

/-- The uniform distribution on the integers from `lo` to `hi`. -/
noncomputable def uniformInt (lo hi : Int) : Measure Int := ProbabilityTheory.uniformOn (Set.Icc lo hi)

end Gapp.Spec
