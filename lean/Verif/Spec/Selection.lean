import Mathlib.Algebra.Order.Field.Basic
import Mathlib.Algebra.BigOperators.Group.List.Basic
/-! # Specification of selection by weights, and of runs -/

namespace Gapp.Spec
variable {K : Type} [Field K] [LinearOrder K]

/-- `select r`, for draws `r` from `[0, 1)`, selects according to the weights: `[0, 1)` is divided into consecutive half-open intervals, whose lengths are
the shares of the weights in their sum. If all the weights are 0 the intervals have the same length. The draw 0 selects the first candidate. -/
structure SelectsByWeight (weights : List K) (select : K → Option Nat) : Prop where
  zero : select 0 = some 0
  inRange : ∀ r, 0 ≤ r → r < 1 → ∃ i, select r = some i ∧ i < weights.length
  share : 0 < weights.sum → ∀ r, 0 < r → r < 1 → ∀ i, select r = some i ↔
    i < weights.length ∧ (weights.take i).sum < r * weights.sum ∧ r * weights.sum ≤ (weights.take (i + 1)).sum
  uniform : weights.sum = 0 → ∀ r, 0 < r → r < 1 → ∀ i, select r = some i ↔
    i < weights.length ∧ (i : K) < r * weights.length ∧ r * weights.length ≤ (i : K) + 1

/-- The weights are not negative, and a candidate with a greater fitness never has a smaller weight. -/
def WeightsFollowFitness (fitness weights : List K) : Prop :=
  weights.length = fitness.length ∧ (∀ w ∈ weights, 0 ≤ w) ∧
  ∀ (i j : Nat) (fi fj wi wj : K), fitness[i]? = some fi → fitness[j]? = some fj → weights[i]? = some wi → weights[j]? = some wj → fi < fj → wi ≤ wj

end Gapp.Spec
