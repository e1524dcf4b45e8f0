import Mathlib.Algebra.Field.Defs
import Mathlib.Algebra.Order.Ring.Defs
/-!
# Specification of the search for the largest inner product
-/

namespace Gapp.Spec
variable {K : Type} [Field K] [LinearOrder K]

/-- `sqrt` is the square root, or is rounded up. -/
def UpperSqrt (sqrt : K → K) : Prop := ∀ x, 0 ≤ x → 0 ≤ sqrt x ∧ x ≤ sqrt x ^ 2

/-- The inner product of two vectors. -/
def dot (a b : List K) : K := (List.zipWith (· * ·) a b).sum

/-- `prod` is the largest inner product of the query with one of the points, and `p` is one of the points for which it is reached. -/
def IsBestMatch (points : List (List K)) (query p : List K) (prod : K) : Prop :=
  p ∈ points ∧ prod = dot query p ∧ ∀ p' ∈ points, dot query p' ≤ prod

end Gapp.Spec
