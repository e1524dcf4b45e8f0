import Mathlib.Algebra.Order.Floor.Defs
import Mathlib.Algebra.Field.Defs
import Mathlib.Algebra.Order.Ring.Defs
import Mathlib.Algebra.BigOperators.Group.List.Basic
/-!
# Specification of the reference lines
-/

namespace Gapp.Spec
variable {K : Type} [Field K] [LinearOrder K]

/-- A point of the unit simplex. -/
def OnSimplex (p : List K) : Prop := (∀ x ∈ p, 0 ≤ x) ∧ p.sum = 1

/-- A matrix with `n` rows that are points of the unit simplex with `dim` coordinates. -/
def SimplexPoints (dim n : Nat) (points : List (List K)) : Prop := points.length = n ∧ ∀ p ∈ points, p.length = dim ∧ OnSimplex p

/-- The squared distance of two points. -/
def sqDist (a b : List K) : K := (List.zipWith (fun x y => (x - y) ^ 2) a b).sum

/-- The distance of `q` from the closest of the points is at most that of `p`. -/
def AtMostAsFar (points : List (List K)) (q p : List K) : Prop := ∃ a ∈ points, ∀ b ∈ points, sqDist a q ≤ sqDist b p

/-- `picked` are `n` of the candidates. Each of them, except the first one, was one of the furthest from those picked before it, of the candidates that were left. -/
def SparseSubset (cands : List (List K)) (n : Nat) (picked : List (List K)) : Prop :=
  picked.length = n ∧ ∃ left, (picked ++ left).Perm cands ∧
    ∀ (i : Nat) (p : List K), 0 < i → picked[i]? = some p → ∀ q ∈ picked.drop i ++ left, AtMostAsFar (picked.take i) q p

end Gapp.Spec
