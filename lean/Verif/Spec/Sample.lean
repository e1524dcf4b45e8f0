import Mathlib.Data.List.Nodup
/-! # Specification of sampling without replacement -/

namespace Gapp.Spec

/-- `count` distinct integers in `[lb, ub)`. -/
def IsSample (lb ub : Int) (count : Nat) (numbers : List Int) : Prop :=
  numbers.length = count ∧ numbers.Nodup ∧ ∀ x ∈ numbers, lb ≤ x ∧ x < ub

/-- The draws come from `[lb, limit]`, `[lb, limit + 1]`, `[lb, limit + 2]`, … -/
def DrawsFrom (lb limit : Int) (draws : List Int) : Prop :=
  ∀ (i : Nat) n, draws[i]? = some n → lb ≤ n ∧ n ≤ limit + i

end Gapp.Spec
