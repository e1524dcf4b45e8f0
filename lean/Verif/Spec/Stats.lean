import Mathlib.Algebra.BigOperators.Group.List.Basic
import Verif.Spec.ParetoFront
/-! # Specification of the statistics -/

namespace Gapp.Spec

/-- The values of the objective `i` in the population. -/
def column {V : Type} (rows : List (List V)) (i : Nat) : List V := rows.filterMap (fun r => r[i]?)

/-- `v` has, for each of the `m` objectives, a value that satisfies `P` with the values of the objective in the population. -/
def PerObjective {V : Type} (m : Nat) (rows : List (List V)) (v : List V) (P : List V → V → Prop) : Prop :=
  v.length = m ∧ ∀ (i : Nat) (x : V), v[i]? = some x → P (column rows i) x

/-- `x` is the smallest of the values. -/
def IsMin {V : Type} [LE V] (vals : List V) (x : V) : Prop := x ∈ vals ∧ ∀ y ∈ vals, x ≤ y

/-- `x` is the largest of the values. -/
def IsMax {V : Type} [LE V] (vals : List V) (x : V) : Prop := x ∈ vals ∧ ∀ y ∈ vals, y ≤ x

/-- `x` is the arithmetic mean of the values. -/
def IsMean {K : Type} [Semiring K] (vals : List K) (x : K) : Prop := (vals.length : K) * x = vals.sum

/-- `x` is the sample variance of the values: the sum of the squared differences from the mean, divided by one less than their number; for a single value it is 0. -/
def IsVariance {K : Type} [Ring K] (vals : List K) (x : K) : Prop :=
  (vals.length = 1 → x = 0) ∧
  (vals.length ≠ 1 → ∀ mean, IsMean vals mean → ((vals.length : K) - 1) * x = (vals.map (fun y => (y - mean) * (y - mean))).sum)

end Gapp.Spec
