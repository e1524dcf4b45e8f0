import Mathlib.Algebra.Order.Field.Basic
import Mathlib.Algebra.BigOperators.Group.List.Basic
/-! # Specification of the association and of the niching of NSGA-III -/

namespace Gapp.Spec
variable {K : Type} [Field K] [LinearOrder K]

/-- The squared distance of the point `p` from the point `t * line`. -/
def distSqAt (line p : List K) (t : K) : K := (List.zipWith (fun x y => (y - t * x) ^ 2) line p).sum

/-- `d` is the squared distance of the point `p` from the line through the origin with the direction `line`. -/
def IsLineDistSq (line p : List K) (d : K) : Prop := (∃ t, d = distSqAt line p t) ∧ ∀ t, d ≤ distSqAt line p t

/-- `f` is the fitness vector `row` relative to the ideal point, scaled by the distances of the ideal and the nadir points (which are at least `1e-8`). -/
def IsNormalized (ideal nadir row f : List K) : Prop :=
  f.length = row.length ∧ ∀ (j : Nat) (x p q : K), row[j]? = some x → ideal[j]? = some p → nadir[j]? = some q → f[j]? = some ((p - x) / max (p - q) (1 / 100000000))

/-- The `i`-th line is one of the closest ones to the point `f`, at the squared distance `d`. -/
def ClosestLine (lines : List (List K)) (f : List K) (i : Nat) (d : K) : Prop :=
  ∃ line, lines[i]? = some line ∧ IsLineDistSq line f d ∧ ∀ line' ∈ lines, ∀ d', IsLineDistSq line' f d' → d ≤ d'

/-- The lines have directions of length one, without negative coordinates. -/
def UnitDirections (lines : List (List K)) : Prop := ∀ l ∈ lines, (l.map (fun x => x ^ 2)).sum = 1 ∧ ∀ x ∈ l, 0 ≤ x

/-- The niche count of the reference line `r` after `k` rounds: the members of the better fronts that are associated with it, and the rounds in which it was drawn. -/
def nicheCount (ref : Nat → Nat) (kept : List Nat) (draw : Nat → Nat) (k r : Nat) : Nat :=
  kept.countP (fun i => ref i == r) + (List.range k).countP (fun j => draw j == r)

/-- A run of the niching. `kept` are the members of the better fronts, and `split` are the members of the front from which only `rounds` members fit. In round `k` the reference line
`draw k` is drawn, and `chosen k` are the members of the split front that were chosen in the first `k` rounds. In each round
* the niche count of the line that is drawn is at most that of the line of every member that is not chosen yet;
* `e` is a closest member of the split front of those that are associated with the line;
* a member `x` that is not chosen yet is added to the chosen ones, and it is `e` if `e` is not chosen yet. -/
structure NichingRun (ref : Nat → Nat) (dist : Nat → K) (kept split : List Nat) (rounds : Nat) (draw : Nat → Nat) (chosen : Nat → List Nat) : Prop where
  start : chosen 0 = []
  round : ∀ k, k < rounds → ∃ e ∈ split, ∃ x ∈ split,
    (∀ d ∈ split, d ∉ chosen k → nicheCount ref kept draw k (draw k) ≤ nicheCount ref kept draw k (ref d)) ∧
    ref e = draw k ∧ (∀ d ∈ split, ref d = draw k → dist e ≤ dist d) ∧
    x ∉ chosen k ∧ (chosen (k + 1)).Perm (x :: chosen k) ∧ (e ∉ chosen k → x = e)

end Gapp.Spec
