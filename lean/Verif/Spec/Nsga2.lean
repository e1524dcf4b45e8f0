import Mathlib.Algebra.Order.Field.Basic
import Mathlib.Algebra.Order.Monoid.WithTop
import Mathlib.Algebra.BigOperators.Group.List.Basic
/-! # Specification of crowding distances -/

namespace Gapp.Spec
variable {K : Type} [Field K] [LinearOrder K]

/-- The gap around the candidate `i` in an ordering of a front by one objective: infinite for the first and the last candidate, and otherwise the difference of the values of its
two neighbours, divided by the difference of the values of the last and the first candidate (or by `eps`, if that is smaller). -/
def IsGap (eps : K) (val : Nat → K) (order : List Nat) (i : Nat) (g : WithTop K) : Prop :=
  ∃ k, order[k]? = some i ∧
    (((k = 0 ∨ k + 1 = order.length) ∧ g = ⊤) ∨
     ∃ prev next first last, 0 < k ∧ order[k - 1]? = some prev ∧ order[k + 1]? = some next ∧ order[0]? = some first ∧ order[order.length - 1]? = some last ∧
       g = ((val next - val prev) / max (val last - val first) eps : K))

/-- `d` gives the candidates of `front` their crowding distances: for each objective there is an ordering of the front by that objective (equal values in any order), and the
distance of a candidate is the sum of its gaps. -/
def IsCrowding (eps : K) (ncols : Nat) (fmat : List (List K)) (front : List Nat) (d : Nat → WithTop K) : Prop :=
  ∃ (val : Nat → Nat → K) (order : Nat → List Nat) (gap : Nat → Nat → WithTop K),
    (∀ obj, obj < ncols → (order obj).Perm front ∧ (order obj).Pairwise (fun a b => val obj a ≤ val obj b) ∧
      (∀ i ∈ front, (∃ row, fmat[i]? = some row ∧ row[obj]? = some (val obj i)) ∧ IsGap eps (val obj) (order obj) i (gap obj i))) ∧
    ∀ i ∈ front, d i = ((List.range ncols).map (fun obj => gap obj i)).sum

end Gapp.Spec
