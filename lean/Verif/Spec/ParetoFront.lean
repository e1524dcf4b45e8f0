import Verif.Spec.Float
/-!
# Specification of the Pareto front of a set of rows
-/

namespace Gapp.Spec
open Gapp.Model

/-- `res` lists, without repetition, exactly the indices below `n` that no other index dominates;
`dom i j`: `i` dominates `j`. -/
def IsParetoFront (dom : Nat → Nat → Prop) (n : Nat) (res : List Nat) : Prop :=
  res.Nodup ∧ ∀ i, i ∈ res ↔ i < n ∧ ∀ j, j < n → ¬ dom j i

/-- A matrix with `ncols` columns. -/
def IsMatrix {α : Type} (ncols : Nat) (rows : List (List α)) : Prop := ∀ r ∈ rows, r.length = ncols

end Gapp.Spec
