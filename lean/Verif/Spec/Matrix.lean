import Verif.Model.Matrix
/-!
# Tables

A table is a list of rows of the same length.
-/

namespace Gapp.Spec

open Gapp.Model

variable {α : Type}

/-- The preconditions of the operations on the table `t`. Rows have at least one element. -/
def TablePre (t : List (List α)) : MatOp α → Prop
  | .ctor _ c _ => 0 < c
  | .ofRows rows => ∀ r ∈ rows, ∀ r' ∈ rows, r ≠ [] ∧ r.length = r'.length
  | .set i j _ => ∃ r, t[i]? = some r ∧ j < r.length
  | .append row => row ≠ [] ∧ ∀ r ∈ t, r.length = row.length
  | .popBack => t ≠ []
  | .resize n _ => n ≤ t.length ∨ t ≠ []
  | .clear => True
  | .assignRow i row => ∃ r, t[i]? = some r ∧ row.length = r.length
  | .copyRow i k => i < t.length ∧ k < t.length
  | .swapRows i k => i < t.length ∧ k < t.length
  | .range i k => k ≤ i ∨ k ≤ t.length

/-- The table after an operation. -/
def tableStep (t : List (List α)) : MatOp α → List (List α)
  | .ctor r c a => List.replicate r (List.replicate c a)
  | .ofRows rows => rows
  | .set i j a => t.set i ((t.getD i []).set j a)
  | .append row => t ++ [row]
  | .popBack => t.dropLast
  | .resize n a => t.take n ++ List.replicate (n - t.length) (List.replicate (t.headD []).length a)
  | .clear => []
  | .assignRow i row => t.set i row
  | .copyRow i k => t.set i (t.getD k [])
  | .swapRows i k => (t.set i (t.getD k [])).set k (t.getD i [])
  | .range i k => (t.take k).drop i

/-- The table that a program has built. -/
def tableRun (t : List (List α)) : List (MatOp α) → List (List α)
  | [] => t
  | op :: ops => tableRun (tableStep t op) ops

/-- The preconditions of all operations of a program hold. -/
def TableRunPre (t : List (List α)) : List (MatOp α) → Prop
  | [] => True
  | op :: ops => TablePre t op ∧ TableRunPre (tableStep t op) ops

end Gapp.Spec
