import Verif.Model.Matrix
import Verif.Model.Double
/-!
# Rows of matrices

Models the comparisons of row references, and the swap of a row with a sequence that is not a part of the matrix (`utility/matrix.hpp`). `eq` is the `==` of
the elements. Failed assertions and accesses outside of `data_` are `none`.
-/

namespace Gapp.Model

variable {α : Type}

/-- matrix.hpp:270-275, 285-290: the columns that are still to be compared are the last `n` ones, from column `j` on. `get` is the right operand. -/
def matRowEqLoop (eq : α → α → Bool) (m : Mat α) (i : Nat) (get : Nat → Option α) (j : Nat) : (n : Nat) → Option Bool
  | 0 => some true
  | n + 1 => do
    let a ← matRowGet m i j
    let b ← get j
    if !(eq a b) then some false else matRowEqLoop eq m i get (j + 1) n

/-- matrix.hpp:265-276 `operator==` of the rows `m[i]` and `n[k]`. `same`: both rows refer to the same matrix object (matrix.hpp:268 compares the pointers).
`size()` is `end() - begin()`, the number of columns. -/
def matRowEq (eq : α → α → Bool) (same : Bool) (m : Mat α) (i : Nat) (n : Mat α) (k : Nat) : Option Bool :=
  if m.ncols ≠ n.ncols then some false
  else if same && i == k then some true
  else matRowEqLoop eq m i (matRowGet n k) 0 m.ncols

/-- matrix.hpp:278-291 `operator==` of the row `m[i]` and a vector. -/
def matRowEqVec (eq : α → α → Bool) (m : Mat α) (i : Nat) (v : List α) : Option Bool :=
  if m.ncols ≠ v.length then some false
  else matRowEqLoop eq m i (fun j => v[j]?) 0 m.ncols

/-- matrix.hpp:350-354: the swap of the columns of the row `i` with a sequence that is not a part of the matrix, from column `j` on, for `n` columns. -/
def matSwapSpanLoop (m : Mat α) (i : Nat) (v : List α) (j : Nat) : (n : Nat) → Option (Mat α × List α)
  | 0 => some (m, v)
  | n + 1 => do
    let a ← matGet m i j
    let b ← v[j]?
    let m ← matSet m i j b
    matSwapSpanLoop m i (v.set j a) (j + 1) n

/-- matrix.hpp:346-355 `MatrixRowRef::swap`, 365-377: the swap of the row `i` with a sequence that is not a part of the matrix. -/
def matSwapSpan (m : Mat α) (i : Nat) (v : List α) : Option (Mat α × List α) :=
  if i < matRows m ∧ v.length = m.ncols then matSwapSpanLoop m i v 0 v.length else none

/-- matrix.hpp:272, 287: `==` of `double`s, which is false if one of them is a NaN. -/
def dblEq : Dbl → Dbl → Bool
  | .nan, _ => false
  | _, .nan => false
  | a, b => decide (a = b)

end Gapp.Model
