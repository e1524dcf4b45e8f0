import Mathlib.Data.List.Basic
/-!
# The matrix

Models `Matrix` and its row references of `utility/matrix.hpp`. Failed assertions and accesses outside of `data_` are `none`. Row references are row numbers.
-/

namespace Gapp.Model

variable {α : Type}

/-- matrix.hpp:209-210. -/
structure Mat (α : Type) where
  data : List α
  ncols : Nat

/-- matrix.hpp:176 `nrows`. -/
def matRows (m : Mat α) : Nat := if m.data.isEmpty then 0 else m.data.length / m.ncols

/-- matrix.hpp:99-105: `Matrix(nrows, ncols, init)`. -/
def matCtor (r c : Nat) (a : α) : Mat α := ⟨List.replicate (r * c) a, c⟩

/-- matrix.hpp:407-421: `Matrix(initializer_list)`. -/
def matOfRows (rows : List (List α)) : Option (Mat α) :=
  match rows with
  | [] => some ⟨[], 0⟩
  | r :: rs => if (r :: rs).all (fun x => x.length == r.length) then some ⟨(r :: rs).flatten, r.length⟩ else none

/-- matrix.hpp:143-157 `operator()`. -/
def matGet (m : Mat α) (i j : Nat) : Option α :=
  if i < matRows m ∧ j < m.ncols then m.data[i * m.ncols + j]? else none

/-- matrix.hpp:143-149 `operator() = a`. -/
def matSet (m : Mat α) (i j : Nat) (a : α) : Option (Mat α) :=
  if i < matRows m ∧ j < m.ncols ∧ i * m.ncols + j < m.data.length then some { m with data := m.data.set (i * m.ncols + j) a } else none

/-- matrix.hpp:114-126, 247-255: the elements of `operator[](row)`. -/
def matRow (m : Mat α) (i : Nat) : Option (List α) :=
  if i < matRows m ∧ i * m.ncols + m.ncols ≤ m.data.length then some ((m.data.drop (i * m.ncols)).take m.ncols) else none

/-- matrix.hpp:247-250: `operator[](row)[col]`. -/
def matRowGet (m : Mat α) (i j : Nat) : Option α := (matRow m i).bind (fun r => r[j]?)

/-- matrix.hpp:128-141 `column`: the loop over the rows. -/
def matColumnLoop (m : Mat α) (j i : Nat) : (n : Nat) → Option (List α)
  | 0 => some []
  | n + 1 => do
    let a ← matGet m i j
    let l ← matColumnLoop m j (i + 1) n
    some (a :: l)

/-- matrix.hpp:128-141 `column`. -/
def matColumn (m : Mat α) (j : Nat) : Option (List α) :=
  if j < m.ncols then matColumnLoop m j 0 (matRows m) else none

/-- matrix.hpp:431-438 `append_row` of a row that is not in the matrix. -/
def matAppend (m : Mat α) (row : List α) : Option (Mat α) :=
  if row.length = m.ncols ∨ matRows m = 0 then some ⟨m.data ++ row, row.length⟩ else none

/-- matrix.hpp:182-186 `resize`. -/
def matResize (m : Mat α) (r c : Nat) (a : α) : Mat α :=
  ⟨m.data.take (r * c) ++ List.replicate (r * c - m.data.length) a, c⟩

/-- matrix.hpp:171 `pop_back`. `nrows() - 1` wraps around on an empty matrix: the resize throws inside of a `noexcept` function. -/
def matPopBack (m : Mat α) (dflt : α) : Option (Mat α) :=
  if matRows m = 0 then none else some (matResize m (matRows m - 1) m.ncols dflt)

/-- matrix.hpp:188-192 `clear`. -/
def matClear : Mat α := ⟨[], 0⟩

/-- matrix.hpp:330-340: assignment to the row `i`, from column `j` on. -/
def matAssignFrom (m : Mat α) (i j : Nat) : List α → Option (Mat α)
  | [] => some m
  | a :: as => do
    let m ← matSet m i j a
    matAssignFrom m i (j + 1) as

/-- matrix.hpp:313-340: assignment to the row `i`. -/
def matAssignRow (m : Mat α) (i : Nat) (row : List α) : Option (Mat α) :=
  if i < matRows m ∧ row.length = m.ncols then matAssignFrom m i 0 row else none

/-- matrix.hpp:350-354: the columns that are still to be swapped are the last `n` ones. -/
def matSwapLoop (m : Mat α) (i k : Nat) : (n : Nat) → Option (Mat α)
  | 0 => some m
  | n + 1 => do
    let a ← matGet m i (m.ncols - (n + 1))
    let b ← matGet m k (m.ncols - (n + 1))
    let m ← matSet m i (m.ncols - (n + 1)) b
    let m ← matSet m k (m.ncols - (n + 1)) a
    matSwapLoop m i k n

/-- matrix.hpp:346-363: the swap of two rows of a matrix. -/
def matSwapRows (m : Mat α) (i k : Nat) : Option (Mat α) :=
  if i < matRows m ∧ k < matRows m then matSwapLoop m i k m.ncols else none

/-- matrix.hpp:423-429: the matrix of the rows `[i, k)` of a matrix. -/
def matRange (m : Mat α) (i k : Nat) : Option (Mat α) :=
  if k ≤ i then some ⟨[], 0⟩
  else if i < matRows m ∧ i * m.ncols + (k - i) * m.ncols ≤ m.data.length then
    some ⟨(m.data.drop (i * m.ncols)).take ((k - i) * m.ncols), m.ncols⟩
  else none

/-- matrix.hpp:196-201 `operator==`. -/
def matEq [BEq α] (m n : Mat α) : Bool :=
  (m.data.isEmpty && n.data.isEmpty) || (matRows m == matRows n && m.ncols == n.ncols && m.data == n.data)

/-- matrix.hpp:23-212: The operations of a program. -/
inductive MatOp (α : Type)
  | ctor (r c : Nat) (a : α)
  | ofRows (rows : List (List α))
  | set (i j : Nat) (a : α)
  | append (row : List α)
  | popBack
  | resize (r : Nat) (a : α)
  | clear
  | assignRow (i : Nat) (row : List α)
  | copyRow (i k : Nat)
  | swapRows (i k : Nat)
  | range (i k : Nat)

/-- matrix.hpp:23-212: One operation; `resize` keeps the number of columns. `copyRow` is the assignment of row `k` to row `i`: the elements are copied one by one, those of row `k` do not change meanwhile. -/
def matStep (dflt : α) (m : Mat α) : MatOp α → Option (Mat α)
  | .ctor r c a => some (matCtor r c a)
  | .ofRows rows => matOfRows rows
  | .set i j a => matSet m i j a
  | .append row => matAppend m row
  | .popBack => matPopBack m dflt
  | .resize r a => some (matResize m r m.ncols a)
  | .clear => some matClear
  | .assignRow i row => matAssignRow m i row
  | .copyRow i k => (matRow m k).bind (fun row => matAssignRow m i row)
  | .swapRows i k => matSwapRows m i k
  | .range i k => matRange m i k

end Gapp.Model
