import Verif.Model.Sorting
/-!
# Model of the helpers in `algorithm.hpp`

Source: `/repo/src/utility/algorithm.hpp:38-357`. A range is a list, an iterator a position in it. A read outside of the range is `none`.
A reverse iterator over `v` at the distance `k` from its start refers to `v[v.size() - 1 - k]`.
-/

namespace Gapp.Model
variable {α β : Type}

/-- algorithm.hpp:64-67, 98-102: `comp(v[i], v[j])` on positions of a range; positions outside of it are never compared. -/
def compareAt (comp : α → α → Bool) (v : List α) (i j : Nat) : Bool :=
  match v[i]?, v[j]? with
  | some a, some b => comp a b
  | _, _ => false

/-- algorithm.hpp:59, 93, `first` being a reverse iterator: `*(rbegin + k)`. -/
def reverseAt (v : List α) (k : Nat) : Option α := if k < v.length then v[v.length - 1 - k]? else none

/-- algorithm.hpp:55-59: the comparison for reverse iterators, with `last_idx = n - 1`. -/
def compareReverse (comp : α → α → Bool) (v : List α) (lidx ridx : Nat) : Bool :=
  let last_idx := v.length - 1
  match reverseAt v (last_idx - ridx), reverseAt v (last_idx - lidx) with
  | some a, some b => comp a b
  | _, _ => false

/-- algorithm.hpp:46-71 `argsort`: the results allowed for a call; `rev`: the iterators are reverse iterators over `v`. -/
def IsArgsortOf (rev : Bool) (comp : α → α → Bool) (v : List α) (res : List Nat) : Prop :=
  if rev then IsSortOf (compareReverse comp v) (List.range v.length) res
  else IsSortOf (compareAt comp v) (List.range v.length) res

/-- algorithm.hpp:90, 98: The possible results of `std::partial_sort(first, first + k, last, lt)`: the first `k` elements are in order, and none of the others is less than one
of them. -/
def IsPartialSortOf (lt : α → α → Bool) (k : Nat) (input output : List α) : Prop :=
  output.Perm input ∧ (output.take k).Pairwise (fun a b => lt b a = false) ∧
  ∀ a ∈ output.take k, ∀ b ∈ output.drop k, lt b a = false

/-- algorithm.hpp:73-106 `partial_argsort(first, first + k, last)`. The condition of the line 80 is computed without rounding. -/
def IsPartialArgsortOf (rev : Bool) (comp : α → α → Bool) (v : List α) (k : Nat) (res : List Nat) : Prop :=
  if 5 * k ≥ v.length then IsArgsortOf rev comp v res
  else if rev then IsPartialSortOf (compareReverse comp v) k (List.range v.length) res
  else IsPartialSortOf (compareAt comp v) k (List.range v.length) res

/-- algorithm.hpp:115-120: the halving loop of `lower_bound`; `comp x` is `comp(x, value)`. -/
def lowerBoundHalve (comp : α → Bool) (v : List α) (first length : Nat) : Option Nat :=
  if 32 < length then
    match v[first + length / 2]? with
    | none => none
    | some x => lowerBoundHalve comp v (if comp x then first + length / 2 else first) (length / 2)
  else some first
termination_by length
decreasing_by all_goals omega

/-- algorithm.hpp:122-127: the linear scan; the second argument is the rest of the range. -/
def lowerBoundScan (comp : α → Bool) (first : Nat) : List α → Nat
  | [] => first
  | x :: xs => if !comp x then first else lowerBoundScan comp (first + 1) xs

/-- algorithm.hpp:108-128 `lower_bound`: the distance of the returned iterator from the first. -/
def lowerBound (comp : α → Bool) (v : List α) : Option Nat := do
  let first ← lowerBoundHalve comp v 0 v.length
  return lowerBoundScan comp first (v.drop first)

section
variable {V : Type} [LT V] [DecidableLT V]

/-- algorithm.hpp:141-148: the loop of `max_element`. -/
def maxLoop (maxElem : Nat) (maxValue : V) (first : Nat) : List V → Nat
  | [] => maxElem
  | value :: rest => if ¬ maxValue < value then maxLoop maxElem maxValue (first + 1) rest else maxLoop first value (first + 1) rest

/-- algorithm.hpp:130-150 `max_element`: the position found; the length of the range for an empty one. The list is that of the transformed values. -/
def maxElement : List V → Nat
  | [] => 0
  | x :: xs => maxLoop 0 x 1 xs

/-- algorithm.hpp:163-170: the loop of `min_element`. -/
def minLoop (minElem : Nat) (minValue : V) (first : Nat) : List V → Nat
  | [] => minElem
  | value :: rest => if ¬ value < minValue then minLoop minElem minValue (first + 1) rest else minLoop first value (first + 1) rest

/-- algorithm.hpp:152-172 `min_element`. -/
def minElement : List V → Nat
  | [] => 0
  | x :: xs => minLoop 0 x 1 xs

/-- algorithm.hpp:174-192 `argmax`; with reverse iterators the values are visited from the end. -/
def argmax (rev : Bool) (v : List V) : Option Nat :=
  if v.length > 0 then
    if rev then some (v.length - 1 - maxElement v.reverse) else some (maxElement v)
  else none

/-- algorithm.hpp:194-212 `argmin`. -/
def argmin (rev : Bool) (v : List V) : Option Nat :=
  if v.length > 0 then
    if rev then some (v.length - 1 - minElement v.reverse) else some (minElement v)
  else none
end

/-- algorithm.hpp:228-243 `partial_shuffle(first, first + draws.size(), last)`; `offset` of each iteration is drawn from `[0, distance(first, last) - 1]`.
`none` if a draw is not in its range. -/
def partialShuffle : List Nat → List α → Option (List α)
  | [], v => some v
  | offset :: draws, v => do
    let v ← swap? v 0 offset
    match v with
    | [] => none
    | x :: xs => do return x :: (← partialShuffle draws xs)

/-- algorithm.hpp:245-249 `contains`, for an element equal by `eq`. -/
def containsElem (eq : α → Bool) (v : List α) : Bool := v.any eq

/-- algorithm.hpp:251-268 `find_all`. -/
def findAll (pred : α → Bool) (v : List α) : List α := v.foldl (fun result x => if pred x then result ++ [x] else result) []

/-- algorithm.hpp:283: `std::find_if`: the distance of the result from the first. -/
def stdFind (pred : α → Bool) : List α → Nat
  | [] => 0
  | x :: xs => if pred x then 0 else stdFind pred xs + 1

/-- algorithm.hpp:270-277 `index_of` and 279-287 `find_index`. -/
def findIndex (pred : α → Bool) (v : List α) : Option Nat :=
  let idx := stdFind pred v
  if idx ≠ v.length then some idx else none

/-- algorithm.hpp:289-301 `find_indices`. -/
def findIndices (pred : α → Bool) (v : List α) : List Nat :=
  (List.range v.length).foldl (fun indices i => match v[i]? with
    | some x => if pred x then indices ++ [i] else indices
    | none => indices) []

/-- algorithm.hpp:325-335 `erase_first_stable`. -/
def eraseFirstStable (eq : α → Bool) (v : List α) : Bool × List α :=
  let found := stdFind eq v
  if found ≠ v.length then (true, v.take found ++ v.drop (found + 1)) else (false, v)

/-- algorithm.hpp:337-349 `select` from a container given as an lvalue: the elements are copied. -/
def selectCopy (container : List α) (indices : List Nat) : Option (List α) := indices.mapM (fun i => container[i]?)

/-- algorithm.hpp:337-349 `select` from a container given as an rvalue: the elements are moved out of it. The elements of the container are `none` once they
have been moved from, so the result contains `none` for an element in the moved-from state. -/
def selectMove (container : List (Option α)) : List Nat → Option (List (Option α))
  | [] => some []
  | i :: rest => do
    let x ← container[i]?
    return x :: (← selectMove (container.set i none) rest)

/-- algorithm.hpp:355: `std::unique` with `==`: drops the elements equal to the last one kept. -/
def stdUnique [DecidableEq α] : List α → List α
  | [] => []
  | x :: xs => x :: stdUniqueFrom x xs
where
  /-- the elements after the kept element `last`. -/
  stdUniqueFrom (last : α) : List α → List α
    | [] => []
    | y :: ys => if y = last then stdUniqueFrom last ys else y :: stdUniqueFrom y ys

/-- algorithm.hpp:351-357 `erase_duplicates`, for a result `sorted` of the sort. -/
def eraseDuplicates [DecidableEq α] (sorted : List α) : List α := stdUnique sorted

end Gapp.Model
