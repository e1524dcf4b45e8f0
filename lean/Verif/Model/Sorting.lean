/-!
# Sorting primitives

`std::sort`, `std::partial_sort` and friends are library functions: a call is modelled by *any* result that
the C++ standard allows (the order of equivalent elements is unspecified).
Source of `argsort`: `/repo/src/utility/algorithm.hpp:38-71`.
-/

namespace Gapp.Model

/-- algorithm.hpp:57, 64, 354: The possible results of `std::sort` with the comparator `lt`: a rearrangement in which no element is
less than an earlier one. -/
def IsSortOf {α : Type} (lt : α → α → Bool) (input output : List α) : Prop :=
  output.Perm input ∧ output.Pairwise (fun a b => lt b a = false)

/-- algorithm.hpp:46-71 `argsort`: `std::sort` of `index_vector(n)` (algorithm.hpp:38-44) by comparing
the elements with those indices. With reverse iterators the comparison is flipped, so that
`lt i j := comp(v[j], v[i])`. -/
def IsArgsort (lt : Nat → Nat → Bool) (n : Nat) (indices : List Nat) : Prop :=
  IsSortOf lt (List.range n) indices

/-- algorithm.hpp:241, permutation.cpp:44-75: `std::iter_swap` of two positions of an array; `none` if a position is out of range. -/
def swap? {α : Type} (l : List α) (i j : Nat) : Option (List α) := do
  let a ← l[i]?
  let b ← l[j]?
  return (l.set i b).set j a

end Gapp.Model
