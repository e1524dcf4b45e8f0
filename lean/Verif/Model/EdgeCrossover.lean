/-!
# Edge crossover

Source: `/repo/src/crossover/crossover_impl.hpp:460-535`, `/repo/src/crossover/neighbour_list.hpp`.

Both overloads are modelled: the one for any gene type, whose neighbour lists are small vectors in an `unordered_map`, and the
one for unsigned integers, whose neighbour lists are arrays of four slots in a vector. `none` stands for an access out of range,
reaching `GAPP_UNREACHABLE`, or changing a neighbour list while it is being iterated over.
-/

namespace Gapp.Model

/-- neighbour_list.hpp:119-132: the calls `nb_lists[gene].add(neighbour)` of `makeNeighbourLists`, in order. `n` is the length; the loop
in lines 122-129 covers `i = 1, …, n - 2`. -/
def neighbourPairs {α : Type} (chrom1 chrom2 : List α) : Option (List (α × α)) := do
  let n := chrom1.length
  let pair (c : List α) (i j : Nat) : Option (α × α) := do return (← c[i]?, ← c[j]?)
  let a ← pair chrom1 0 1
  let b ← pair chrom2 0 1
  let mid ← (List.range' 1 (n - 2)).mapM fun i => do
    return [← pair chrom1 i (i - 1), ← pair chrom1 i (i + 1), ← pair chrom2 i (i - 1), ← pair chrom2 i (i + 1)]
  let y ← pair chrom1 (n - 1) (n - 2)
  let z ← pair chrom2 (n - 1) (n - 2)
  return a :: b :: mid.flatten ++ [y, z]

section Generic
variable {α : Type} [DecidableEq α]

/-- neighbour_list.hpp:109: `unordered_map<T, NeighbourList<T>>`: a gene without an entry has the empty list. -/
abbrev NbMap (α : Type) := α → List α

/-- neighbour_list.hpp:109: Assignment to an entry of the map. -/
def NbMap.set (nb : NbMap α) (g : α) (l : List α) : NbMap α := fun x => if x = g then l else nb x

/-- neighbour_list.hpp:40-44 `add`. -/
def nbAdd (nb : NbMap α) (p : α × α) : NbMap α :=
  if p.2 ∈ nb p.1 then nb else nb.set p.1 (nb p.1 ++ [p.2])

/-- neighbour_list.hpp:112-135 `makeNeighbourLists`. -/
def makeNbMap (chrom1 chrom2 : List α) : Option (NbMap α) := do
  let pairs ← neighbourPairs chrom1 chrom2
  return pairs.foldl nbAdd (fun _ => [])

/-- crossover_impl.hpp:479-487: the loop over the neighbours of the last gene. `remove` (neighbour_list.hpp:46-49) erases the first
occurrence. -/
def edgePick (last : α) : List α → α → NbMap α → Option (α × NbMap α)
  | [], next, nb => some (next, nb)
  | x :: rest, next, nb =>
    if x = last then none
    else
      let nb' := nb.set x ((nb x).erase last)
      edgePick last rest (if (nb' x).length ≤ (nb' next).length then x else next) nb'

/-- crossover_impl.hpp:474-491: the main loop; the first argument is the number of genes that are still missing from the child. -/
def edgeLoop : Nat → List α → List α → NbMap α → Option (List α)
  | 0, child, _, _ => some child
  | m + 1, child, remaining, nb => do
    let last ← child.getLast?
    let default ← remaining.head?
    let (next, nb') ← edgePick last (nb last) default nb
    edgeLoop m (child ++ [next]) (remaining.filter (fun g => g != next)) nb'

/-- crossover_impl.hpp:460-494 `edgeCrossoverImpl`, any gene type. -/
def edgeGeneric (parent1 parent2 : List α) : Option (List α) := do
  let nb ← makeNbMap parent1 parent2
  let g ← parent1.head?
  edgeLoop (parent1.length - 1) [g] parent1.tail nb

end Generic

/-- neighbour_list.hpp:55-104 `NeighbourList` for unsigned integers; the value `EMPTY` of a slot is `none`. -/
structure NbArray where
  slots : List (Option Nat)
  size : Nat
deriving DecidableEq

/-- neighbour_list.hpp:102-103. -/
def NbArray.empty : NbArray := ⟨[none, none, none, none], 0⟩

/-- neighbour_list.hpp:72-82: returns the slots and whether a value was stored. -/
def addSlot (value : Nat) : List (Option Nat) → Option (List (Option Nat) × Bool)
  | [] => none
  | none :: rest => some (some value :: rest, true)
  | some w :: rest => if w = value then some (some w :: rest, false) else
      (addSlot value rest).map (fun r => (some w :: r.1, r.2))

/-- neighbour_list.hpp:67-83 `add`. -/
def NbArray.add (l : NbArray) (value : Nat) : Option NbArray := do
  let (slots, stored) ← addSlot value l.slots
  return ⟨slots, if stored then l.size + 1 else l.size⟩

/-- neighbour_list.hpp:85-97 `remove`. -/
def NbArray.remove (l : NbArray) (value : Nat) : NbArray :=
  ⟨l.slots.map (fun s => if s = some value then none else s), l.size - l.slots.countP (fun s => s = some value)⟩

/-- neighbour_list.hpp:119-132: `nb_lists[gene].add(neighbour)` for `std::vector<NeighbourList<T>>`. -/
def nbTableAdd (table : List NbArray) (p : Nat × Nat) : Option (List NbArray) := do
  let l ← table[p.1]?
  return table.set p.1 (← l.add p.2)

/-- neighbour_list.hpp:112-135 `makeNeighbourLists` for unsigned integers. -/
def makeNbTable (chrom1 chrom2 : List Nat) : Option (List NbArray) := do
  let pairs ← neighbourPairs chrom1 chrom2
  pairs.foldlM nbTableAdd (List.replicate chrom1.length NbArray.empty)

/-- crossover_impl.hpp:518-528: the loop over the slots of the neighbour list of the last gene. -/
def edgePickU (last : Nat) : List (Option Nat) → Nat → List NbArray → Option (Nat × List NbArray)
  | [], next, table => some (next, table)
  | none :: rest, next, table => edgePickU last rest next table
  | some x :: rest, next, table =>
    if x = last then none
    else do
      let l ← table[x]?
      let table' := table.set x (l.remove last)
      let lx ← table'[x]?
      let ln ← table'[next]?
      edgePickU last rest (if lx.size ≤ ln.size then x else next) table'

/-- crossover_impl.hpp:513-532: the main loop. -/
def edgeLoopU : Nat → List Nat → List Bool → List NbArray → Option (List Nat)
  | 0, child, _, _ => some child
  | m + 1, child, used, table => do
    let last ← child.getLast?
    let default := used.findIdx (· == false)
    let l ← table[last]?
    let (next, table') ← edgePickU last l.slots default table
    if next < used.length then edgeLoopU m (child ++ [next]) (used.set next true) table' else none

/-- crossover_impl.hpp:496-535 `edgeCrossoverImpl`, unsigned integer genes. -/
def edgeUnsigned (parent1 parent2 : List Nat) : Option (List Nat) := do
  let table ← makeNbTable parent1 parent2
  let g ← parent1.head?
  if g < parent1.length then
    edgeLoopU (parent1.length - 1) [g] ((List.replicate parent1.length false).set g true) table
  else none

end Gapp.Model
