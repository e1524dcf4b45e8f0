import Verif.Model.CircularBuffer
/-!
# Crossover implementations

Source: `/repo/src/crossover/crossover_impl.hpp`, `neighbour_list.hpp`, `binary.cpp`, `integer.cpp`, `permutation.cpp`.

A chromosome is a list of genes. Only the chromosomes of the candidates are modelled here: the implementations
copy a parent candidate and then change its chromosome only (the other fields are handled by the caller, `Crossover::operator()`,
see `Model/Operators.lean`). An access outside of a chromosome or table, or a `while` loop that cannot end, is `none`.

A set that is only queried with `contains` (`std::unordered_set`, `dynamic_bitset`) is modelled by its query function,
which is `none` where the real container would be accessed out of range.
-/

namespace Gapp.Model

section PointWise
variable {α : Type}

/-- `swap(child1.chromosome[idx], child2.chromosome[idx])`, crossover_impl.hpp:118, 136, 159, 453; binary.cpp:61. -/
def swapLocus (c : List α × List α) (idx : Nat) : Option (List α × List α) := do
  let x ← c.1[idx]?
  let y ← c.2[idx]?
  return (c.1.set idx y, c.2.set idx x)

/-- crossover_impl.hpp:118, 136, 151, 159: A loop that performs `swapLocus` for each index in turn. -/
def swapLoci (c : List α × List α) (idxs : List Nat) : Option (List α × List α) :=
  idxs.foldlM swapLocus c

/-- The pairs `(crossover_points[i - 1], crossover_points[i])` for `i = 1, 3, 5, …` below the size,
crossover_impl.hpp:112. -/
def pointPairs : List Nat → List (Nat × Nat)
  | a :: b :: rest => (a, b) :: pointPairs rest
  | _ => []

/-- crossover_impl.hpp:107-108: sort the points and append `chrom_len` if their number is odd. (For integers the result of
`std::sort` is unique.) -/
def preparePoints (chromLen : Nat) (points : List Nat) : List Nat :=
  let sorted := points.mergeSort
  if sorted.length % 2 = 1 then sorted ++ [chromLen] else sorted

/-- crossover_impl.hpp:100-123 `nPointCrossoverImpl`. -/
def nPointCrossover (parent1 parent2 : List α) (points : List Nat) : Option (List α × List α) :=
  (pointPairs (preparePoints parent1.length points)).foldlM
    (fun c p => swapLoci c (List.range' p.1 (p.2 - p.1))) (parent2, parent1)

/-- crossover_impl.hpp:125-140 `singlePointCrossoverImpl`. -/
def singlePointCrossover (parent1 parent2 : List α) (point : Nat) : Option (List α × List α) :=
  swapLoci (parent1, parent2) (List.range point)

/-- crossover_impl.hpp:142-163 `twoPointCrossoverImpl`. -/
def twoPointCrossover (parent1 parent2 : List α) (points : Nat × Nat) : Option (List α × List α) :=
  let p := if points.1 > points.2 then (points.2, points.1) else points
  swapLoci (parent1, parent2) (List.range' p.1 (p.2 - p.1))

/-- binary.cpp:48-65, integer.cpp `Uniform::crossover`; `idxs` is the result of `sampleUnique` in line 54. -/
def uniformCrossover (parent1 parent2 : List α) (idxs : List Nat) : Option (List α × List α) :=
  swapLoci (parent1, parent2) idxs

end PointWise

section Order
variable {α : Type}

/-- crossover_impl.hpp:226: The genes `parent1.chromosome[first..last)`. -/
def segment (parent : List α) (first last : Nat) : List α := (parent.drop first).take (last - first)

/-- A `std::unordered_set` holding the given genes, crossover_impl.hpp:193-194, 253-254, 304-305, 546-551. -/
def hashSetOf [DecidableEq α] (genes : List α) : α → Option Bool := fun g => some (decide (g ∈ genes))

/-- Writing `true` at the position of each of the genes in a `dynamic_bitset` of the given size,
crossover_impl.hpp:225-226, 280-281, 332-333; `none` if a gene is not less than the size. -/
def setBits (size : Nat) (genes : List Nat) : Option (List Bool) :=
  genes.foldlM (fun bits g => if g < bits.length then some (bits.set g true) else none) (List.replicate size false)

/-- crossover_impl.hpp:235, 287: `is_direct[gene]`. -/
def bitsQuery (bits : List Bool) : Nat → Option Bool := fun g => bits[g]?

/-- crossover_impl.hpp:203, 235 `while (direct.contains(parent2[parent_pos])) increment_mod(parent_pos, chrom_len)`.
`fuel` bounds the number of iterations: the loop visits the positions cyclically, so it never ends if it does not end within
`chrom_len` iterations. -/
def skipDirect (direct : α → Option Bool) (parent2 : List α) : Nat → Nat → Option Nat
  | 0, _ => none
  | fuel + 1, pos => do
    let g ← parent2[pos]?
    if ← direct g then skipDirect direct parent2 fuel (← CircularBuffer.nextMod pos parent2.length) else return pos

/-- crossover_impl.hpp:201-209, 233-241: the main loop of order-1 crossover; the first argument is the number of iterations left. -/
def order1Loop (direct : α → Option Bool) (parent2 : List α) : Nat → Nat → Nat → List α → Option (List α)
  | 0, _, _, child => some child
  | n + 1, parentPos, childPos, child => do
    let pos ← skipDirect direct parent2 (parent2.length + 1) parentPos
    let g ← parent2[pos]?
    if childPos < child.length then
      order1Loop direct parent2 n (← CircularBuffer.nextMod pos parent2.length) (← CircularBuffer.nextMod childPos parent2.length) (child.set childPos g)
    else none

/-- crossover_impl.hpp:196-211, 228-243. -/
def order1With (direct : α → Option Bool) (parent1 parent2 : List α) (first last : Nat) : Option (List α) :=
  let start := if last = parent1.length then 0 else last
  order1Loop direct parent2 (parent1.length - (last - first)) start start parent1

/-- crossover_impl.hpp:184-212 `order1CrossoverImpl`, any gene type. -/
def order1Generic [DecidableEq α] (parent1 parent2 : List α) (first last : Nat) : Option (List α) :=
  order1With (hashSetOf (segment parent1 first last)) parent1 parent2 first last

/-- crossover_impl.hpp:214-244 `order1CrossoverImpl`, unsigned integer genes. -/
def order1Unsigned (parent1 parent2 : List Nat) (first last : Nat) : Option (List Nat) := do
  let bits ← setBits parent1.length (segment parent1 first last)
  order1With (bitsQuery bits) parent1 parent2 first last

/-- crossover_impl.hpp:258-265, 285-292: the loop over the genes of the second parent. -/
def order2Loop (direct : α → Option Bool) (first last : Nat) : List α → Nat → List α → Option (List α)
  | [], _, child => some child
  | g :: rest, childPos, child => do
    if ← direct g then order2Loop direct first last rest childPos child
    else
      let pos := if childPos = first then last else childPos
      if pos < child.length then order2Loop direct first last rest (pos + 1) (child.set pos g) else none

/-- crossover_impl.hpp:247-268 `order2CrossoverImpl`, any gene type. -/
def order2Generic [DecidableEq α] (parent1 parent2 : List α) (first last : Nat) : Option (List α) :=
  order2Loop (hashSetOf (segment parent1 first last)) first last parent2 0 parent1

/-- crossover_impl.hpp:270-295 `order2CrossoverImpl`, unsigned integer genes. -/
def order2Unsigned (parent1 parent2 : List Nat) (first last : Nat) : Option (List Nat) := do
  let bits ← setBits parent1.length (segment parent1 first last)
  order2Loop (bitsQuery bits) first last parent2 0 parent1

end Order

section Position
variable {α : Type}

/-- crossover_impl.hpp:313 `while (direct.contains(*child_pos)) ++child_pos`; the remaining positions of the child are
given, so running off the end (dereferencing the end iterator) is `none`. -/
def skipChild (direct : α → Option Bool) : List α → Nat → Option Nat
  | [], _ => none
  | g :: rest, pos => do
    if ← direct g then skipChild direct rest (pos + 1) else return pos

/-- crossover_impl.hpp:309-316. -/
def positionLoop (direct : α → Option Bool) : List α → Nat → List α → Option (List α)
  | [], _, child => some child
  | g :: rest, childPos, child => do
    if ← direct g then positionLoop direct rest childPos child
    else
      let pos ← skipChild direct (child.drop childPos) childPos
      positionLoop direct rest (pos + 1) (child.set pos g)

/-- `for (size_t idx : indices) … parent1.chromosome[idx]`, crossover_impl.hpp:305, 333. -/
def genesAt (parent : List α) (indices : List Nat) : Option (List α) := indices.mapM (parent[·]?)

/-- crossover_impl.hpp:298-320 `positionCrossoverImpl`, any gene type. -/
def positionGeneric [DecidableEq α] (parent1 parent2 : List α) (indices : List Nat) : Option (List α) := do
  let genes ← genesAt parent1 indices
  positionLoop (hashSetOf genes) parent2 0 parent1

/-- crossover_impl.hpp:335-342: the table `next_indirect`, filled from the back; `none` stands for the value `-1`
(`size_t(-1)` in the table), which is not a position. -/
def nextIndirect (direct : Nat → Option Bool) : List Nat → Nat → Option (List (Option Nat))
  | [], _ => some []
  | g :: rest, i => do
    let tail ← nextIndirect direct rest (i + 1)
    let isDirect ← direct g
    return (if isDirect then tail.head?.join else some i) :: tail

/-- crossover_impl.hpp:346-353. -/
def positionTableLoop (direct : Nat → Option Bool) (table : List (Option Nat)) : List Nat → Nat → List Nat → Option (List Nat)
  | [], _, child => some child
  | g :: rest, childPos, child => do
    if ← direct g then positionTableLoop direct table rest childPos child
    else
      let pos ← (table[childPos]?).join
      if pos < child.length then positionTableLoop direct table rest (pos + 1) (child.set pos g) else none

/-- crossover_impl.hpp:322-355 `positionCrossoverImpl`, unsigned integer genes. -/
def positionUnsigned (parent1 parent2 : List Nat) (indices : List Nat) : Option (List Nat) := do
  let genes ← genesAt parent1 indices
  let bits ← setBits parent1.length genes
  let table ← nextIndirect (bitsQuery bits) parent1 0
  positionTableLoop (bitsQuery bits) table parent2 0 parent1

end Position

section Cycle
variable {α : Type}

/-- algorithm.hpp:270-277 `index_of`; dereferencing the empty optional is `none`. -/
def indexOf [DecidableEq α] (chrom : List α) (g : α) : Option Nat :=
  let idx := chrom.findIdx (· == g)
  if idx < chrom.length then some idx else none

/-- The `index_lookup` table of crossover_impl.hpp:413-417, 587-591: `index_lookup[chrom[i]] = i` for all `i`. -/
def indexLookup (chrom : List Nat) : Option (List Nat) :=
  chrom.zipIdx.foldlM (fun table p => if p.1 < table.length then some (table.set p.1 p.2) else none)
    (List.replicate chrom.length 0)

/-- crossover_impl.hpp:359-440: The state of `findOddCycleIndices`: `deleted`, `num_deleted`, `odd_indices`. -/
structure CycleState where
  deleted : List Bool
  numDeleted : Nat
  odd : List Nat

/-- `deleted[pos] = true; num_deleted++; if (odd_cycle) odd_indices.push_back(pos);` crossover_impl.hpp:376-379, 385-388. -/
def CycleState.visit (s : CycleState) (oddCycle : Bool) (pos : Nat) : Option CycleState :=
  if pos < s.deleted.length then
    some { deleted := s.deleted.set pos true
           numDeleted := s.numDeleted + 1
           odd := if oddCycle then s.odd ++ [pos] else s.odd }
  else none

/-- crossover_impl.hpp:381-389, 427-435: the walk along a cycle; `lookup` finds the position of a gene in the first chromosome.
`fuel` bounds the number of iterations (`none` when it runs out). -/
def cycleWalk [DecidableEq α] (lookup : α → Option Nat) (chrom2 : List α) (oddCycle : Bool) (start : α) :
    Nat → Nat → CycleState → Option CycleState
  | 0, _, _ => none
  | fuel + 1, pos, s => do
    let g ← chrom2[pos]?
    if g = start then return s
    else
      let pos' ← lookup g
      cycleWalk lookup chrom2 oddCycle start fuel pos' (← s.visit oddCycle pos')

/-- crossover_impl.hpp:371-390, 419-436: the loop over the cycles. -/
def cycleLoop [DecidableEq α] (lookup : α → Option Nat) (chrom1 chrom2 : List α) : Nat → Bool → CycleState → Option CycleState
  | 0, _, _ => none
  | fuel + 1, oddCycle, s => do
    if s.numDeleted < chrom1.length then
      let pos := s.deleted.findIdx (· == false)
      let start ← chrom1[pos]?
      let s' ← cycleWalk lookup chrom2 oddCycle start (chrom1.length + 1) pos (← s.visit oddCycle pos)
      cycleLoop lookup chrom1 chrom2 fuel (!oddCycle) s'
    else return s

/-- crossover_impl.hpp:358-393 and 395-438 `findOddCycleIndices`, with the position lookup as an argument. -/
def findOddCycleIndicesWith [DecidableEq α] (lookup : α → Option Nat) (chrom1 chrom2 : List α) : Option (List Nat) := do
  let s ← cycleLoop lookup chrom1 chrom2 (chrom1.length + 1) false ⟨List.replicate chrom1.length false, 0, []⟩
  return s.odd

/-- crossover_impl.hpp:440-457 `cycleCrossoverImpl`, any gene type. -/
def cycleGeneric [DecidableEq α] (parent1 parent2 : List α) : Option (List α × List α) := do
  let idxs ← findOddCycleIndicesWith (indexOf parent1) parent1 parent2
  swapLoci (parent1, parent2) idxs

/-- crossover_impl.hpp:440-457 `cycleCrossoverImpl`, with the overload of `findOddCycleIndices` for unsigned integer genes. -/
def cycleUnsigned (parent1 parent2 : List Nat) : Option (List Nat × List Nat) := do
  let table ← indexLookup parent1
  let idxs ← findOddCycleIndicesWith (table[·]?) parent1 parent2
  swapLoci (parent1, parent2) idxs

end Cycle

section Pmx
variable {α : Type}

/-- crossover_impl.hpp:561-564, 598-601: `while (first <= pos && pos < last) pos = index in parent2 of parent1[pos]`. -/
def pmxWalk (lookup : α → Option Nat) (parent1 : List α) (first last : Nat) : Nat → Nat → Option Nat
  | 0, _ => none
  | fuel + 1, pos => do
    if first ≤ pos ∧ pos < last then
      let g ← parent1[pos]?
      pmxWalk lookup parent1 first last fuel (← lookup g)
    else return pos

/-- crossover_impl.hpp:555-567, 593-604: the second loop, over the positions of the range. -/
def pmxLoop (direct : α → Option Bool) (lookup : α → Option Nat) (parent1 parent2 : List α) (first last : Nat) :
    List Nat → List α → Option (List α)
  | [], child => some child
  | i :: rest, child => do
    let g ← parent2[i]?
    if ← direct g then pmxLoop direct lookup parent1 parent2 first last rest child
    else
      let pos ← pmxWalk lookup parent1 first last (parent1.length + 2) i
      if pos < child.length then pmxLoop direct lookup parent1 parent2 first last rest (child.set pos g) else none

/-- crossover_impl.hpp:544-551, 580-585: `child = parent2`, then the genes of the range are copied from `parent1`. -/
def pmxCopy (parent1 : List α) (first last : Nat) (child : List α) : Option (List α) :=
  (List.range' first (last - first)).foldlM (fun c i => do
    let g ← parent1[i]?
    if i < c.length then some (c.set i g) else none) child

/-- crossover_impl.hpp:538-570 `pmxCrossoverImpl`, any gene type. -/
def pmxGeneric [DecidableEq α] (parent1 parent2 : List α) (first last : Nat) : Option (List α) := do
  let child ← pmxCopy parent1 first last parent2
  pmxLoop (hashSetOf (segment parent1 first last)) (indexOf parent2) parent1 parent2 first last
    (List.range' first (last - first)) child

/-- crossover_impl.hpp:572-608 `pmxCrossoverImpl`, unsigned integer genes. -/
def pmxUnsigned (parent1 parent2 : List Nat) (first last : Nat) : Option (List Nat) := do
  let child ← pmxCopy parent1 first last parent2
  let bits ← setBits parent1.length (segment parent1 first last)
  let table ← indexLookup parent2
  pmxLoop (bitsQuery bits) (table[·]?) parent1 parent2 first last (List.range' first (last - first)) child

end Pmx

end Gapp.Model
