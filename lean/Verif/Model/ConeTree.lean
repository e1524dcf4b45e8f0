import Verif.Model.Nsga3
import Verif.Model.Sorting
/-!
# Model of the cone tree

Source: `/repo/src/utility/cone_tree.cpp`. Arithmetic is exact; `sqrt` is the square root. The points are the rows of the matrix. The nodes are those of the vector `nodes_`, whose
capacity is an argument: `buildTree` holds a reference to an element while it appends others, so that a reallocation makes the following writes undefined (`none`). Violated preconditions
and accesses out of range are also `none`. Infinities are `⊥`.
-/

namespace Gapp.Model

/-- cone_tree.hpp:40-49 `Node`. -/
structure ConeNode (K : Type) where
  center : List K
  radius : K
  first : Nat
  last : Nat
  left : Nat
  right : Nat
  deriving DecidableEq

/-- cone_tree.hpp:71-72: the members of the tree. -/
structure ConeTree (K : Type) where
  points : List (List K)
  nodes : List (ConeNode K)
  deriving DecidableEq

/-- cone_tree.hpp:74 `MAX_LEAF_ELEMENTS`. -/
def maxLeafElements : Nat := 8

section
variable {K : Type} [Field K] [LinearOrder K]

/-- math.cpp:71-78 `euclideanDistanceSq`, for ranges of the same size. -/
def euclideanDistanceSq (a b : List K) : K := (List.zipWith (fun l r => (l - r) ^ 2) a b).sum

/-- cone_tree.cpp:146, 155, 195: The rows of the range `[first, last)` of the matrix. -/
def rowsOf (pts : List (List K)) (first last : Nat) : List (List K) := (pts.take last).drop first

/-- cone_tree.cpp:43-46 `findFurthestElement`: the position of the result in the matrix. -/
def findFurthestElement (pts : List (List K)) (first last from_ : Nat) : Nat :=
  first + maxElement ((rowsOf pts first last).map (euclideanDistanceSq (pts.getD from_ [])))

/-- cone_tree.cpp:49-59 `partitionPoints`. -/
def partitionPoints (pts : List (List K)) (first last : Nat) : Nat × Nat :=
  let firstElem := findFurthestElement pts first last first
  (firstElem, findFurthestElement pts first last firstElem)

/-- cone_tree.cpp:62-77 `findCenter`. -/
def findCenter (rows : List (List K)) : Option (List K) :=
  match rows with
  | [] => none
  | row :: rest => some ((rest.foldl (fun center r => List.zipWith (· + ·) center r) row).map (fun x => x / ((rest.length + 1 : Nat) : K)))

/-- cone_tree.cpp:80-86 `findRadius`. -/
def findRadius (sqrt : K → K) (rows : List (List K)) (center : List K) : Option K := do
  let furthest ← rows[maxElement (rows.map (euclideanDistanceSq center))]?
  return sqrt (euclideanDistanceSq center furthest)

/-- cone_tree.cpp:146: `std::partition` of the range `[first, last)` of the matrix for bidirectional iterators, as in libstdc++: with `back = false` the first element that does not satisfy the predicate is
searched from the front, with `back = true` the last one that does from the back, and the two are exchanged. The predicate reads the matrix in its current state. `fuel` is at least the
size of the range. -/
def partitionLoop (pred : List (List K) → Nat → Bool) : Nat → Bool → List (List K) → Nat → Nat → Option (List (List K) × Nat)
  | 0, _, pts, first, _ => some (pts, first)
  | fuel + 1, back, pts, first, last =>
    if first = last then some (pts, first)
    else if back = false then
      if pred pts first then partitionLoop pred fuel false pts (first + 1) last else partitionLoop pred fuel true pts first (last - 1)
    else if pred pts last then do
      let pts ← swap? pts first last
      partitionLoop pred fuel false pts (first + 1) last
    else partitionLoop pred fuel true pts first (last - 1)

/-- cone_tree.cpp:146-152: the predicate of the partition. The partition points are iterators: they stay at their positions while the rows are exchanged. -/
def closerToFirst (p : Nat × Nat) (pts : List (List K)) (i : Nat) : Bool :=
  decide (euclideanDistanceSq (pts.getD i []) (pts.getD p.1 []) < euclideanDistanceSq (pts.getD i []) (pts.getD p.2 []))

/-- cone_tree.cpp:128-168: the body of the loop of `buildTree` for the node `i`. -/
def buildNode (sqrt : K → K) (cap : Nat) (t : ConeTree K) (i : Nat) : Option (ConeTree K) := do
  let node ← t.nodes[i]?
  let rows := rowsOf t.points node.first node.last
  let center ← findCenter rows
  let radius ← findRadius sqrt rows center
  if node.last - node.first ≤ maxLeafElements then
    return { t with nodes := t.nodes.set i { node with center := center, radius := radius, left := 0, right := 0 } }
  else
    let (pts, middle) ← partitionLoop (closerToFirst (partitionPoints t.points node.first node.last)) (node.last - node.first) false t.points node.first node.last
    let middle := if middle = node.first then middle + 1 else middle
    if t.nodes.length + 2 ≤ cap then
      let nodes := t.nodes.set i { node with center := center, radius := radius, left := t.nodes.length, right := t.nodes.length + 1 }
      return ⟨pts, nodes ++ [⟨[], 0, node.first, middle, 0, 0⟩, ⟨[], 0, middle, node.last, 0, 0⟩]⟩
    else none

/-- cone_tree.cpp:124-169 `buildTree`: the loop from the node `i` on. `none` also if `fuel` is not enough. -/
def buildLoop (sqrt : K → K) (cap : Nat) : Nat → Nat → ConeTree K → Option (ConeTree K)
  | 0, i, t => if i < t.nodes.length then none else some t
  | fuel + 1, i, t => if i < t.nodes.length then (buildNode sqrt cap t i).bind (buildLoop sqrt cap fuel (i + 1)) else some t

/-- cone_tree.cpp:28-40: the constructor; `cap` is the capacity of `nodes_` after the root is appended. Each row has as many elements as the first one (`append_row`). -/
def coneTree (sqrt : K → K) (cap : Nat) (points : List (List K)) : Option (ConeTree K) :=
  match points with
  | [] => some ⟨[], []⟩
  | p :: _ =>
    if ∀ q ∈ points, q.length = p.length then buildLoop sqrt cap (2 * points.length) 0 ⟨points, [⟨[], 0, 0, points.length, 0, 0⟩]⟩
    else none

/-- cone_tree.cpp:36-37: the capacity of `nodes_`, if `reserve` allocates exactly what it is asked for. -/
def reservedNodes (n : Nat) : Nat := max (4 * n / maxLeafElements) 1

/-- cone_tree.cpp:95-100 `innerProductUpperBound`. -/
def innerProductUpperBound (node : ConeNode K) (query : List K) (norm : K) : K := innerProduct query node.center + norm * node.radius

/-- cone_tree.cpp:110-119: the loop of `findBestMatchLinear` over the rows from the position `i` on. -/
def linearLoop (query : List K) : List (List K) → Nat → Option Nat × WithBot K → Option Nat × WithBot K
  | [], _, best => best
  | row :: rows, i, best =>
    linearLoop query rows (i + 1) (if best.2 < ((innerProduct query row : K) : WithBot K) then (some i, ((innerProduct query row : K) : WithBot K)) else best)

/-- cone_tree.cpp:103-122 `findBestMatchLinear`: the position in the matrix and the inner product. -/
def findBestMatchLinear (pts : List (List K)) (query : List K) (first last : Nat) : Option (Option Nat × WithBot K) :=
  if first < last then some (linearLoop query (rowsOf pts first last) first (none, ⊥)) else none

/-- cone_tree.cpp:185-220: the loop of `findBestMatch`; the last element of the stack is the head of the list. `none` also if `fuel` is not enough. -/
def findLoop (t : ConeTree K) (query : List K) (norm : K) : Nat → List Nat → Option Nat × WithBot K → Option (Option Nat × WithBot K)
  | _, [], best => some best
  | 0, _ :: _, _ => none
  | fuel + 1, i :: stack, best => do
    let node ← t.nodes[i]?
    if ((innerProductUpperBound node query norm : K) : WithBot K) ≤ best.2 then findLoop t query norm fuel stack best
    else if node.left = 0 ∧ node.right = 0 then do
      let found ← findBestMatchLinear t.points query node.first node.last
      findLoop t query norm fuel stack (if best.2 < found.2 then found else best)
    else if node.left ≠ 0 ∧ node.right ≠ 0 then do
      let left ← t.nodes[node.left]?
      let right ← t.nodes[node.right]?
      if innerProductUpperBound left query norm < innerProductUpperBound right query norm then findLoop t query norm fuel (node.right :: node.left :: stack) best
      else findLoop t query norm fuel (node.left :: node.right :: stack) best
    else none

/-- cone_tree.cpp:171-223 `findBestMatch`: the position of the result in the matrix (or the end of an empty one) and the inner product. The query has as many elements as the rows. -/
def findBestMatch (sqrt : K → K) (t : ConeTree K) (query : List K) : Option (Nat × WithBot K) :=
  match t.points with
  | [] => some (0, 0)
  | p :: _ =>
    if query.length = p.length then do
      let best ← findLoop t query (sqrt (innerProduct query query)) (2 * t.points.length) [0] (none, ⊥)
      let elem ← best.1
      return (elem, best.2)
    else none
end

end Gapp.Model
