import Verif.Model.DoubleRefLines
import Verif.Model.DoubleSelect
/-!
# The other mappings to the simplex and the sparse subset in binary64 arithmetic

Source: `/repo/src/algorithm/reference_lines.cpp` and `/repo/src/utility/math.cpp`. `std::pow`, `std::log` and the sums of `std::reduce` and `std::transform_reduce` are arguments. A failed assertion, or an
access out of bounds, is `none`.
-/

namespace Gapp.Model
open Dbl

/-! ## The mappings -/

/-- reference_lines.cpp:59, 63: the exponent of `simplexMappingRoot`, for the number `n` of coordinates that are left. -/
def rootExponentD (n : Nat) : Dbl := div (.fin 1) (roundD n)

/-- reference_lines.cpp:61-64: the loop of `simplexMappingRoot`, over the coordinates in reverse order. -/
def rootLoopD (pow : Dbl → Dbl → Dbl) (prev : Dbl) : List Dbl → List Dbl
  | [] => []
  | p :: rest => mul prev (pow p (rootExponentD (rest.length + 1))) :: rootLoopD pow (mul prev (pow p (rootExponentD (rest.length + 1)))) rest

/-- reference_lines.cpp:49-68 `simplexMappingRoot`. -/
def simplexMappingRootD (pow : Dbl → Dbl → Dbl) (point : List Dbl) : Option (List Dbl) :=
  if inUnitCubeD point then
    match point.reverse with
    | [] => some [.fin 1]
    | p :: rest => some (adjacentDifferenceD ((pow p (rootExponentD (rest.length + 1)) :: rootLoopD pow (pow p (rootExponentD (rest.length + 1))) rest).reverse ++ [.fin 1]))
  else none

/-- reference_lines.cpp:33: the function for each coordinate. -/
def negLogD (log : Dbl → Dbl) (p : Dbl) : Dbl := neg (log (if Dbl.lt p smallD then smallD else p))

/-- reference_lines.cpp:29-36 `simplexMappingLog`; `sum` is `std::reduce` from 0. -/
def simplexMappingLogD (recip : Bool) (log : Dbl → Dbl) (sum : List Dbl → Dbl) (point : List Dbl) : Option (List Dbl) :=
  if inUnitCubeD point then some ((point.map (negLogD log)).map (fun x => divR recip x (sum (point.map (negLogD log))))) else none

/-- reference_lines.cpp:114-132 `quasirandomSimplexPoints` for the mapping `simplexMappingLog`, which needs points with `dim` coordinates; `phid` is `phi(dim)`. -/
def quasirandomSimplexPointsLogD (F : List Dbl → Option (List Dbl)) (phid : Dbl) (dim numPoints : Nat) : Option (List (List Dbl)) :=
  if dim = 0 then some (List.replicate numPoints [])
  else simplexPointsLoopD F dim numPoints (qrngCtorD phid dim (.fin (1 / 2)))

/-! ## The sparse subset -/

/-- math.cpp:71-78 `euclideanDistanceSq`; `sumSq` is the sum of the squares of the differences by `std::transform_reduce`. -/
def euclideanDistanceSqD (sumSq : List Dbl → Dbl) (v1 v2 : List Dbl) : Option Dbl :=
  if v1.length = v2.length then some (sumSq (List.zipWith sub v1 v2)) else none

/-- reference_lines.cpp:181-185: the loop over the candidates. -/
def updateMinDistancesD (sumSq : List Dbl → Dbl) (p : List Dbl) : List (List Dbl) → List Dbl → Option (List Dbl)
  | [], [] => some []
  | c :: cs, d :: ds => do
    let dist ← euclideanDistanceSqD sumSq c p
    let rest ← updateMinDistancesD sumSq p cs ds
    return (if Dbl.lt dist d then dist else d) :: rest
  | _, _ => none

/-- reference_lines.cpp:171-185: the body of the loop. -/
def sparseStepD (sumSq : List Dbl → Dbl) (s : SparseState Dbl) : Option (SparseState Dbl) := do
  let idx ← argmax false s.minDistances
  let p ← s.candidates[idx]?
  let cands ← swap? s.candidates idx (s.candidates.length - 1)
  let dists ← swap? s.minDistances idx (s.minDistances.length - 1)
  let dists ← updateMinDistancesD sumSq p cands.dropLast dists.dropLast
  return ⟨s.points ++ [p], cands.dropLast, dists⟩

/-- reference_lines.cpp:169-186: the loop; `n` points are still to be added. -/
def sparseLoopD (sumSq : List Dbl → Dbl) : Nat → SparseState Dbl → Option (SparseState Dbl)
  | 0, s => some s
  | n + 1, s => do
    let s ← sparseStepD sumSq s
    sparseLoopD sumSq n s

/-- reference_lines.cpp:156-191 `pickSparseSubset`; `generator` is the generator of the candidates. -/
def pickSparseSubsetD (sumSq : List Dbl → Dbl) (dim numPoints : Nat) (generator : Nat → Nat → Option (List (List Dbl))) (k : Nat) : Option (List (List Dbl)) :=
  if dim * numPoints = 0 then some []
  else do
    let cands ← generator dim (k * numPoints)
    let p ← cands.getLast?
    let dists ← cands.dropLast.mapM (euclideanDistanceSqD sumSq p)
    let s ← sparseLoopD sumSq (numPoints - 1) ⟨[p], cands.dropLast, dists⟩
    return s.points

end Gapp.Model
