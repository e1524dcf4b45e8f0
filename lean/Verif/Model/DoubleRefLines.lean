import Verif.Model.DoubleMulti
import Verif.Model.RefLines
/-!
# Model of the reference lines of NSGA-III in binary64 arithmetic

`Model/RefLines` with the operations of the type `double`. The mappings `simplexMappingRoot` and `simplexMappingLog` and the function `pickSparseSubset` are not modelled here: the default
of NSGA-III is `quasirandomSimplexPointsMirror`.
-/

namespace Gapp.Model
open Dbl

/-! ## The quasi-random generator -/

/-- qrng.hpp:108-117 `phi`: the loop with `n` iterations from `phid` on; `pow` is `std::pow`. -/
def qrngPhiLoopD (recip : Bool) (pow : Dbl → Dbl → Dbl) (dim : Nat) : Nat → Dbl → Dbl
  | 0, phid => phid
  | n + 1, phid => qrngPhiLoopD recip pow dim n (pow (add (.fin 1) phid) (divR recip (.fin 1) (add (roundD dim) (.fin 1))))

/-- qrng.hpp:108-117 `phi(dim)`. -/
def qrngPhiD (recip : Bool) (pow : Dbl → Dbl → Dbl) (dim : Nat) : Dbl := qrngPhiLoopD recip pow dim 30 (.fin 1)

/-- qrng.hpp:67-74: the loop of the constructor, from the power `phidpow` on. -/
def qrngAlphaD (phid : Dbl) : Nat → Dbl → List Dbl
  | 0, _ => []
  | n + 1, phidpow => div (.fin 1) phidpow :: qrngAlphaD phid n (mul phidpow phid)

/-- qrng.hpp:63-75: the constructor, for the value of `phi(dim)`. -/
def qrngCtorD (phid : Dbl) (dim : Nat) (seed : Dbl) : QuasiRandom Dbl := ⟨dim, seed, qrngAlphaD phid dim phid, List.replicate dim seed⟩

/-- qrng.hpp:82-83: one coordinate. The conversion to `size_type` discards the fraction, and is undefined if the result is not in the range of `size_type`; the integer is converted back to
`double` for the subtraction. -/
def qrngStepD (p a : Dbl) : Option Dbl :=
  match add p a with
  | .fin s => if -1 < s ∧ s < 2 ^ 64 then some (sub (.fin s) (roundD ⌊s⌋₊)) else none
  | _ => none

/-- qrng.hpp:80-84: the loop over the coordinates. -/
def qrngLoopD : List Dbl → List Dbl → Option (List Dbl)
  | [], _ => some []
  | _ :: _, [] => none
  | p :: ps, a :: as => do
    let v ← qrngStepD p a
    let vs ← qrngLoopD ps as
    return v :: vs

/-- qrng.hpp:78-87 `operator()`: the point and the next state. -/
def qrngNextD (g : QuasiRandom Dbl) : Option (List Dbl × QuasiRandom Dbl) := do
  let point ← qrngLoopD g.point g.alpha
  return (point, { g with point := point })

/-! ## The mappings from the cube to the simplex -/

/-- reference_lines.cpp:45, 97: `std::adjacent_difference`. -/
def adjacentDifferenceD : List Dbl → List Dbl
  | [] => []
  | x :: xs => x :: List.zipWith sub xs (x :: xs)

/-- reference_lines.cpp:41, 73: the assertion at the beginning of the mappings. -/
def inUnitCubeD (point : List Dbl) : Prop := ∀ p ∈ point, Dbl.le (.fin 0) p = true ∧ Dbl.le p (.fin 1) = true

instance (point : List Dbl) : Decidable (inUnitCubeD point) := by unfold inUnitCubeD; infer_instance

/-- reference_lines.cpp:39-46 `simplexMappingSort`; `sort` is `std::sort`. -/
def simplexMappingSortD (sort : List Dbl → List Dbl) (point : List Dbl) : Option (List Dbl) :=
  if inUnitCubeD point then some (adjacentDifferenceD (sort (point ++ [.fin 1]))) else none

/-- reference_lines.cpp:84-92: the body of the inner loop of `simplexMappingMirror`. -/
def mirrorStepD (last : Nat) (s : List Dbl × Bool) (first : Nat) : Option (List Dbl × Bool) := do
  let f ← s.1[first]?
  let l ← s.1[last]?
  if Dbl.lt l f then do
    let high ← s.1[last + 1]?
    let low ← if first ≠ 0 then s.1[first - 1]? else some (.fin 0)
    return ((s.1.set first (sub (add low high) f)).set last (sub (add low high) l), true)
  else return s

/-- reference_lines.cpp:80-93: the inner loop. -/
def mirrorPassD (x : List Dbl) (last : Nat) : Option (List Dbl × Bool) := (List.range last).foldlM (mirrorStepD last) (x, false)

/-- reference_lines.cpp:78-96: the outer loop. `none` also if `fuel` iterations are not enough. -/
def mirrorLoopD : Nat → Nat → List Dbl → Option (List Dbl)
  | 0, _, _ => none
  | fuel + 1, last, x => do
    let r ← mirrorPassD x last
    if r.2 = false ∧ last = 0 then return r.1
    else if r.2 = false then mirrorLoopD fuel (last - 1) r.1
    else mirrorLoopD fuel last r.1

/-- reference_lines.cpp:71-98 `simplexMappingMirror`, with at most `fuel` iterations. -/
def simplexMappingMirrorD (fuel : Nat) (point : List Dbl) : Option (List Dbl) :=
  if inUnitCubeD point then
    if point.length + 1 = 1 then some [.fin 1]
    else do
      let x ← mirrorLoopD fuel (point.length - 1) (point ++ [.fin 1])
      return adjacentDifferenceD x
  else none

/-! ## The generated points -/

/-- reference_lines.cpp:124-129: the loop of `quasirandomSimplexPoints`. The assignment to a row needs `dim` elements (`Matrix::RowRef::operator=`). -/
def simplexPointsLoopD (F : List Dbl → Option (List Dbl)) (dim : Nat) : Nat → QuasiRandom Dbl → Option (List (List Dbl))
  | 0, _ => some []
  | n + 1, g => do
    let r ← qrngNextD g
    let p ← F r.1
    if p.length = dim then do
      let rest ← simplexPointsLoopD F dim n r.2
      return p :: rest
    else none

/-- reference_lines.cpp:114-132 `quasirandomSimplexPoints` for the mapping `F`, which needs points with `dim - 1` coordinates; `phid` is `phi(dim - 1)`, and the seed is the default one. -/
def quasirandomSimplexPointsD (F : List Dbl → Option (List Dbl)) (phid : Dbl) (dim numPoints : Nat) : Option (List (List Dbl)) :=
  if dim = 0 then some (List.replicate numPoints [])
  else simplexPointsLoopD F dim numPoints (qrngCtorD phid (dim - 1) (.fin (1 / 2)))

/-! ## The reference lines of NSGA-III -/

/-- math.cpp:59-69 `euclideanNorm` and `normalizeVector`; `sqrt` is `std::sqrt`. -/
def normalizeVectorD (recip fused : Bool) (sqrt : Dbl → Dbl) (v : List Dbl) : List Dbl := v.map (fun x => divR recip x (sqrt (innerProductD fused v v)))

/-- nsga3.cpp:161-167 `generateReferencePoints`. -/
def generateReferencePointsD (recip fused : Bool) (sqrt : Dbl → Dbl) (generator : Nat → Nat → Option (List (List Dbl))) (dim numPoints : Nat) : Option (List (List Dbl)) := do
  let points ← generator dim numPoints
  return points.map (normalizeVectorD recip fused sqrt)

end Gapp.Model
