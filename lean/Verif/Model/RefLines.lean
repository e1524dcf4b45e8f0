import Verif.Model.ConeTree
import Mathlib.Algebra.Order.Floor.Defs
import Mathlib.Analysis.SpecialFunctions.Pow.Real
/-!
# Model of the quasi-random generator and of the reference lines of NSGA-III

Source: `/repo/src/utility/qrng.hpp`, `/repo/src/algorithm/reference_lines.cpp` and `/repo/src/algorithm/nsga3.cpp`. Arithmetic is exact. A failed assertion, an access out of range and a
conversion of a value that the integer type cannot hold are `none`.
-/

namespace Gapp.Model

section
variable {K : Type} [Field K] [LinearOrder K]

/-! ## The quasi-random generator -/

/-- qrng.hpp:43-46: the members of `QuasiRandom`. -/
structure QuasiRandom (K : Type) where
  dim : Nat
  seed : K
  alpha : List K
  point : List K

/-- qrng.hpp:67-74: the loop of the constructor, from the power `phidpow` on. -/
def qrngAlpha (phid : K) : Nat → K → List K
  | 0, _ => []
  | n + 1, phidpow => 1 / phidpow :: qrngAlpha phid n (phidpow * phid)

/-- qrng.hpp:63-75: the constructor, for the value of `phi(dim)`. -/
def qrngCtor (phid : K) (dim : Nat) (seed : K) : QuasiRandom K :=
  ⟨dim, seed, qrngAlpha phid dim phid, List.replicate dim seed⟩

/-- qrng.hpp:82-83: one coordinate. The conversion to `size_type` discards the fraction. -/
def qrngStep [FloorRing K] (p a : K) : Option K :=
  if -1 < p + a ∧ p + a < 2 ^ 64 then some (p + a - (⌊p + a⌋₊ : K)) else none

/-- qrng.hpp:80-84: the loop over the coordinates. -/
def qrngLoop [FloorRing K] : List K → List K → Option (List K)
  | [], _ => some []
  | _ :: _, [] => none
  | p :: ps, a :: as => do
    let v ← qrngStep p a
    let vs ← qrngLoop ps as
    return v :: vs

/-- qrng.hpp:78-87 `operator()`: the point and the next state. -/
def qrngNext [FloorRing K] (g : QuasiRandom K) : Option (List K × QuasiRandom K) := do
  let point ← qrngLoop g.point g.alpha
  return (point, { g with point := point })

/-- qrng.hpp:90-93 `discard`. -/
def qrngDiscard [FloorRing K] : Nat → QuasiRandom K → Option (QuasiRandom K)
  | 0, g => some g
  | n + 1, g => do
    let r ← qrngNext g
    qrngDiscard n r.2

/-- qrng.hpp:96-100 `reset`. -/
def qrngReset (g : QuasiRandom K) (seed : K) : QuasiRandom K := { g with seed := seed, point := List.replicate g.point.length seed }

/-! ## The mappings from the cube to the simplex -/

/-- reference_lines.cpp:45, 67, 97: `std::adjacent_difference`. -/
def adjacentDifference : List K → List K
  | [] => []
  | x :: xs => x :: List.zipWith (fun a b => a - b) xs (x :: xs)

/-- reference_lines.cpp:31, 41, 51, 73: the assertion at the beginning of the mappings. -/
def inUnitCube (point : List K) : Prop := ∀ p ∈ point, 0 ≤ p ∧ p ≤ 1

instance (point : List K) : Decidable (inUnitCube point) := by unfold inUnitCube; infer_instance

/-- reference_lines.cpp:39-46 `simplexMappingSort`; `sort` is `std::sort`. -/
def simplexMappingSort (sort : List K → List K) (point : List K) : Option (List K) :=
  if inUnitCube point then some (adjacentDifference (sort (point ++ [1]))) else none

/-- reference_lines.cpp:84-92: the body of the inner loop of `simplexMappingMirror`. -/
def mirrorStep (last : Nat) (s : List K × Bool) (first : Nat) : Option (List K × Bool) := do
  let f ← s.1[first]?
  let l ← s.1[last]?
  if l < f then do
    let high ← s.1[last + 1]?
    let low ← if first ≠ 0 then s.1[first - 1]? else some 0
    return ((s.1.set first (low + high - f)).set last (low + high - l), true)
  else return s

/-- reference_lines.cpp:80-93: the inner loop. -/
def mirrorPass (x : List K) (last : Nat) : Option (List K × Bool) := (List.range last).foldlM (mirrorStep last) (x, false)

/-- reference_lines.cpp:78-96: the outer loop. `none` also if `fuel` iterations are not enough. -/
def mirrorLoop : Nat → Nat → List K → Option (List K)
  | 0, _, _ => none
  | fuel + 1, last, x => do
    let r ← mirrorPass x last
    if r.2 = false ∧ last = 0 then return r.1
    else if r.2 = false then mirrorLoop fuel (last - 1) r.1
    else mirrorLoop fuel last r.1

/-- reference_lines.cpp:71-98 `simplexMappingMirror`, with at most `fuel` iterations. -/
def simplexMappingMirror (fuel : Nat) (point : List K) : Option (List K) :=
  if inUnitCube point then
    if point.length + 1 = 1 then some [1]
    else do
      let x ← mirrorLoop fuel (point.length - 1) (point ++ [1])
      return adjacentDifference x
  else none

/-! ## The generated points -/

/-- reference_lines.cpp:124-129: the loop of `quasirandomSimplexPoints`. The assignment to a row needs `dim` elements (`Matrix::RowRef::operator=`). -/
def simplexPointsLoop [FloorRing K] (F : List K → Option (List K)) (dim : Nat) : Nat → QuasiRandom K → Option (List (List K))
  | 0, _ => some []
  | n + 1, g => do
    let r ← qrngNext g
    let p ← F r.1
    if p.length = dim then do
      let rest ← simplexPointsLoop F dim n r.2
      return p :: rest
    else none

/-- reference_lines.cpp:114-132 `quasirandomSimplexPoints` for the mapping `F` with the input dimension `inputDim`; `phid` is `phi(inputDim)`, and the seed is the default one. -/
def quasirandomSimplexPoints [FloorRing K] (F : List K → Option (List K)) (inputDim : Nat) (phid : K) (dim numPoints : Nat) : Option (List (List K)) :=
  if dim = 0 then some (List.replicate numPoints [])
  else simplexPointsLoop F dim numPoints (qrngCtor phid inputDim (1 / 2))

/-! ## The sparse subset -/

/-- reference_lines.cpp:156-191: the state of `pickSparseSubset`. -/
structure SparseState (K : Type) where
  points : List (List K)
  candidates : List (List K)
  minDistances : List K
  deriving DecidableEq

/-- reference_lines.cpp:181-185: the loop over the candidates. -/
def updateMinDistances (p : List K) : List (List K) → List K → Option (List K)
  | [], [] => some []
  | c :: cs, d :: ds => do
    let rest ← updateMinDistances p cs ds
    return min d (euclideanDistanceSq c p) :: rest
  | _, _ => none

/-- reference_lines.cpp:171-185: the body of the loop. -/
def sparseStep (s : SparseState K) : Option (SparseState K) := do
  let idx ← argmax false s.minDistances
  let p ← s.candidates[idx]?
  let cands ← swap? s.candidates idx (s.candidates.length - 1)
  let dists ← swap? s.minDistances idx (s.minDistances.length - 1)
  let dists ← updateMinDistances p cands.dropLast dists.dropLast
  return ⟨s.points ++ [p], cands.dropLast, dists⟩

/-- reference_lines.cpp:169-186: the loop; `n` points are still to be added. -/
def sparseLoop : Nat → SparseState K → Option (SparseState K)
  | 0, s => some s
  | n + 1, s => do
    let s ← sparseStep s
    sparseLoop n s

/-- reference_lines.cpp:156-191 `pickSparseSubset`; `generator` is the generator of the candidates. -/
def pickSparseSubset (dim numPoints : Nat) (generator : Nat → Nat → Option (List (List K))) (k : Nat) : Option (List (List K)) :=
  if dim * numPoints = 0 then some []
  else do
    let cands ← generator dim (k * numPoints)
    let p ← cands.getLast?
    let s ← sparseLoop (numPoints - 1) ⟨[p], cands.dropLast, cands.dropLast.map (euclideanDistanceSq p)⟩
    return s.points

/-! ## The reference lines of NSGA-III -/

/-- math.cpp:64-69 `normalizeVector`. -/
def normalizeVector (sqrt : K → K) (v : List K) : List K := v.map (fun x => x / sqrt (innerProduct v v))

/-- nsga3.cpp:161-167 `generateReferencePoints`. -/
def generateReferencePoints (sqrt : K → K) (generator : Nat → Nat → Option (List (List K))) (dim numPoints : Nat) : Option (List (List K)) := do
  let points ← generator dim numPoints
  return points.map (normalizeVector sqrt)
end

/-! ## Real numbers -/

/-- qrng.hpp:109-118 `phi`: the loop. -/
noncomputable def qrngPhiLoop (dim : Nat) : Nat → ℝ → ℝ
  | 0, phid => phid
  | n + 1, phid => qrngPhiLoop dim n ((1 + phid) ^ (1 / ((dim : ℝ) + 1)))

/-- qrng.hpp:109-118 `phi` with the default number of iterations. -/
noncomputable def qrngPhi (dim : Nat) : ℝ := qrngPhiLoop dim 30 1

/-- reference_lines.cpp:29-36 `simplexMappingLog`; `small` is the smallest positive normal number. -/
noncomputable def simplexMappingLog (small : ℝ) (point : List ℝ) : Option (List ℝ) :=
  open Classical in
  if inUnitCube point then
    some ((point.map (fun p => -Real.log (max p small))).map (fun x => x / (point.map (fun p => -Real.log (max p small))).sum))
  else none

/-- reference_lines.cpp:61-64: the loop of `simplexMappingRoot`, over the coordinates in reverse order. The exponent is the inverse of the number of the remaining coordinates. -/
noncomputable def rootLoop (prev : ℝ) : List ℝ → List ℝ
  | [] => []
  | p :: rest => prev * p ^ (1 / ((rest.length : ℝ) + 1)) :: rootLoop (prev * p ^ (1 / ((rest.length : ℝ) + 1))) rest

/-- reference_lines.cpp:49-68 `simplexMappingRoot`. -/
noncomputable def simplexMappingRoot (point : List ℝ) : Option (List ℝ) :=
  open Classical in
  if inUnitCube point then
    match point.reverse with
    | [] => some [1]
    | p :: rest => some (adjacentDifference ((p ^ (1 / ((rest.length : ℝ) + 1)) :: rootLoop (p ^ (1 / ((rest.length : ℝ) + 1))) rest).reverse ++ [1]))
  else none

end Gapp.Model
