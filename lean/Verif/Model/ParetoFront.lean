import Verif.Model.Float
import Verif.Model.Sorting
/-!
# Model of the Pareto front functions

Source: `/repo/src/core/population.cpp:22-204`. A fitness matrix is a list of rows. The algorithms only
look at rows through the comparison functions, so their loops are written for an arbitrary comparison of
row indices and instantiated with the comparison of the rows of the matrix. All the row indices are
elements of `index_vector(n)`, so reading a row is never out of range.
-/

namespace Gapp.Model
variable {K : Type} [CommRing K] [LinearOrder K]

/-- candidate.hpp:26: A fitness matrix. -/
abbrev FMat (K : Type) := List (FVec K)

/-- population.cpp:89: `math::paretoCompare(fmat[i], fmat[j])`. -/
def rowCmp (t : Tol K) (fmat : FMat K) (i j : Nat) : Int :=
  paretoCompare t (fmat.getD i []) (fmat.getD j [])

/-- population.cpp:63, 115, 146: `math::paretoCompareLess(fmat[i], fmat[j])`. -/
def rowLess (t : Tol K) (fmat : FMat K) (i j : Nat) : Bool :=
  paretoCompareLess t (fmat.getD i []) (fmat.getD j [])

/-- population.cpp:47-54, 163-170; nd_sort.cpp:331-338: the lexicographic descending comparator. -/
def lexGreater : FVec K → FVec K → Bool
  | a :: as, b :: bs => if a ≠ b then decide (a > b) else lexGreater as bs
  | _, _ => false

/-- population.cpp:47, 163: The comparator of `argsort(fmat.begin(), fmat.end(), …)`. -/
def rowLexLess (fmat : FMat K) (i j : Nat) : Bool := lexGreater (fmat.getD i []) (fmat.getD j [])

/-- population.cpp:31: `std::max_element` with `lhs[0] < rhs[0]`: the first maximum. -/
def maxElementLoop (best : Flt K) : List (Flt K) → Flt K
  | [] => best
  | x :: xs => maxElementLoop (if best < x then x else best) xs

/-- population.cpp:29-43 `findParetoFront1D`; `none` if a row has no objective or there are no rows. -/
def findParetoFront1D (t : Tol K) (fmat : FMat K) : Option (List Nat) := do
  let col ← fmat.mapM List.head?
  let x ← col.head?
  let maxFitness := maxElementLoop x col.tail
  return (List.range fmat.length).filter (fun i =>
    match col[i]? with | some y => floatIsEqual t maxFitness y | none => false)

/-- population.cpp:56-68: the loop of `findParetoFrontSort` over the sorted indices. -/
def frontSortLoop (less : Nat → Nat → Bool) (indices : List Nat) : List Nat :=
  indices.foldl (fun opt idx => if opt.any (fun o => less idx o) then opt else opt ++ [idx]) []

/-- population.cpp:87-106: the first inner loop of the BEST algorithm.
State: the index array, `first`, `last`, `best`, `it`. Every iteration either advances `it` or moves `last`
one back, so the loop is written by recursion on the distance `last - it` (first argument), and ends
when that is zero. -/
def bestScan (cmp : Nat → Nat → Int) :
    Nat → List Nat → Nat → Nat → Nat → Nat → Option (List Nat × Nat × Nat × Nat)
  | 0, arr, first, last, best, _ => some (arr, first, last, best)
  | rem + 1, arr, first, last, best, it => do
    let b ← arr[best]?
    let x ← arr[it]?
    let c := cmp b x
    if c > 0 then
      let arr' ← swap? arr it (last - 1)
      bestScan cmp rem arr' first (last - 1) best it
    else if c < 0 then
      let arr' ← swap? arr best first
      bestScan cmp rem arr' (first + 1) last it (it + 1)
    else bestScan cmp rem arr first last best (it + 1)

/-- population.cpp:113-121: the second inner loop of the BEST algorithm, by recursion on the distance
`best - it`. -/
def bestPrune (less : Nat → Nat → Bool) :
    Nat → List Nat → Nat → Nat → Nat → Option (List Nat × Nat)
  | 0, arr, first, _, _ => some (arr, first)
  | rem + 1, arr, first, best, it => do
    let x ← arr[it]?
    let b ← arr[best]?
    if less x b then
      let arr' ← swap? arr it first
      bestPrune less rem arr' (first + 1) best (it + 1)
    else bestPrune less rem arr first best (it + 1)

/-- population.cpp:84-127: the outer loop of the BEST algorithm. `fuel` bounds the number of iterations;
running out of it gives `none` (that `n` iterations suffice is part of the theorem). -/
def bestOuter (cmp : Nat → Nat → Int) (less : Nat → Nat → Bool) :
    Nat → List Nat → Nat → Nat → List Nat → Option (List Nat)
  | 0, _, first, last, opt => if first = last then some opt else none
  | fuel + 1, arr, first, last, opt =>
      if first = last then some opt else do
        let (arr, first, last, best) ← bestScan cmp (last - (first + 1)) arr first last first (first + 1)
        let b ← arr[best]?
        let (arr, first) ← bestPrune less (best - first) arr first best first
        let arr ← swap? arr best (last - 1)
        bestOuter cmp less fuel arr first (last - 1) (opt ++ [b])

/-- population.cpp:71-130 `findParetoFrontBest`. -/
def findParetoFrontBest (t : Tol K) (fmat : FMat K) : Option (List Nat) :=
  bestOuter (rowCmp t fmat) (rowLess t fmat) fmat.length (List.range fmat.length) 0 fmat.length []

/-- population.cpp:141-153: merging the bottom half into the top half. -/
def kungMerge (less : Nat → Nat → Bool) (top bottom : List Nat) : List Nat :=
  bottom.foldl (fun top bad => if top.any (fun good => less bad good) then top else top ++ [bad]) top

/-- population.cpp:132-156 `findParetoFrontKungImpl` on the range of sorted indices; on an empty range the
recursion does not end (`none`). -/
def kungImpl (less : Nat → Nat → Bool) (l : List Nat) : Option (List Nat) :=
  if l.length = 0 then none
  else if l.length = 1 then some l
  else do
    let top ← kungImpl less (l.take (l.length / 2))
    let bottom ← kungImpl less (l.drop (l.length / 2))
    return kungMerge less top bottom
termination_by l.length
decreasing_by all_goals simp; omega

/-- population.cpp:45-69 `findParetoFrontSort`, for a given result of `argsort`. -/
def findParetoFrontSort (t : Tol K) (fmat : FMat K) (indices : List Nat) : List Nat :=
  frontSortLoop (rowLess t fmat) indices

/-- population.cpp:158-174 `findParetoFrontKung`, for a given result of `argsort`. -/
def findParetoFrontKung (t : Tol K) (fmat : FMat K) (indices : List Nat) : Option (List Nat) :=
  kungImpl (rowLess t fmat) indices

/-- population.cpp:22-27 `findParetoFront`; `ncols` is the number of columns of the matrix. -/
def findParetoFront (t : Tol K) (ncols : Nat) (fmat : FMat K) : Option (List Nat) :=
  if fmat = [] then some []
  else if ncols = 1 then findParetoFront1D t fmat else findParetoFrontBest t fmat

/-- algorithm.hpp:303-312 `elementwise_min`. -/
def elementwiseMin (l r : FVec K) : FVec K := List.zipWith min l r

/-- population.cpp:192-204 `findFrontNadirPoint`. -/
def findFrontNadirPoint : FMat K → FVec K
  | [] => []
  | p :: ps => ps.foldl elementwiseMin p

/-- population.cpp:176-190 `findNadirPoint`. -/
def findNadirPoint (t : Tol K) (ncols : Nat) (fmat : FMat K) : Option (FVec K) :=
  if fmat = [] then some [] else do
    let front ← findParetoFront t ncols fmat
    let rows ← front.mapM (fun i => fmat[i]?)
    match rows with
    | [] => none
    | p :: ps => return ps.foldl elementwiseMin p

end Gapp.Model
