import Mathlib.Algebra.Order.Field.Basic
import Mathlib.Algebra.Order.Monoid.WithTop
import Verif.Model.Algorithm
import Verif.Model.NdSort
/-!
# Model of NSGA-II

Source: `/repo/src/algorithm/nsga2.cpp`. The fitness values are finite numbers, without rounding; a crowding distance is a finite number or the infinity `⊤`.
`sort lt l` is the result of `std::sort` on `l` with the comparator `lt`. The result of `nonDominatedSort` (nd_sort.cpp) is an argument: a list of pairs of an
index and a rank. A violated precondition or an access out of range is `none`.
-/

namespace Gapp.Model

/-- nsga2.cpp:37, 97: A result of `std::sort` for every comparator and every range. -/
abbrev SortFn := ((Nat × Nat) → (Nat × Nat) → Bool) → List (Nat × Nat) → List (Nat × Nat)

section
variable {K : Type} [Field K] [LinearOrder K]

/-- the matrix of nsga2.cpp:24, 72: The fitness matrix as a matrix of floating point numbers. -/
def finRows (fmat : List (List K)) : FMat K := fmat.map (fun r => r.map Flt.fin)

/-- nsga2.cpp:47-54: A store to `v[i]`. -/
def storeAt {α : Type} (v : List α) (i : Nat) (x : α) : Option (List α) := if i < v.length then some (v.set i x) else none

/-- nsga2.cpp:41-55: the distances of one (sorted) front in one objective; `fvec` is the column of the objective, `eps` is `1E-8`. -/
def crowdFront (eps : K) (fvec : List K) (front : List (Nat × Nat)) (dists : List (WithTop K)) : Option (List (WithTop K)) := do
  let first ← front.head?
  let last ← front.getLast?
  let flast ← fvec[last.1]?
  let ffirst ← fvec[first.1]?
  let finterval := if flast - ffirst < eps then eps else flast - ffirst
  let dists ← storeAt dists first.1 ⊤
  let dists ← storeAt dists last.1 ⊤
  (List.range' 1 (front.length - 2)).foldlM (fun dists it => do
    let next ← front[it + 1]?
    let prev ← front[it - 1]?
    let cur ← front[it]?
    let fnext ← fvec[next.1]?
    let fprev ← fvec[prev.1]?
    let old ← dists[cur.1]?
    storeAt dists cur.1 (old + (((fnext - fprev) / finterval : K) : WithTop K))) dists

/-- nsga2.cpp:36-39: the comparator. -/
def objectiveLess (fvec : List K) (lhs rhs : Nat × Nat) : Bool := decide (fvec.getD lhs.1 0 < fvec.getD rhs.1 0)

/-- nsga2.cpp:34-56: one objective. The fronts are sorted in place; the result has the sorted fronts and the distances. -/
def crowdObjective (sort : SortFn) (eps : K) (fvec : List K) : List (List (Nat × Nat)) → List (WithTop K) → Option (List (List (Nat × Nat)) × List (WithTop K))
  | [], dists => some ([], dists)
  | front :: rest, dists => do
    let front := sort (objectiveLess fvec) front
    let dists ← crowdFront eps fvec front dists
    let (rest, dists) ← crowdObjective sort eps fvec rest dists
    return (front :: rest, dists)

/-- nsga2.cpp:23-60 `crowdingDistances`; `ncols` is the number of objectives. -/
def crowdingDistances (sort : SortFn) (eps : K) (ncols : Nat) (fmat : List (List K)) (fronts : List (List (Nat × Nat))) :
    Option (List (List (Nat × Nat)) × List (WithTop K)) :=
  (List.range ncols).foldlM (fun (s : List (List (Nat × Nat)) × List (WithTop K)) obj => do
    let fvec ← fmat.mapM (fun r => r[obj]?)
    crowdObjective sort eps fvec s.1 s.2) (fronts, List.replicate fmat.length 0)

/-- nsga2.hpp:46-47: The state of the algorithm. -/
structure Nsga2 (K : Type) where
  ranks : List Nat
  dists : List (WithTop K)

/-- nsga2.cpp:62-70 `initializeImpl`. -/
def Nsga2.init (sort : SortFn) (eps : K) (ncols : Nat) (fmat : List (List K)) (els : List (Nat × Nat)) : Option (Nsga2 K) := do
  let ranks ← frontsRanks els
  let fronts ← frontsList els
  let (_, dists) ← crowdingDistances sort eps ncols fmat fronts
  return ⟨ranks, dists⟩

/-- nsga2.cpp:72-84 `selectImpl`; the indices are the results of `randomIndex`. -/
def Nsga2.select (s : Nsga2 K) (idx1 idx2 : Nat) : Option Nat := do
  let r1 ← s.ranks[idx1]?
  let r2 ← s.ranks[idx2]?
  if r1 < r2 then return idx1
  if r1 > r2 then return idx2
  let d1 ← s.dists[idx1]?
  let d2 ← s.dists[idx2]?
  if d1 > d2 then return idx1
  return idx2

/-- nsga2.cpp:97-100: the comparator of the sort of the partial front. -/
def distGreater (dists : List (WithTop K)) (lhs rhs : Nat × Nat) : Bool := decide (dists.getD lhs.1 0 > dists.getD rhs.1 0)

/-- nsga2.cpp:93-100: the split front is sorted by its crowding distances. -/
def sortPartialFront (sort : SortFn) (eps : K) (ncols : Nat) (fmat : List (List K)) (els : List (Nat × Nat)) (popSize : Nat) : Option (List (Nat × Nat)) := do
  let (first, last) ← partialFront els popSize
  if first = last then return els
  else
    let (fronts, dists) ← crowdingDistances sort eps ncols fmat [(els.take last).drop first]
    let part ← fronts.head?
    return els.take first ++ sort (distGreater dists) part ++ els.drop last

/-- nsga2.cpp:86-114 `nextPopulationImpl`: the selected indices, and the new state. -/
def nsga2Next (sort : SortFn) (eps : K) (ncols : Nat) (fmat : List (List K)) (els : List (Nat × Nat)) (popSize : Nat) : Option (List Nat × Nsga2 K) := do
  let els ← sortPartialFront sort eps ncols fmat els popSize
  let els ← frontsResize els popSize
  let fronts ← frontsList els
  let (fronts, dists) ← crowdingDistances sort eps ncols fmat fronts
  let dists := dists.take popSize
  let els := fronts.flatten
  return (els.map (·.1), ⟨els.map (·.2), dists⟩)

/-- nsga2.cpp:116-119 `optimalSolutionsImpl`. -/
def Nsga2.optimal (s : Nsga2 K) : List Nat := findIndices (fun r => r == 0) s.ranks
end

end Gapp.Model
