import Verif.Model.Nsga2
import Verif.Model.Stats
import Mathlib.Order.WithBot
/-!
# Model of the hypervolume metrics

Source: `/repo/src/metrics/pop_stats.cpp:109-203`, `/repo/src/metrics/distribution_metrics.cpp:29-83`. The fitness values are finite numbers, without rounding; only the initial value of
the worst point of `AutoHypervolume` is infinite. The result of the unstable sort is an argument. A violated precondition or an access out of range is `none`.
-/

namespace Gapp.Model

section
variable {K : Type} [Field K] [LinearOrder K]

/-- population.cpp:47: The argument `sort`: the result of `argsort` with the lexicographic comparator of `findParetoFrontSort` on each matrix. -/
abbrev RowSort (K : Type) := List (List K) → List Nat

/-- pop_stats.cpp:131-134: the loop of `uniqueSortedParetoFront` over the optimal indices. -/
def appendUnique (fmat : List (List K)) : List Nat → List (List K) → Option (List (List K))
  | [], front => some front
  | idx :: rest, front => do
    let row ← fmat[idx]?
    appendUnique fmat rest (if front = [] ∨ front.getLast? ≠ some row then front ++ [row] else front)

/-- pop_stats.cpp:124-137 `uniqueSortedParetoFront`. -/
def uniqueSortedParetoFront (t : Tol K) (sort : RowSort K) (fmat : List (List K)) : Option (List (List K)) :=
  appendUnique fmat (findParetoFrontSort t (finRows fmat) (sort fmat)) []

/-- pop_stats.cpp:139-149 `limitSet`; `none` if the limit has less elements than a row. -/
def limitSet (fmat : List (List K)) (limit : List K) : Option (List (List K)) :=
  if ∀ r ∈ fmat, r.length ≤ limit.length then some (fmat.map (fun r => List.zipWith min r limit)) else none

/-- math.cpp:92-97 `volumeBetween`. -/
def volumeBetween (p1 p2 : List K) : Option K :=
  if p1.length = p2.length then some |(List.zipWith (· - ·) p1 p2).prod| else none

/-- pop_stats.cpp:151-157 `inclusiveHypervolume`. -/
def inclusiveHypervolume (point ref : List K) : Option K :=
  if point.length = ref.length ∧ (point.zip ref).all (fun p => decide (p.2 ≤ p.1)) then volumeBetween point ref else none

/-- pop_stats.cpp:159-165 `exclusiveHypervolume`; `hv` is the sequential `hypervolume`. -/
def exclusiveHypervolume (hv : List (List K) → Option K) (point : List K) (rest : List (List K)) (ref : List K) : Option K := do
  let inclusive ← inclusiveHypervolume point ref
  let limited ← limitSet rest point
  let restVolume ← hv limited
  return inclusive - restVolume

/-- pop_stats.cpp:190-195: the loop of the sequential `hypervolume`. -/
def hypervolumeLoop (hv : List (List K) → Option K) (ref : List K) : List (List K) → K → Option K
  | [], volume => some volume
  | point :: rest, volume => do
    let exclusive ← exclusiveHypervolume hv point rest ref
    hypervolumeLoop hv ref rest (volume + exclusive)

/-- pop_stats.cpp:186-198: the sequential `hypervolume`, with at most `fuel` nested calls. -/
def hypervolumeSeq (t : Tol K) (sort : RowSort K) : Nat → List (List K) → List K → Option K
  | 0, _, _ => none
  | fuel + 1, fmat, ref => do
    let front ← uniqueSortedParetoFront t sort fmat
    hypervolumeLoop (fun m => hypervolumeSeq t sort fuel m ref) ref front 0

/-- pop_stats.cpp:173-181: the iterations of the parallel loop in the order in which they add to the shared volume. -/
def hypervolumeParLoop (hv : List (List K) → Option K) (ref : List K) (front : List (List K)) : List Nat → K → Option K
  | [], volume => some volume
  | idx :: order, volume => do
    let point ← front[idx]?
    let exclusive ← exclusiveHypervolume hv point (front.drop (idx + 1)) ref
    hypervolumeParLoop hv ref front order (volume + exclusive)

/-- pop_stats.cpp:167-184, 200-203: the parallel `hypervolume`. `schedule n` is the order in which the `n` iterations execute their `fetch_add`: everything else that an iteration does
is local to it. -/
def hypervolume (t : Tol K) (sort : RowSort K) (schedule : Nat → List Nat) (fuel : Nat) (fmat : List (List K)) (ref : List K) : Option K := do
  let front ← uniqueSortedParetoFront t sort fmat
  hypervolumeParLoop (fun m => hypervolumeSeq t sort fuel m ref) ref front (schedule front.length) 0

/-! ## The metrics -/

/-- distribution_metrics.hpp:71-83: distribution_metrics.hpp: the members of `AutoHypervolume` and of its base. -/
structure AutoHypervolume (K : Type) where
  data : List K
  idealPoints : List (List K)
  worstPoint : List (WithTop K)
  deriving DecidableEq

/-- distribution_metrics.cpp:49-58 `AutoHypervolume::initialize`. -/
def autoHvInit (numObj : Nat) : AutoHypervolume K := ⟨[], [], List.replicate numObj ⊤⟩

/-- an argument of pop_stats.cpp:200: A point with finite coordinates. -/
def finitePoint : List (WithTop K) → Option (List K)
  | [] => some []
  | (x : K) :: xs => do
    let rest ← finitePoint xs
    return x :: rest
  | ⊤ :: _ => none

/-- distribution_metrics.cpp:72-78: the loop over the stored values, with the points that were current when they were stored. The arithmetic with infinities is left out: `none`. -/
def correctVolumes (prev cur : List (WithTop K)) : List K → List (List K) → Option (List K)
  | [], _ => some []
  | v :: vs, ideal :: ideals => do
    let p ← finitePoint prev
    let c ← finitePoint cur
    let oldVol ← volumeBetween ideal p
    let newVol ← volumeBetween ideal c
    let rest ← correctVolumes prev cur vs ideals
    return (v + (newVol - oldVol)) :: rest
  | _ :: _, [] => none

/-- distribution_metrics.cpp:60-83 `AutoHypervolume::update`; `hv` is `detail::hypervolume`. -/
def autoHvUpdate (hv : List (List K) → List K → Option K) (s : AutoHypervolume K) (fmat : List (List K)) : Option (AutoHypervolume K) := do
  let worst ← minFitness fmat
  let ideal ← maxFitness fmat
  let worstPoint ← elementwiseMin? s.worstPoint (worst.map WithTop.some)
  let data ← if worstPoint ≠ s.worstPoint then correctVolumes s.worstPoint worstPoint s.data s.idealPoints else some s.data
  let ref ← finitePoint worstPoint
  let v ← hv fmat ref
  return ⟨data ++ [v], s.idealPoints ++ [ideal], worstPoint⟩

/-- distribution_metrics.cpp:60: The updates of a run, one for each generation. -/
def autoHvRun (hv : List (List K) → List K → Option K) (numObj : Nat) (gens : List (List (List K))) : Option (AutoHypervolume K) :=
  gens.foldlM (autoHvUpdate hv) (autoHvInit numObj)

/-- distribution_metrics.cpp:33-47 `Hypervolume::initialize` and the updates of a run. -/
def hypervolumeRun (hv : List (List K) → List K → Option K) (ref : List K) (numObj : Nat) (gens : List (List (List K))) : Option (List K) :=
  if ref.length = numObj then gens.mapM (fun fmat => hv fmat ref) else none
end

end Gapp.Model
