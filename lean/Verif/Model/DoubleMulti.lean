import Verif.Model.DoubleSelect
import Verif.Model.Nsga3
/-!
# Tournament selection, NSGA-II and NSGA-III in binary64 arithmetic

Source: `/repo/src/algorithm/soga_selection.cpp:63-76`, `/repo/src/algorithm/nsga2.cpp`, `/repo/src/algorithm/nsga3.cpp`, `/repo/src/utility/math.cpp:80-90`. The fitness values are values of the type `double`: rounded numbers, infinities, NaN.
The result of `nonDominatedSort` is an argument. The compiler may replace a division by the product with the reciprocal (`recip`) and evaluate `a * b + c` with one rounding (`fused`).
`sort lt l` is the result of `std::sort`. A violated precondition or an access out of range is `none`.
-/

namespace Gapp.Model
open Dbl

/-- the constant of nsga2.cpp:44 and nsga3.cpp:66: `1E-8`, rounded. -/
def eps8D : Dbl := roundD (1 / 100000000)

/-- the constant of nsga3.cpp:50: `1E-6`, rounded. -/
def eps6D : Dbl := roundD (1 / 1000000)

/-! ## Tournament -/

/-- soga_selection.cpp:63-76 `Tournament::selectImpl`; `draws` are the results of `randomIndex`. -/
def tournamentSelectD (size : Nat) (fvec : List Dbl) (draws : List Nat) : Option Nat :=
  if fvec.length ≥ size ∧ draws.length = size then do
    let vals ← draws.mapM (fun i => fvec[i]?)
    draws[maxElement vals]?
  else none

/-! ## NSGA-II -/

/-- nsga2.cpp:41-55: the distances of one (sorted) front in one objective; `fvec` is the column of the objective. -/
def crowdFrontD (recip : Bool) (fvec : List Dbl) (front : List (Nat × Nat)) (dists : List Dbl) : Option (List Dbl) := do
  let first ← front.head?
  let last ← front.getLast?
  let flast ← fvec[last.1]?
  let ffirst ← fvec[first.1]?
  let finterval := Dbl.max (sub flast ffirst) eps8D
  let dists ← storeAt dists first.1 pinf
  let dists ← storeAt dists last.1 pinf
  (List.range' 1 (front.length - 2)).foldlM (fun dists it => do
    let next ← front[it + 1]?
    let prev ← front[it - 1]?
    let cur ← front[it]?
    let fnext ← fvec[next.1]?
    let fprev ← fvec[prev.1]?
    let old ← dists[cur.1]?
    storeAt dists cur.1 (add old (divR recip (sub fnext fprev) finterval))) dists

/-- nsga2.cpp:36-39: the comparator. -/
def objectiveLessD (fvec : List Dbl) (lhs rhs : Nat × Nat) : Bool := Dbl.lt (fvec.getD lhs.1 (.fin 0)) (fvec.getD rhs.1 (.fin 0))

/-- nsga2.cpp:34-56: one objective. -/
def crowdObjectiveD (sort : SortFn) (recip : Bool) (fvec : List Dbl) : List (List (Nat × Nat)) → List Dbl → Option (List (List (Nat × Nat)) × List Dbl)
  | [], dists => some ([], dists)
  | front :: rest, dists => do
    let front := sort (objectiveLessD fvec) front
    let dists ← crowdFrontD recip fvec front dists
    let (rest, dists) ← crowdObjectiveD sort recip fvec rest dists
    return (front :: rest, dists)

/-- nsga2.cpp:23-60 `crowdingDistances`; `ncols` is the number of objectives. -/
def crowdingDistancesD (sort : SortFn) (recip : Bool) (ncols : Nat) (fmat : List (List Dbl)) (fronts : List (List (Nat × Nat))) :
    Option (List (List (Nat × Nat)) × List Dbl) :=
  (List.range ncols).foldlM (fun (s : List (List (Nat × Nat)) × List Dbl) obj => do
    let fvec ← fmat.mapM (fun r => r[obj]?)
    crowdObjectiveD sort recip fvec s.1 s.2) (fronts, List.replicate fmat.length (.fin 0))

/-- nsga2.hpp:46-47: The state of the algorithm. -/
structure Nsga2D where
  ranks : List Nat
  dists : List Dbl

/-- nsga2.cpp:97-100: the comparator of the sort of the partial front. -/
def distGreaterD (dists : List Dbl) (lhs rhs : Nat × Nat) : Bool := Dbl.lt (dists.getD rhs.1 (.fin 0)) (dists.getD lhs.1 (.fin 0))

/-- nsga2.cpp:93-100: the split front is sorted by its crowding distances. -/
def sortPartialFrontD (sort : SortFn) (recip : Bool) (ncols : Nat) (fmat : List (List Dbl)) (els : List (Nat × Nat)) (popSize : Nat) : Option (List (Nat × Nat)) := do
  let (first, last) ← partialFront els popSize
  if first = last then return els
  else
    let (fronts, dists) ← crowdingDistancesD sort recip ncols fmat [(els.take last).drop first]
    let part ← fronts.head?
    return els.take first ++ sort (distGreaterD dists) part ++ els.drop last

/-- nsga2.cpp:86-114 `nextPopulationImpl`: the selected indices, and the new state. -/
def nsga2NextD (sort : SortFn) (recip : Bool) (ncols : Nat) (fmat : List (List Dbl)) (els : List (Nat × Nat)) (popSize : Nat) : Option (List Nat × Nsga2D) := do
  let els ← sortPartialFrontD sort recip ncols fmat els popSize
  let els ← frontsResize els popSize
  let fronts ← frontsList els
  let (fronts, dists) ← crowdingDistancesD sort recip ncols fmat fronts
  let dists := dists.take popSize
  let els := fronts.flatten
  return (els.map (·.1), ⟨els.map (·.2), dists⟩)

/-! ## NSGA-III -/

/-- nsga3.cpp:232 and math.cpp:84-85: `std::inner_product(a.begin(), a.end(), b.begin(), 0.0)`. -/
def innerProductD (fused : Bool) (a b : List Dbl) : Dbl := (a.zip b).foldl (fun acc p => mulAdd fused p.1 p.2 acc) (.fin 0)

/-- math.cpp:80-90 `perpendicularDistanceSq`; `sum` is the sum of `std::transform_reduce`, `std::pow(x, 2)` is `x * x`. -/
def perpendicularDistanceSqD (fused : Bool) (sum : List Dbl → Dbl) (line point : List Dbl) : Option Dbl :=
  if line.length = point.length then
    let k := div (innerProductD fused line point) (innerProductD fused line line)
    some (sum (List.zipWith (fun l p => mul (mulAdd fused (neg k) l p) (mulAdd fused (neg k) l p)) line point))
  else none

/-- nsga3.cpp:29-43 `ASF`. -/
def asfD (recip : Bool) (ideal weights fitness : List Dbl) : Option Dbl :=
  if ideal ≠ [] ∧ weights.length = ideal.length ∧ fitness.length = weights.length then
    some ((ideal.zip (weights.zip fitness)).foldl (fun dmax p => Dbl.max dmax (divR recip (sub p.1 p.2.2) p.2.1)) ninf)
  else none

/-- nsga3.cpp:46-54 `weightVector`. -/
def weightVectorD (dimensions axis : Nat) : Option (List Dbl) :=
  if axis < dimensions then some ((List.replicate dimensions eps6D).set axis (.fin 1)) else none

/-- nsga3.cpp:57-70 `normalizeFitnessVec`. -/
def normalizeFitnessVecD (recip : Bool) (fvec ideal nadir : List Dbl) : Option (List Dbl) :=
  if fvec.length = ideal.length ∧ ideal.length = nadir.length then
    some (List.zipWith (fun f p => divR recip (sub p.1 f) (Dbl.max (sub p.1 p.2) eps8D)) fvec (ideal.zip nadir))
  else none

/-- algorithm.hpp:303-312 `elementwise_min`. -/
def elementwiseMinD (left right : List Dbl) : Option (List Dbl) := if left.length = right.length then some (List.zipWith Dbl.min left right) else none

/-- algorithm.hpp:314-323 `elementwise_max`. -/
def elementwiseMaxD (left right : List Dbl) : Option (List Dbl) := if left.length = right.length then some (List.zipWith Dbl.max left right) else none

/-- pop_stats.cpp:36-48 `maxFitness`. -/
def maxFitnessD : List (List Dbl) → Option (List Dbl)
  | [] => none
  | first :: rest => rest.foldlM elementwiseMaxD first

/-- population.cpp:192-204 `findFrontNadirPoint`. -/
def frontNadirD : List (List Dbl) → Option (List Dbl)
  | [] => some []
  | first :: rest => rest.foldlM elementwiseMinD first

/-- nsga3.cpp:176-204 `updateExtremePoints`. -/
def updateExtremePointsD (recip : Bool) (ideal : List Dbl) (extreme fmat : List (List Dbl)) : Option (List (List Dbl)) :=
  (List.range ideal.length).mapM (fun dim => do
    let weights ← weightVectorD ideal.length dim
    let popDistances ← fmat.mapM (asfD recip ideal weights)
    let extDistances ← extreme.mapM (asfD recip ideal weights)
    let idx ← argmin false (popDistances ++ extDistances)
    if idx ≥ fmat.length then extreme[idx - fmat.length]? else fmat[idx]?)

/-- used for nsga3.cpp:57-70, 84-90, 228-239: the choices of the compiler and the sum of `std::transform_reduce`. -/
structure MultiFlags where
  recip : Bool
  fused : Bool
  sum : List Dbl → Dbl

/-- nsga3.cpp:228-239: the closest reference line of a point and its distance. -/
def associateOneD (fl : MultiFlags) (refLines : List (List Dbl)) (ideal nadir row : List Dbl) : Option (Nat × Dbl) := do
  let fnorm ← normalizeFitnessVecD fl.recip row ideal nadir
  let closest := maxElement (refLines.map (fun line => innerProductD fl.fused fnorm line))
  let line ← refLines[closest]?
  let dist ← perpendicularDistanceSqD fl.fused fl.sum line fnorm
  return (closest, dist)

/-- nsga3.cpp:227, 337, 354: `sol_info_.resize(n)`: new elements are zeros. -/
def resizeInfoD (info : List (CandInfo Dbl)) (n : Nat) : List (CandInfo Dbl) := info.take n ++ List.replicate (n - info.length) ⟨0, 0, .fin 0⟩

/-- nsga3.cpp:228-239: the body of the loop. -/
def associateStepD (fl : MultiFlags) (refLines : List (List Dbl)) (ideal nadir : List Dbl) (fmat : List (List Dbl)) (info : List (CandInfo Dbl)) (sol : Nat × Nat) : Option (List (CandInfo Dbl)) := do
  let row ← fmat[sol.1]?
  let (idx, dist) ← associateOneD fl refLines ideal nadir row
  let old ← info[sol.1]?
  storeAt info sol.1 { old with refIdx := idx, refDist := dist }

/-- nsga3.cpp:218-240 `associatePopWithRefs` (169-174 `updateIdealPoint`, 206-210 `updateNadirPoint`). -/
def associatePopWithRefsD (fl : MultiFlags) (s : Nsga3 Dbl) (fmat : List (List Dbl)) (els : List (Nat × Nat)) : Option (Nsga3 Dbl) :=
  if fmat.length > 0 ∧ s.refLines ≠ [] then do
    let best ← maxFitnessD fmat
    let ideal ← elementwiseMaxD s.ideal best
    let extreme ← updateExtremePointsD fl.recip ideal s.extreme fmat
    let nadir ← frontNadirD extreme
    let info ← els.foldlM (associateStepD fl s.refLines ideal nadir fmat) (resizeInfoD s.info fmat.length)
    return { s with ideal := ideal, extreme := extreme, nadir := nadir, info := info }
  else none

/-- nsga3.cpp:282-288 `findClosestAssociated`: the position in `part`. -/
def findClosestAssociatedD (info : List (CandInfo Dbl)) (part : List (Nat × Nat)) (ref : Nat) : Option Nat := do
  let keys ← part.mapM (fun sol => do
    let i ← info[sol.1]?
    return if i.refIdx = ref then i.refDist else pinf)
  return minElement keys

/-- nsga3.cpp:365-388: one iteration of the niching loop, as `nicheRound`. -/
def nicheRoundD (info : List (CandInfo Dbl)) (first last : Nat) (pick : Nat → Nat) (i : Nat) (s : NicheState) : Option NicheState := do
  let front ← s.refs.head?
  let minCount ← s.niche[front]?
  let lastMinimal := stdFind (fun idx => decide (s.niche.getD idx 0 ≠ minCount)) s.refs
  let ref ← (s.refs.take lastMinimal)[pick lastMinimal]?
  let (niche, refs) ← incrementNicheCount s.niche s.refs ref
  let count := s.els.countP (fun sol => refIndexOf info sol == some ref)
  let closest ← findClosestAssociatedD info ((s.els.take last).drop first) ref
  let els ← if first + i < last ∧ first + closest < last then swap? s.els (first + closest) (first + i) else none
  return ⟨niche, if count = 1 then (eraseFirstStable (fun r => r == ref) refs).2 else refs, els⟩

/-- nsga3.cpp:363-389: the niching loop with `rounds` iterations. -/
def nicheLoopD (info : List (CandInfo Dbl)) (first last : Nat) (pick : Nat → Nat → Nat) (rounds : Nat) (s : NicheState) : Option NicheState :=
  (List.range rounds).foldlM (fun s i => nicheRoundD info first last (pick i) i s) s

/-- nsga3.cpp:344-361: everything before the niching loop, as `nsga3Prepare`. -/
def nsga3PrepareD (fl : MultiFlags) (sort : SortNat) (s : Nsga3 Dbl) (fmat : List (List Dbl)) (els : List (Nat × Nat)) (popSize : Nat) : Option (Nsga3 Dbl × (Nat × Nat) × NicheState) := do
  let (first, last) ← partialFront els popSize
  if popSize = els.length then none
  else do
    let info ← storeRanks (resizeInfoD s.info fmat.length) els
    let s ← associatePopWithRefsD fl { s with info := info } fmat (els.take last)
    let niche ← recalcNicheCounts s.info s.nicheCounts (els.take first)
    let refs ← referenceSetOf sort s.info niche ((els.take last).drop first)
    return (s, (first, last), ⟨niche, refs, els⟩)

/-- nsga3.cpp:344-395 `nextPopulationImpl`: the selected indices, and the new state. -/
def nsga3NextD (fl : MultiFlags) (sort : SortNat) (pick : Nat → Nat → Nat) (s : Nsga3 Dbl) (fmat : List (List Dbl)) (els : List (Nat × Nat)) (popSize : Nat) : Option (List Nat × Nsga3 Dbl) := do
  let (s, (first, last), loop) ← nsga3PrepareD fl sort s fmat els popSize
  let loop ← nicheLoopD s.info first last pick (popSize - first) loop
  let els ← frontsResize loop.els popSize
  let (sel, info) ← createPopulation s.info els
  return (sel, { s with nicheCounts := loop.niche, info := info })

/-- nsga3.cpp:322-342 `initializeImpl`, as `nsga3Init`. -/
def nsga3InitD (fl : MultiFlags) (refLines : List (List Dbl)) (nadir : List Dbl) (info : List (CandInfo Dbl)) (niche : List Nat) (fmat : List (List Dbl)) (els : List (Nat × Nat)) : Option (Nsga3 Dbl) := do
  let ideal ← maxFitnessD fmat
  let niche := niche.take refLines.length ++ List.replicate (refLines.length - niche.length) 0
  let info ← storeRanks (resizeInfoD info fmat.length) els
  let s ← associatePopWithRefsD fl ⟨refLines, info, niche, ideal, nadir, []⟩ fmat els
  let niche ← recalcNicheCounts s.info s.nicheCounts els
  return { s with nicheCounts := niche }

/-- nsga3.cpp:242-259, 397-405 `nichedCompare` and `selectImpl`; the indices are the results of `randomIndex`, `coin` is the result of `randomBool`. -/
def nsga3SelectD (s : Nsga3 Dbl) (coin : Bool) (idx1 idx2 : Nat) : Option Nat := do
  let left ← s.info[idx1]?
  let right ← s.info[idx2]?
  let better := if left.refIdx = right.refIdx then (if left.rank ≠ right.rank then decide (left.rank < right.rank) else Dbl.lt left.refDist right.refDist) else coin
  return if better then idx1 else idx2

end Gapp.Model
