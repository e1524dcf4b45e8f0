import Mathlib.Algebra.Order.Field.Basic
import Mathlib.Algebra.Order.Monoid.WithTop
import Verif.Model.Nsga2
import Verif.Model.Stats
/-!
# Model of NSGA-III

Source: `/repo/src/algorithm/nsga3.cpp`. The fitness values are finite numbers, without rounding. The result of `nonDominatedSort` (nd_sort.cpp) is an argument: a list of pairs of an
index and a rank. `sort lt l` is the result of `std::sort` on a list of indices. The reference lines are arbitrary: the generator is a function of the user (161-167). A violated
precondition or an access out of range is `none`. Infinities are `⊤` and `⊥`.
-/

namespace Gapp.Model

/-- nsga3.cpp:277: A result of `std::sort` for every comparator and every range of indices. -/
abbrev SortNat := (Nat → Nat → Bool) → List Nat → List Nat

/-- nsga3.cpp:77-82 `CandidateInfo`. -/
structure CandInfo (K : Type) where
  rank : Nat
  refIdx : Nat
  refDist : K
  deriving DecidableEq

/-- nsga3.cpp:84-92: the state of the algorithm. -/
structure Nsga3 (K : Type) where
  refLines : List (List K)
  info : List (CandInfo K)
  nicheCounts : List Nat
  ideal : List K
  nadir : List K
  extreme : List (List K)
  deriving DecidableEq

section
variable {K : Type} [Field K] [LinearOrder K]

/-- cone_tree.cpp:97, 112: `std::inner_product(a.begin(), a.end(), b.begin(), 0.0)` for ranges of the same size. -/
def innerProduct (a b : List K) : K := (List.zipWith (· * ·) a b).sum

/-- math.cpp:80-90 `perpendicularDistanceSq`. -/
def perpendicularDistanceSq (line point : List K) : Option K :=
  if line.length = point.length then
    let k := innerProduct line point / innerProduct line line
    some (List.zipWith (fun l p => (p - k * l) ^ 2) line point).sum
  else none

/-- nsga3.cpp:29-43 `ASF`. -/
def asf (ideal weights fitness : List K) : Option (WithBot K) :=
  if ideal ≠ [] ∧ weights.length = ideal.length ∧ fitness.length = weights.length then
    some ((ideal.zip (weights.zip fitness)).foldl (fun dmax p => max dmax (((p.1 - p.2.2) / p.2.1 : K) : WithBot K)) ⊥)
  else none

/-- nsga3.cpp:46-54 `weightVector`. -/
def weightVector (dimensions axis : Nat) : Option (List K) :=
  if axis < dimensions then some ((List.replicate dimensions (1 / 1000000)).set axis 1) else none

/-- nsga3.cpp:57-70 `normalizeFitnessVec`. -/
def normalizeFitnessVec (fvec ideal nadir : List K) : Option (List K) :=
  if fvec.length = ideal.length ∧ ideal.length = nadir.length then
    some (List.zipWith (fun f p => (p.1 - f) / (if p.1 - p.2 < 1 / 100000000 then 1 / 100000000 else p.1 - p.2)) fvec (ideal.zip nadir))
  else none

/-- nsga3.cpp:169-174 `updateIdealPoint`. -/
def updateIdealPoint (ideal : List K) (fmat : List (List K)) : Option (List K) := do
  let best ← maxFitness fmat
  elementwiseMax? ideal best

/-- nsga3.cpp:176-204 `updateExtremePoints`. -/
def updateExtremePoints (ideal : List K) (extreme fmat : List (List K)) : Option (List (List K)) :=
  (List.range ideal.length).mapM (fun dim => do
    let weights ← weightVector ideal.length dim
    let popDistances ← fmat.mapM (asf ideal weights)
    let extDistances ← extreme.mapM (asf ideal weights)
    let idx ← argmin false (popDistances ++ extDistances)
    if idx ≥ fmat.length then extreme[idx - fmat.length]? else fmat[idx]?)

/-- population.cpp:192-204 `findFrontNadirPoint`, for finite values. -/
def frontNadir (points : List (List K)) : Option (List K) := if points = [] then some [] else minFitness points

/-- nsga3.cpp:228-239: the closest reference line of a point and its distance. -/
def associateOne (refLines : List (List K)) (ideal nadir row : List K) : Option (Nat × K) := do
  let fnorm ← normalizeFitnessVec row ideal nadir
  let closest := maxElement (refLines.map (fun line => innerProduct fnorm line))
  let line ← refLines[closest]?
  let dist ← perpendicularDistanceSq line fnorm
  return (closest, dist)

/-- nsga3.cpp:227, 337, 354: `sol_info_.resize(n)`: new elements are zeros. -/
def resizeInfo (info : List (CandInfo K)) (n : Nat) : List (CandInfo K) := info.take n ++ List.replicate (n - info.length) ⟨0, 0, 0⟩

/-- nsga3.cpp:228-239: the body of the loop. Different iterations store to different elements, so their order does not matter. -/
def associateStep (refLines : List (List K)) (ideal nadir : List K) (fmat : List (List K)) (info : List (CandInfo K)) (sol : Nat × Nat) : Option (List (CandInfo K)) := do
  let row ← fmat[sol.1]?
  let (idx, dist) ← associateOne refLines ideal nadir row
  let old ← info[sol.1]?
  storeAt info sol.1 { old with refIdx := idx, refDist := dist }

/-- nsga3.cpp:218-240 `associatePopWithRefs` (and 206-210 `updateNadirPoint`). -/
def associatePopWithRefs (s : Nsga3 K) (fmat : List (List K)) (els : List (Nat × Nat)) : Option (Nsga3 K) :=
  if fmat.length > 0 ∧ s.refLines ≠ [] then do
    let ideal ← updateIdealPoint s.ideal fmat
    let extreme ← updateExtremePoints ideal s.extreme fmat
    let nadir ← frontNadir extreme
    let info ← els.foldlM (associateStep s.refLines ideal nadir fmat) (resizeInfo s.info fmat.length)
    return { s with ideal := ideal, extreme := extreme, nadir := nadir, info := info }
  else none

omit [Field K] [LinearOrder K] in
/-- nsga3.cpp:337-338 and 354-355: the ranks of the candidates are stored. -/
def storeRanks (info : List (CandInfo K)) (els : List (Nat × Nat)) : Option (List (CandInfo K)) :=
  els.foldlM (fun info sol => do
    let old ← info[sol.1]?
    storeAt info sol.1 { old with rank := sol.2 }) info

omit [Field K] [LinearOrder K] in
/-- nsga3.cpp:261-264 `refIndexOf`. -/
def refIndexOf (info : List (CandInfo K)) (sol : Nat × Nat) : Option Nat := (info[sol.1]?).map (·.refIdx)

omit [Field K] [LinearOrder K] in
/-- nsga3.cpp:212-216 `recalcNicheCounts`. -/
def recalcNicheCounts (info : List (CandInfo K)) (niche : List Nat) (els : List (Nat × Nat)) : Option (List Nat) :=
  els.foldlM (fun niche sol => do
    let ref ← refIndexOf info sol
    let old ← niche[ref]?
    storeAt niche ref (old + 1)) (List.replicate niche.length 0)

/-- nsga3.cpp:276: the comparator of the reference lines. -/
def nicheLess (niche : List Nat) (lhs rhs : Nat) : Bool := decide (niche.getD lhs 0 < niche.getD rhs 0)

omit [Field K] [LinearOrder K] in
/-- nsga3.cpp:271-280 `referenceSetOf`. -/
def referenceSetOf (sort : SortNat) (info : List (CandInfo K)) (niche : List Nat) (els : List (Nat × Nat)) : Option (List Nat) := do
  let refs ← els.mapM (refIndexOf info)
  return sort (nicheLess niche) (eraseDuplicates (sort (fun a b => decide (a < b)) refs))

/-- nsga3.cpp:282-288 `findClosestAssociated`: the position in `part`. -/
def findClosestAssociated (info : List (CandInfo K)) (part : List (Nat × Nat)) (ref : Nat) : Option Nat := do
  let keys ← part.mapM (fun sol => do
    let i ← info[sol.1]?
    return if i.refIdx = ref then (i.refDist : WithTop K) else ⊤)
  return minElement keys

omit [Field K] [LinearOrder K] in
/-- nsga3.cpp:290-298 `incrementNicheCount`. -/
def incrementNicheCount (niche refs : List Nat) (ref : Nat) : Option (List Nat × List Nat) := do
  let old ← niche[ref]?
  let niche := niche.set ref (old + 1)
  let current := stdFind (fun r => r == ref) refs
  if current = refs.length then none
  else do
    let firstEq := current + 1 + stdFind (fun idx => decide (niche.getD idx 0 ≥ niche.getD ref 0)) (refs.drop (current + 1))
    let refs ← swap? refs current (firstEq - 1)
    return (niche, refs)

/-- The variables of the niching loop (nsga3.cpp:344-389). -/
structure NicheState where
  niche : List Nat
  refs : List Nat
  els : List (Nat × Nat)

/-- nsga3.cpp:365-388: one iteration of the niching loop. The partial front is the range `[first, last)` of `els`; `pick n` is the offset drawn by `randomElement` from a range of `n`. -/
def nicheRound (info : List (CandInfo K)) (first last : Nat) (pick : Nat → Nat) (i : Nat) (s : NicheState) : Option NicheState := do
  let front ← s.refs.head?
  let minCount ← s.niche[front]?
  let lastMinimal := stdFind (fun idx => decide (s.niche.getD idx 0 ≠ minCount)) s.refs
  let ref ← (s.refs.take lastMinimal)[pick lastMinimal]?
  let (niche, refs) ← incrementNicheCount s.niche s.refs ref
  let count := s.els.countP (fun sol => refIndexOf info sol == some ref)
  let closest ← findClosestAssociated info ((s.els.take last).drop first) ref
  let els ← if first + i < last ∧ first + closest < last then swap? s.els (first + closest) (first + i) else none
  return ⟨niche, if count = 1 then (eraseFirstStable (fun r => r == ref) refs).2 else refs, els⟩

/-- nsga3.cpp:363-389: the niching loop with `rounds` iterations. -/
def nicheLoop (info : List (CandInfo K)) (first last : Nat) (pick : Nat → Nat → Nat) (rounds : Nat) (s : NicheState) : Option NicheState :=
  (List.range rounds).foldlM (fun s i => nicheRound info first last (pick i) i s) s

omit [Field K] [LinearOrder K] in
/-- nsga3.cpp:300-317 `createPopulation`. -/
def createPopulation (info : List (CandInfo K)) (els : List (Nat × Nat)) : Option (List Nat × List (CandInfo K)) := do
  let infos ← els.mapM (fun sol => info[sol.1]?)
  return (els.map (·.1), infos)

/-- nsga3.cpp:344-361: everything before the niching loop: the state, the bounds of the partial front and the variables of the loop. With a population as large as the pool
`partialFront` returns default constructed iterators, which are compared with and subtracted from iterators of the fronts: undefined. -/
def nsga3Prepare (sort : SortNat) (s : Nsga3 K) (fmat : List (List K)) (els : List (Nat × Nat)) (popSize : Nat) : Option (Nsga3 K × (Nat × Nat) × NicheState) := do
  let (first, last) ← partialFront els popSize
  if popSize = els.length then none
  else do
    let info ← storeRanks (resizeInfo s.info fmat.length) els
    let s ← associatePopWithRefs { s with info := info } fmat (els.take last)
    let niche ← recalcNicheCounts s.info s.nicheCounts (els.take first)
    let refs ← referenceSetOf sort s.info niche ((els.take last).drop first)
    return (s, (first, last), ⟨niche, refs, els⟩)

/-- nsga3.cpp:344-395 `nextPopulationImpl`: the selected indices, and the new state. -/
def nsga3Next (sort : SortNat) (pick : Nat → Nat → Nat) (s : Nsga3 K) (fmat : List (List K)) (els : List (Nat × Nat)) (popSize : Nat) : Option (List Nat × Nsga3 K) := do
  let (s, (first, last), loop) ← nsga3Prepare sort s fmat els popSize
  let loop ← nicheLoop s.info first last pick (popSize - first) loop
  let els ← frontsResize loop.els popSize
  let (sel, info) ← createPopulation s.info els
  return (sel, { s with nicheCounts := loop.niche, info := info })

/-- nsga3.cpp:322-342 `initializeImpl`; `refLines` are the normalized lines of the generator. The nadir point is that of an earlier run until it is overwritten (340); it is not read
before that. -/
def nsga3Init (refLines : List (List K)) (nadir : List K) (info : List (CandInfo K)) (niche : List Nat) (fmat : List (List K)) (els : List (Nat × Nat)) : Option (Nsga3 K) := do
  let ideal ← maxFitness fmat
  let niche := niche.take refLines.length ++ List.replicate (refLines.length - niche.length) 0
  let info ← storeRanks (resizeInfo info fmat.length) els
  let s ← associatePopWithRefs ⟨refLines, info, niche, ideal, nadir, []⟩ fmat els
  let niche ← recalcNicheCounts s.info s.nicheCounts els
  return { s with nicheCounts := niche }

/-- nsga3.cpp:242-259 `nichedCompare`; `coin` is the result of `randomBool`. -/
def nichedCompare (info : List (CandInfo K)) (coin : Bool) (lhs rhs : Nat) : Option Bool := do
  let left ← info[lhs]?
  let right ← info[rhs]?
  if left.refIdx = right.refIdx then
    if left.rank ≠ right.rank then return decide (left.rank < right.rank)
    else return decide (left.refDist < right.refDist)
  else return coin

/-- nsga3.cpp:397-405 `selectImpl`; the indices are the results of `randomIndex`. -/
def Nsga3.select (s : Nsga3 K) (coin : Bool) (idx1 idx2 : Nat) : Option Nat := do
  return if (← nichedCompare s.info coin idx1 idx2) then idx1 else idx2

omit [Field K] [LinearOrder K] in
/-- nsga3.cpp:407-410 `optimalSolutionsImpl`. -/
def Nsga3.optimal (s : Nsga3 K) : List Nat := findIndices (fun c => c.rank == 0) s.info
end

end Gapp.Model
