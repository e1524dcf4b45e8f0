import Verif.Model.Operators
import Verif.Model.FifoCache
import Verif.Model.Algorithm
import Verif.Model.ParetoFront
import Verif.Model.MergePareto
/-!
# The generational loop

Source: `/repo/src/core/ga_base.impl.hpp:315-579`, `/repo/src/algorithm/algorithm_base.impl.hpp:20-65`, `/repo/src/core/population.hpp:83-95`,
`/repo/src/metrics/fitness_metrics.cpp`, `misc_metrics.cpp:11-23`, `metric_set.cpp`.

The parts that are supplied by the user or that depend on random numbers (operators, the algorithm, the stop condition, the schedules of the parallel loops) are arbitrary functions of
the number of the generation and of the position of the call in it, see `GaEnv`. A failed assertion, an access out of range, and the use of a candidate that has been
moved from are `none`. The assertions about the lengths of chromosomes and fitness vectors, which are about user supplied functions, are left out. Callbacks get a constant
reference to the algorithm and are left out here, see `Model/Callback.lean`.
-/

namespace Gapp.Model

/-- A metric computed from the fitness matrix (fitness_metrics.cpp:9-37): `compute` gives the row that `update` appends. -/
structure Monitor (F V : Type) where
  compute : List F → V
  data : List V

/-- monitor.hpp:55: fitness_metrics.hpp: `initialize` of these metrics clears the data. -/
def Monitor.init {F V : Type} (m : Monitor F V) : Monitor F V := { m with data := [] }
/-- fitness_metrics.cpp:9-37 `update`. -/
def Monitor.update {F V : Type} (m : Monitor F V) (fmat : List F) : Monitor F V := { m with data := m.data ++ [m.compute fmat] }

/-- misc_metrics.hpp:13: misc_metrics.hpp `FitnessEvaluations`. -/
structure EvalsMonitor where
  sum : Nat
  data : List Nat

/-- misc_metrics.cpp:11-16. -/
def EvalsMonitor.init (_ : EvalsMonitor) : EvalsMonitor := { sum := 0, data := [] }
/-- misc_metrics.cpp:18-23. -/
def EvalsMonitor.update (m : EvalsMonitor) (evals : Nat) : EvalsMonitor := { sum := evals, data := m.data ++ [evals - m.sum] }

/-- ga_base.decl.hpp:584-589, ga_info.hpp:353-359: The state of the genetic algorithm during a run. `calls` is a record of the arguments of the calls of the fitness function. -/
structure GaState (G F A V : Type) where
  pop : List (Cand G F)
  fmat : List F
  sols : List (Cand G F)
  cache : FifoCache (List G) F
  evals : Nat
  calls : List (List G)
  gen : Nat
  alg : A
  stats : List (Monitor F V)
  evalsMon : EvalsMonitor

/-- ga_base.decl.hpp:584-589, ga_info.hpp:353-359: The settings of a run, and everything that is not determined by this code. The first argument of a random outcome is the generation, the second one is the number of the call in it. -/
structure GaEnv (G K A S V : Type) where
  popSize : Nat
  cachedGens : Nat
  dynamic : Bool
  keepAll : Bool
  maxGen : Nat
  tol : Tol K
  fitness : List G → FVec K
  numObj : Nat
  /-- `operator==` of the candidates -/
  eq : List G → List G → Bool
  repair : Option (List G → List G)
  /-- `generateCandidate`, the results of the successive calls -/
  generate : Nat → List G
  crossRate : K
  crossDraw : Nat → Nat → K
  crossMethod : Nat → Nat → Cand G (FVec K) → Cand G (FVec K) → Cand G (FVec K) × Cand G (FVec K)
  mutate : Nat → Nat → Cand G (FVec K) → List G
  algInit : List (FVec K) → A
  algPrepare : A → List (FVec K) → A
  algSelect : A → List (FVec K) → Nat → Nat → Nat
  algNext : A → List (FVec K) → Nat → List Nat × A
  algOptimal : A → List Nat
  stopInit : GaState G (FVec K) A V → S
  /-- the virtual function `stop_condition` -/
  stop : S → GaState G (FVec K) A V → S × Bool
  /-- `std::sort` by chromosome -/
  sortSols : List (Cand G (FVec K)) → List (Cand G (FVec K))
  evalSched : Nat → List Nat
  mergeSched : Nat → Nat → Nat → List Nat
  /-- the number of surplus buckets of the hash table -/
  cacheExtra : Nat

section
variable {G K A S V : Type} [DecidableEq G] [CommRing K] [LinearOrder K]

/-! ## Evaluation -/

/-- ga_base.impl.hpp:339, 524-529: The state of the parallel loops of the lines 339 and 524-529: the candidates, the step each task is at, and the shared data. -/
structure EvalState (G F : Type) where
  cands : Nat → Cand G F
  pc : Nat → Nat
  evals : Nat
  calls : List (List G)
  failed : Bool

/-- ga_base.impl.hpp:455-485 `evaluate`: one step of task `i`. Step 0: the tests and the lookup in the cache (which nobody modifies during the loop), step 1: the atomic increment of
the counter, step 2: the call of the fitness function. -/
def evalStep (env : GaEnv G K A S V) (cache : FifoCache (List G) (FVec K)) (n : Nat) (st : EvalState G (FVec K)) (i : Nat) : EvalState G (FVec K) :=
  if i < n then
    let c := st.cands i
    match st.pc i with
    | 0 =>
      if !env.dynamic && c.evaluated then { st with pc := upd st.pc i 3 }
      else if env.cachedGens ≠ 0 then
        if env.dynamic then { st with failed := true }
        else match cache.get c.chrom with
          | some v => { st with cands := upd st.cands i { c with fitness := v, evaluated := true }, pc := upd st.pc i 3 }
          | none => { st with pc := upd st.pc i 1 }
      else { st with pc := upd st.pc i 1 }
    | 1 => { st with evals := st.evals + 1, pc := upd st.pc i 2 }
    | 2 => { st with
        cands := upd st.cands i { c with fitness := env.fitness c.chrom, evaluated := true }
        calls := st.calls ++ [c.chrom]
        pc := upd st.pc i 3 }
    | _ => st
  else st

/-- candidate.hpp:125: A candidate that has no value yet. -/
def emptyCand {G F : Type} : Cand G (List F) := ⟨[], [], false⟩

/-- ga_base.impl.hpp:339, 524-529: Evaluating all the candidates of a list in parallel, in the order of steps `sched`. `none` if the schedule does not finish the loop, or an assertion fails. -/
def evalAll (env : GaEnv G K A S V) (cache : FifoCache (List G) (FVec K)) (cands : List (Cand G (FVec K))) (evals : Nat) (calls : List (List G)) (sched : List Nat) :
    Option (List (Cand G (FVec K)) × Nat × List (List G)) :=
  let st := sched.foldl (evalStep env cache cands.length) ⟨fun i => cands.getD i emptyCand, fun _ => 0, evals, calls, false⟩
  if (∀ i, i < cands.length → st.pc i = 3) ∧ st.failed = false then some ((List.range cands.length).map st.cands, st.evals, st.calls) else none

/-! ## The initial population -/

/-- ga_base.impl.hpp:372-376: the loop that fills the population; `k` is the number of the call of `generateCandidate`. -/
def fillPopulation (env : GaEnv G K A S V) : Nat → Nat → List (Cand G (FVec K)) → List (Cand G (FVec K))
  | 0, _, pop => pop
  | missing + 1, k, pop => fillPopulation env missing (k + 1) (pop ++ [⟨env.generate k, [], false⟩])

/-- ga_base.impl.hpp:362-379 `generatePopulation`; the calls of `generateCandidate` are numbered from 1, because the call number 0 is in `findNumberOfObjectives`. -/
def generatePopulation (env : GaEnv G K A S V) (initial : List (Cand G (FVec K))) : List (Cand G (FVec K)) :=
  let npreset := min env.popSize initial.length
  fillPopulation env (env.popSize - npreset) 1 (initial.take npreset)

/-- population.hpp:83-95 `findParetoFront` of a population. -/
def popParetoFront (env : GaEnv G K A S V) (pop : List (Cand G (FVec K))) : Option (List (Cand G (FVec K))) := do
  selectCopy pop (← findParetoFront env.tol env.numObj (pop.map (·.fitness)))

/-- metric_set.cpp:9-23, for one update. -/
def updateMetrics {F V : Type} (st : GaState G F A V) : GaState G F A V :=
  { st with stats := st.stats.map (fun m => m.update st.fmat), evalsMon := st.evalsMon.update st.evals }

/-- ga_base.impl.hpp:341: the optimal solutions of the first population. -/
def initialSols (env : GaEnv G K A S V) (pop : List (Cand G (FVec K))) : Option (List (Cand G (FVec K))) :=
  if env.keepAll then popParetoFront env pop else some []

/-- ga_base.impl.hpp:314-360 `initializeAlgorithm`. `prev` is the state left by earlier runs. The line 336 calls the fitness function directly. -/
def gaInit (env : GaEnv G K A S V) (prev : GaState G (FVec K) A V) (initial : List (Cand G (FVec K))) : Option (GaState G (FVec K) A V) := do
  let cache ← prev.cache.reset ((if env.dynamic then 0 else 1) * env.cachedGens * env.popSize) env.cacheExtra
  let calls := [env.generate 0]
  let pop := generatePopulation env initial
  let (pop, evals, calls) ← evalAll env cache pop 0 calls (env.evalSched 0)
  let fmat := pop.map (·.fitness)
  let sols ← initialSols env pop
  return updateMetrics
    { pop, fmat, sols, cache, evals, calls, gen := 0, alg := env.algInit fmat,
      stats := prev.stats.map Monitor.init, evalsMon := prev.evalsMon.init }

/-! ## One generation -/

/-- ga_base.impl.hpp:518-519: A store to `v[i]`. -/
def assignAt {α : Type} (v : List α) (i : Nat) (x : α) : Option (List α) := if i < v.length then some (v.set i x) else none

/-- ga_base.impl.hpp:391-405, algorithm_base.impl.hpp:20-30: `crossover(select(), select())` for the pair number `k`. -/
def makePair (env : GaEnv G K A S V) (st : GaState G (FVec K) A V) (alg : A) (k : Nat) : Option (Cand G (FVec K) × Cand G (FVec K)) := do
  let p1 ← st.pop[env.algSelect alg st.fmat (st.gen + 1) (2 * k)]?
  let p2 ← st.pop[env.algSelect alg st.fmat (st.gen + 1) (2 * k + 1)]?
  return crossoverOp env.eq env.crossRate (env.crossDraw (st.gen + 1) k) (env.crossMethod (st.gen + 1) k) p1 p2

/-- ga_base.impl.hpp:512-522: the children. The iterations of the parallel loop write to different elements and read nothing that another one writes. -/
def makeChildren (env : GaEnv G K A S V) (st : GaState G (FVec K) A V) (alg : A) : Option (List (Cand G (FVec K))) := do
  let children := List.replicate env.popSize emptyCand
  let children ← (List.range (env.popSize / 2)).foldlM (fun children i => do
    let pair ← makePair env st alg i
    let children ← assignAt children (2 * i) pair.1
    assignAt children (2 * i + 1) pair.2) children
  if env.popSize % 2 ≠ 0 then
    let pair ← makePair env st alg (env.popSize / 2)
    assignAt children (children.length - 1) pair.1
  else return children

/-- algorithm_base.impl.hpp:33-48 `nextPopulation`. -/
def nextPopulation (env : GaEnv G K A S V) (alg : A) (gen : Nat) (parents children : List (Cand G (FVec K))) : Option (List (Cand G (FVec K)) × A) := do
  let all := parents ++ children
  let r := env.algNext alg (all.map (·.fitness)) gen
  let moved ← selectMove (all.map some) r.1
  return (← moved.mapM id, r.2)

/-- algorithm_base.impl.hpp:51-65 `optimalSolutions`. -/
def optimalSolutions (env : GaEnv G K A S V) (alg : A) (pop : List (Cand G (FVec K))) : Option (List (Cand G (FVec K))) :=
  let indices := env.algOptimal alg
  if indices.isEmpty then popParetoFront env pop else selectCopy pop indices

/-- ga_base.impl.hpp:503-504: `std::unique` with the comparison of the chromosomes. -/
def uniqueChroms {F : Type} : List (Cand G F) → List (Cand G F)
  | [] => []
  | x :: xs => x :: go x xs
where
  /-- the elements after the kept element `last` -/
  go (last : Cand G F) : List (Cand G F) → List (Cand G F)
    | [] => []
    | y :: ys => if last.chrom = y.chrom then go last ys else y :: go y ys

/-- ga_base.impl.hpp:487-505 `updateOptimalSolutions`. -/
def updateOptimal (env : GaEnv G K A S V) (st : GaState G (FVec K) A V) : Option (GaState G (FVec K) A V) := do
  let optimal ← optimalSolutions env st.alg st.pop
  let merged ← mergeParetoSets env.tol (·.fitness) st.sols optimal (env.mergeSched st.gen st.sols.length optimal.length)
  return { st with sols := uniqueChroms (env.sortSols merged) }

/-- ga_base.impl.hpp:435-445 `updatePopulation`. -/
def updatePopulation (env : GaEnv G K A S V) (st : GaState G (FVec K) A V) (children : List (Cand G (FVec K))) : Option (GaState G (FVec K) A V) := do
  let cache ← st.cache.insertRange (st.pop.map (fun c => (c.chrom, c.fitness)))
  let (pop, alg) ← nextPopulation env st.alg (st.gen + 1) st.pop children
  return { st with cache, pop, alg, fmat := pop.map (·.fitness) }

/-- ga_base.impl.hpp:533. -/
def collectOptimal (env : GaEnv G K A S V) (st : GaState G (FVec K) A V) : Option (GaState G (FVec K) A V) :=
  if env.keepAll then updateOptimal env st else some st

/-- ga_base.impl.hpp:507-538 `advance`. Mutation and repair of a child only use this child. -/
def advance (env : GaEnv G K A S V) (st : GaState G (FVec K) A V) : Option (GaState G (FVec K) A V) := do
  if st.pop.length = env.popSize then
    let st := { st with alg := env.algPrepare st.alg st.fmat }
    let children ← makeChildren env st st.alg
    let children := children.zipIdx.map (fun p => repairOp env.repair (mutationOp env.eq (env.mutate (st.gen + 1) p.2) p.1))
    let (children, evals, calls) ← evalAll env st.cache children st.evals st.calls (env.evalSched (st.gen + 1))
    let st ← updatePopulation env { st with evals, calls } children
    let st ← collectOptimal env st
    let st := updateMetrics st
    return { st with gen := st.gen + 1 }
  else none

/-! ## `solve` -/

/-- ga_base.impl.hpp:551-554: the loop, with the test of `StopCondition::operator()` (stop_condition_base.cpp:8-11). `none` also if the fuel runs out. -/
def solveLoop (env : GaEnv G K A S V) : Nat → S → GaState G (FVec K) A V → Option (GaState G (FVec K) A V)
  | 0, _, _ => none
  | fuel + 1, s, st =>
    let r := env.stop s st
    if r.2 || decide (st.gen + 1 ≥ env.maxGen) then some st
    else do solveLoop env fuel r.1 (← advance env st)

/-- ga_base.impl.hpp:540-558 `solve`: the returned solutions are the member `sols` of the final state. -/
def gaSolve (env : GaEnv G K A S V) (prev : GaState G (FVec K) A V) (initial : List (Cand G (FVec K))) : Option (GaState G (FVec K) A V) := do
  let st ← gaInit env prev initial
  let st ← solveLoop env (env.maxGen + 1) (env.stopInit st) st
  if env.keepAll then return st else updateOptimal env st

/-- ga_base.impl.hpp:551, 572: The state after the initialization and `n` generations. -/
def gaGens (env : GaEnv G K A S V) (prev : GaState G (FVec K) A V) (initial : List (Cand G (FVec K))) : Nat → Option (GaState G (FVec K) A V)
  | 0 => gaInit env prev initial
  | n + 1 => do advance env (← gaGens env prev initial n)
end

end Gapp.Model
