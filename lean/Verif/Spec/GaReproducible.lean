import Verif.Model.GaLoop
/-! # What it means for a run to be reproducible -/

namespace Gapp.Spec
open Gapp.Model

/-- Two states in which everything that can be observed of the algorithm is the same: the population, the fitness matrix, the solutions found, the cache, the counters, the state of the selected
algorithm and the metrics. The fitness function was called with the same chromosomes, equally often, but maybe in another order. -/
structure SameOutcome {G F A V : Type} (st st' : GaState G F A V) : Prop where
  pop : st'.pop = st.pop
  fmat : st'.fmat = st.fmat
  sols : st'.sols = st.sols
  cache : st'.cache = st.cache
  evals : st'.evals = st.evals
  gen : st'.gen = st.gen
  alg : st'.alg = st.alg
  stats : st'.stats = st.stats
  evalsMon : st'.evalsMon = st.evalsMon
  calls : st'.calls.Perm st.calls

/-- The same settings and the same random outcomes, with other schedules of the parallel loops. -/
def withSchedules {G K A S V : Type} (env : GaEnv G K A S V) (evalSched : Nat → List Nat) (mergeSched : Nat → Nat → Nat → List Nat) : GaEnv G K A S V :=
  { env with evalSched := evalSched, mergeSched := mergeSched }

/-- The stop condition does not look at the order in which the fitness function was called (which it cannot do through the interface of the library). -/
structure StopIgnoresCalls {G K A S V : Type} (env : GaEnv G K A S V) : Prop where
  init : ∀ (st : GaState G (FVec K) A V) (c : List (List G)), env.stopInit { st with calls := c } = env.stopInit st
  stop : ∀ (s : S) (st : GaState G (FVec K) A V) (c : List (List G)), env.stop s { st with calls := c } = env.stop s st

/-- The same metrics are tracked. -/
def SameMetrics {G F A V : Type} (st st' : GaState G F A V) : Prop := st'.stats.map (·.compute) = st.stats.map (·.compute)

/-- `st` is a state that may be left after any history of uses of a GA object that had the state `fresh` at first: complete runs, runs that were left between two generations, and runs that
were left in the middle of one by an exception of a function of the user, in which case nothing is known about the data members, except that some number of operations on the cache are
complete (none of them calls a function of the user). The settings of the runs may be different, also the stop conditions. -/
inductive UsedBefore {G K A V : Type} [DecidableEq G] [CommRing K] [LinearOrder K] (fresh : GaState G (FVec K) A V) : GaState G (FVec K) A V → Prop
  | fresh : UsedBefore fresh fresh
  | solved {S : Type} (env : GaEnv G K A S V) (initial : List (Cand G (FVec K))) (st st' : GaState G (FVec K) A V) : UsedBefore fresh st → gaSolve env st initial = some st' → UsedBefore fresh st'
  | left {S : Type} (env : GaEnv G K A S V) (initial : List (Cand G (FVec K))) (n : Nat) (st st' : GaState G (FVec K) A V) : UsedBefore fresh st → gaGens env st initial n = some st' →
      UsedBefore fresh st'
  | interrupted (ops : List (FifoCache.Op (List G) (FVec K))) (st st' : GaState G (FVec K) A V) : UsedBefore fresh st → st.cache.run ops = some st'.cache → SameMetrics st st' → UsedBefore fresh st'

end Gapp.Spec
