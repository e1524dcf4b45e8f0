import Verif.Model.GaLoop
/-!
# Model of a run with a generation callback

The function set with `on_generation_end` gets a constant reference to the algorithm. It is modelled as a function that changes a state `U` of its own (what it prints or stores) and reads the state of
the algorithm. Exceptions thrown by the callback are not modelled.
-/

namespace Gapp.Model

section
variable {G K A S V U : Type} [DecidableEq G] [CommRing K] [LinearOrder K]

/-- ga_base.impl.hpp:359, 536 `if (on_generation_end_) on_generation_end_(*this)`: the state of the user after the call, if a callback is set. -/
def runCallback (cb : Option (U → GaState G (FVec K) A V → U)) (u : U) (st : GaState G (FVec K) A V) : U :=
  match cb with
  | none => u
  | some f => f u st

/-- ga_base.impl.hpp:314-360 `initializeAlgorithm`: the callback is the last statement (line 359). -/
def gaInitCb (env : GaEnv G K A S V) (cb : Option (U → GaState G (FVec K) A V → U)) (prev : GaState G (FVec K) A V) (initial : List (Cand G (FVec K))) (u : U) :
    Option (GaState G (FVec K) A V × U) := do
  let st ← gaInit env prev initial
  return (st, runCallback cb u st)

/-- ga_base.impl.hpp:507-538 `advance`: the metrics are updated (line 534), then the callback is called (line 536), then the counter is incremented (line 537). -/
def advanceCb (env : GaEnv G K A S V) (cb : Option (U → GaState G (FVec K) A V → U)) (st : GaState G (FVec K) A V) (u : U) : Option (GaState G (FVec K) A V × U) := do
  if st.pop.length = env.popSize then
    let st := { st with alg := env.algPrepare st.alg st.fmat }
    let children ← makeChildren env st st.alg
    let children := children.zipIdx.map (fun p => repairOp env.repair (mutationOp env.eq (env.mutate (st.gen + 1) p.2) p.1))
    let (children, evals, calls) ← evalAll env st.cache children st.evals st.calls (env.evalSched (st.gen + 1))
    let st ← updatePopulation env { st with evals, calls } children
    let st ← collectOptimal env st
    let st := updateMetrics st
    let u := runCallback cb u st
    return ({ st with gen := st.gen + 1 }, u)
  else none

/-- ga_base.impl.hpp:551-554: the loop of `solve`, with the test of `StopCondition::operator()` (stop_condition_base.cpp:8-11). `none` also if the fuel runs out. -/
def solveLoopCb (env : GaEnv G K A S V) (cb : Option (U → GaState G (FVec K) A V → U)) : Nat → S → GaState G (FVec K) A V → U → Option (GaState G (FVec K) A V × U)
  | 0, _, _, _ => none
  | fuel + 1, s, st, u =>
    let r := env.stop s st
    if r.2 || decide (st.gen + 1 ≥ env.maxGen) then some (st, u)
    else do
      let q ← advanceCb env cb st u
      solveLoopCb env cb fuel r.1 q.1 q.2

/-- ga_base.impl.hpp:540-558 `solve` with a callback: the final state of the algorithm and of the user. -/
def gaSolveCb (env : GaEnv G K A S V) (cb : Option (U → GaState G (FVec K) A V → U)) (prev : GaState G (FVec K) A V) (initial : List (Cand G (FVec K))) (u : U) :
    Option (GaState G (FVec K) A V × U) := do
  let p ← gaInitCb env cb prev initial u
  let q ← solveLoopCb env cb (env.maxGen + 1) (env.stopInit p.1) p.1 p.2
  let st ← (if env.keepAll then some q.1 else updateOptimal env q.1)
  return (st, q.2)
end

end Gapp.Model
