import Verif.Model.Float
import Verif.Model.Stats
/-!
# Stop conditions

Source: `/repo/src/stop_condition/stop_condition_base.cpp`, `composite.hpp`, `stop_condition.cpp`, `stop_condition.hpp`.
-/

namespace Gapp.Model

/-! ## Composite conditions -/

/-- composite.hpp:16-109: composite.hpp: a stop condition built from others. The leaves are objects with a state. -/
inductive StopTree (L : Type) where
  | leaf (l : L)
  | or (left right : StopTree L)
  | and (left right : StopTree L)
  | not (base : StopTree L)
  deriving DecidableEq

namespace StopTree
variable {L I : Type}

/-- `StopCondition::operator()` (stop_condition_base.cpp:8-11), with the overrides of `stop_condition` of OR (composite.hpp:30-34), AND (55-60) and NOT (79-82).
`step` is the method `stop_condition` of the leaves, which changes their state; `atEnd` is `ga.generation_cntr() + 1 >= ga.max_gen()`. -/
def call (step : L → I → L × Bool) (ga : I) (atEnd : Bool) : StopTree L → StopTree L × Bool
  | leaf l =>
    let r := step l ga
    (leaf r.1, r.2 || atEnd)
  | or left right =>
    let a := call step ga atEnd left
    if a.2 then (or a.1 right, true || atEnd)
    else
      let b := call step ga atEnd right
      (or a.1 b.1, b.2 || atEnd)
  | and left right =>
    let a := call step ga atEnd left
    let b := call step ga atEnd right
    (and a.1 b.1, (a.2 && b.2) || atEnd)
  | not base =>
    let a := call step ga atEnd base
    (not a.1, !a.2 || atEnd)

/-- The overrides of `initialize` (composite.hpp:24-28, 49-53, 74-77). -/
def init (init0 : L → I → L) (ga : I) : StopTree L → StopTree L
  | leaf l => leaf (init0 l ga)
  | or left right => or (init init0 ga left) (init init0 ga right)
  | and left right => and (init init0 ga left) (init init0 ga right)
  | not base => not (init init0 ga base)

end StopTree

/-! ## The conditions of the library -/

section
variable {K : Type} [CommRing K] [LinearOrder K]

/-- stop_condition.cpp:15-25: `best_so_far[i] + delta` for a finite `delta`. -/
def Flt.addFin : Flt K → K → Flt K
  | .ninf, _ => .ninf
  | .fin x, d => .fin (x + d)
  | .pinf, _ => .pinf

/-- stop_condition.cpp:15-32 `metricImproved`: the new `best_so_far` and the returned value. The sizes are asserted to be equal. -/
def metricImproved (delta : K) : FVec K → FVec K → FVec K × Bool
  | b :: best_so_far, v :: new_val =>
    let rest := metricImproved delta best_so_far new_val
    if v ≥ b.addFin delta then (v :: rest.1, true) else (b :: rest.1, rest.2)
  | best_so_far, _ => (best_so_far, false)

/-- stop_condition.hpp:155-158, 222-225: the members of FitnessMeanStall and FitnessBestStall. -/
structure Stall (K : Type) where
  best : FVec K
  patience : Nat
  delta : K
  cntr : Nat

/-- stop_condition.hpp:160, 227 `reset`. The sum is of the type `size_t` and wraps around. -/
def Stall.reset (s : Stall K) : Stall K := { s with cntr := (s.patience + 1) % 2 ^ 64 }

/-- stop_condition.cpp:56-60, 74-78 `initialize`. -/
def Stall.init (s : Stall K) (numObjectives : Nat) : Stall K :=
  { s.reset with best := List.replicate numObjectives .ninf }

/-- stop_condition.cpp:62-71, 80-89 `stop_condition`, once the metric (the mean or the maximum of the fitness values of the population) is computed. -/
def Stall.step (s : Stall K) (current : FVec K) : Stall K × Bool :=
  let r := metricImproved s.delta s.best current
  let s := { s with best := r.1 }
  let s := if r.2 then s.reset else { s with cntr := s.cntr - (if s.cntr ≠ 0 then 1 else 0) }
  (s, s.cntr == 0)

/-- stop_condition.hpp:133, 200 the setter of the patience. -/
def Stall.setPatience (s : Stall K) (patience : Nat) : Stall K := { s with patience := patience }.reset

/-- stop_condition.cpp:80-89 `FitnessBestStall::stop_condition`. -/
def bestStallStep (s : Stall K) (fmat : List (FVec K)) : Option (Stall K × Bool) := do
  return s.step (← maxFitness fmat)

/-- stop_condition.cpp:62-71 `FitnessMeanStall::stop_condition`, for finite fitness values. -/
def meanStallStep {K : Type} [Field K] [LinearOrder K] (s : Stall K) (fmat : List (List K)) : Option (Stall K × Bool) := do
  return s.step ((← fitnessMean fmat).map .fin)

/-- stop_condition.cpp:35-38 `FitnessEvals::stop_condition`. -/
def fitnessEvalsStop (maxEvals numEvals : Nat) : Bool := decide (numEvals ≥ maxEvals)

/-- stop_condition.cpp:41-53 `FitnessValue::stop_condition`. -/
def fitnessValueStop (t : Tol K) (threshold : FVec K) (fmat : List (FVec K)) : Bool :=
  fmat.any (fun fvec => !paretoCompareLess t fvec threshold)

end

end Gapp.Model
