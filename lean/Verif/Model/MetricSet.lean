import Mathlib.Data.List.Basic
/-!
# The set of tracked metrics

Models `metrics/metric_set.hpp`, `metrics/metric_set.cpp` and the functions of `core/ga_info.hpp` that use it. `Ty` are the types of metrics of a program, `S` the states of the objects of these types, `I` what a metric can read of the GA.
-/

namespace Gapp.Model

variable {Ty S I : Type}

/-- monitor_base.hpp:37, 45: the two virtual functions of a metric, `initialize` (here `start`) and `update`. -/
structure MetricClass (S I : Type) where
  start : I → S → S
  update : I → S → S

/-- monitor.hpp:36-60: the class of a metric that `initialize` clears, and whose `update` appends a value computed from the state of the GA, such as those of fitness_metrics.cpp:9-37. -/
def appendingMetric {V : Type} (compute : I → V) : MetricClass (List V) I where
  start _ _ := []
  update i data := data ++ [compute i]

/-- metric_set.hpp:36 `metrics_`: the objects with their types. -/
abbrev MetricSet (Ty S : Type) := List (Ty × S)

/-- metric_set.hpp:49-55: the constructor. -/
def MetricSet.create (metrics : List (Ty × S)) : MetricSet Ty S := metrics.foldl (fun set m => set ++ [m]) []

/-- metric_set.cpp:7-13 `initialize`. -/
def MetricSet.init (cls : Ty → MetricClass S I) (set : MetricSet Ty S) (ga : I) : MetricSet Ty S := set.map (fun m => (m.1, (cls m.1).start ga m.2))

/-- metric_set.cpp:15-21 `update`. -/
def MetricSet.update (cls : Ty → MetricClass S I) (set : MetricSet Ty S) (ga : I) : MetricSet Ty S := set.map (fun m => (m.1, (cls m.1).update ga m.2))

/-- What `get` does: an object, no object, or undefined behaviour (metric_set.hpp:63). -/
inductive MetricGet (S : Type) where
  | found (s : S)
  | null
  | badCast

/-- metric_set.hpp:57-64 `get<Metric>`, and ga_info.hpp:411-416 `get_metric_if`. `typeId` is type_id.hpp:14-18. The cast to `Metric*` is defined only if the object has this type. -/
def MetricSet.get [DecidableEq Ty] (typeId : Ty → Nat) (set : MetricSet Ty S) (ty : Ty) : MetricGet S :=
  match set.find? (fun m => typeId m.1 == typeId ty) with
  | some m => if m.1 = ty then .found m.2 else .badCast
  | none => .null

/-- ga_info.hpp:402-409 `get_metric`; `none`: the assertion fails, and the behaviour is undefined without assertions. -/
def MetricSet.getRef [DecidableEq Ty] (typeId : Ty → Nat) (set : MetricSet Ty S) (ty : Ty) : Option S :=
  match set.get typeId ty with
  | .found s => some s
  | _ => none

/-- ga_info.hpp:395-400 `track`, ga_base.impl.hpp:356-357, 534 (the calls of `initialize` and `update` in a run): what happens to the metrics of a GA. -/
inductive MetricEvent (Ty S I : Type) where
  | track (metrics : List (Ty × S))
  | start (ga : I)
  | update (ga : I)

/-- ga_info.hpp:395-400, metric_set.cpp:7-21: one event. -/
def metricStep (cls : Ty → MetricClass S I) (set : MetricSet Ty S) : MetricEvent Ty S I → MetricSet Ty S
  | .track metrics => MetricSet.create metrics
  | .start ga => set.init cls ga
  | .update ga => set.update cls ga

/-- ga_info.hpp:355: the metrics after a history; none are tracked at first. -/
def metricRun (cls : Ty → MetricClass S I) (events : List (MetricEvent Ty S I)) : MetricSet Ty S := events.foldl (metricStep cls) []

end Gapp.Model
