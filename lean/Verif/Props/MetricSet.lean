import Verif.Model.MetricSet
/-!
# C69: a tracked metric can be found by its type, and has the values of the last run
-/

namespace Gapp.Props
open Gapp.Model

variable {Ty S I : Type}

/-- No metrics are replaced by these events. -/
def NoTrack (events : List (MetricEvent Ty S I)) : Prop := ∀ e ∈ events, ∀ ms, e ≠ .track ms

/-- What the events of a run do to one metric, on its own. -/
def metricAlone (c : MetricClass S I) (s : S) : MetricEvent Ty S I → S
  | .track _ => s
  | .start ga => c.start ga s
  | .update ga => c.update ga s

theorem metricSet_create (ms : List (Ty × S)) : MetricSet.create ms = ms := by
  unfold MetricSet.create
  have h : ∀ acc : List (Ty × S), ms.foldl (fun set m => set ++ [m]) acc = acc ++ ms := by
    induction ms with
    | nil => intro acc; simp
    | cons m ms ih => intro acc; rw [List.foldl_cons, ih, List.append_assoc, List.singleton_append]
  rw [h, List.nil_append]

theorem metricRun_post (cls : Ty → MetricClass S I) (post : List (MetricEvent Ty S I)) (h : NoTrack post) (set : MetricSet Ty S) :
    post.foldl (metricStep cls) set = set.map (fun m => (m.1, post.foldl (metricAlone (cls m.1)) m.2)) := by
  induction post generalizing set with
  | nil => simp
  | cons e post ih =>
    have hp : NoTrack post := fun x hx => h x (List.mem_cons_of_mem _ hx)
    rw [List.foldl_cons, ih hp]
    cases e with
    | track ms => exact absurd rfl (h _ (List.mem_cons_self ..) ms)
    | start ga =>
      show List.map _ (MetricSet.init cls set ga) = _
      unfold MetricSet.init
      rw [List.map_map]; rfl
    | update ga =>
      show List.map _ (MetricSet.update cls set ga) = _
      unfold MetricSet.update
      rw [List.map_map]; rfl

/-- After any history of tracking and runs: `get_metric_if<M>()` is the first metric of type `M` among those of the last call of `track()`, in the state in which the `initialize` and `update` calls
since then have left this metric, no matter which other metrics are tracked. It is a null pointer exactly if no metric of type `M` was passed, and a metric is never taken for one of another type. Different types have different type ids, being the addresses of different objects. -/
theorem C69_get [DecidableEq Ty] (typeId : Ty → Nat) (hid : ∀ a b, typeId a = typeId b → a = b) (cls : Ty → MetricClass S I)
    (before post : List (MetricEvent Ty S I)) (ms : List (Ty × S)) (hpost : NoTrack post) (ty : Ty) :
    (metricRun cls (before ++ [.track ms] ++ post)).get typeId ty =
      match ms.find? (fun m => decide (m.1 = ty)) with
      | some m => .found (post.foldl (metricAlone (cls ty)) m.2)
      | none => .null := by
  have h1 : metricRun cls (before ++ [.track ms] ++ post) = ms.map (fun m => (m.1, post.foldl (metricAlone (cls m.1)) m.2)) := by
    unfold metricRun
    rw [List.foldl_append, List.foldl_append, metricRun_post cls post hpost]
    show List.map _ (MetricSet.create ms) = _
    rw [metricSet_create]
  rw [h1]
  unfold MetricSet.get
  clear h1
  induction ms with
  | nil => rfl
  | cons m ms ih =>
    rw [List.map_cons, List.find?_cons, List.find?_cons]
    by_cases h : m.1 = ty
    · rw [show (typeId m.1 == typeId ty) = true by rw [h]; exact beq_self_eq_true _, show decide (m.1 = ty) = true from decide_eq_true h]
      show (if m.1 = ty then _ else _) = _
      rw [if_pos h, h]
    · rw [show (typeId m.1 == typeId ty) = false by rw [beq_eq_false_iff_ne]; exact fun e => h (hid _ _ e), show decide (m.1 = ty) = false from decide_eq_false h]
      exact ih

/-- Before the first call of `track()` there is no metric. -/
theorem C69_untracked [DecidableEq Ty] (typeId : Ty → Nat) (cls : Ty → MetricClass S I) (events : List (MetricEvent Ty S I)) (h : NoTrack events) (ty : Ty) :
    (metricRun cls events).get typeId ty = .null ∧ (metricRun cls events).getRef typeId ty = none := by
  have h1 : metricRun cls events = [] := metricRun_post cls events h []
  rw [h1]
  exact ⟨rfl, rfl⟩

/-- `get_metric<M>()` is defined exactly if a metric of type `M` is tracked. -/
theorem C69_get_ref [DecidableEq Ty] (typeId : Ty → Nat) (hid : ∀ a b, typeId a = typeId b → a = b) (cls : Ty → MetricClass S I)
    (before post : List (MetricEvent Ty S I)) (ms : List (Ty × S)) (hpost : NoTrack post) (ty : Ty) :
    ((metricRun cls (before ++ [.track ms] ++ post)).getRef typeId ty).isSome = true ↔ ∃ s, (ty, s) ∈ ms := by
  unfold MetricSet.getRef
  rw [C69_get typeId hid cls before post ms hpost ty]
  cases hf : ms.find? (fun m => decide (m.1 = ty)) with
  | none =>
    refine ⟨fun h => (by cases h), fun ⟨s, hs⟩ => ?_⟩
    have := List.find?_eq_none.mp hf (ty, s) hs
    simp at this
  | some m =>
    refine ⟨fun _ => ⟨m.2, ?_⟩, fun _ => rfl⟩
    have h1 := List.find?_some hf
    have h2 := List.mem_of_find?_eq_some hf
    have h3 : m.1 = ty := of_decide_eq_true h1
    rw [← h3]; exact h2

/-- A metric that is tracked has, after runs whose last one was initialized with `i₀` and updated with the states `is`, exactly the values for `is`, if it is of the kind that starts over in every run
and appends a value in every update: nothing of earlier runs is left. -/
theorem C69_values [DecidableEq Ty] {V : Type} (typeId : Ty → Nat) (hid : ∀ a b, typeId a = typeId b → a = b) (cls : Ty → MetricClass (List V) I)
    (before runs : List (MetricEvent Ty (List V) I)) (ms : List (Ty × List V)) (hruns : NoTrack runs) (ty : Ty) (compute : I → V) (hc : cls ty = appendingMetric compute)
    (hty : ∃ s, (ty, s) ∈ ms) (i₀ : I) (is : List I) :
    (metricRun cls (before ++ [.track ms] ++ (runs ++ [.start i₀] ++ is.map .update))).getRef typeId ty = some (is.map compute) := by
  have hpost : NoTrack (runs ++ [.start i₀] ++ is.map .update : List (MetricEvent Ty (List V) I)) := by
    intro e he x
    rcases List.mem_append.mp he with he | he
    · rcases List.mem_append.mp he with he | he
      · exact hruns e he x
      · rw [List.mem_singleton] at he; rw [he]; intro hh; cases hh
    · obtain ⟨i, _, rfl⟩ := List.mem_map.mp he
      intro hh; cases hh
  have hs := (C69_get_ref typeId hid cls before _ ms hpost ty).mpr hty
  unfold MetricSet.getRef at hs ⊢
  rw [C69_get typeId hid cls before _ ms hpost ty] at hs ⊢
  cases hf : ms.find? (fun m => decide (m.1 = ty)) with
  | none => rw [hf] at hs; cases hs
  | some m =>
    show some _ = some _
    rw [List.foldl_append, List.foldl_append, hc]
    show some ((is.map MetricEvent.update).foldl (metricAlone (appendingMetric compute)) []) = _
    congr 1
    have h : ∀ acc : List V, (is.map (MetricEvent.update : I → MetricEvent Ty (List V) I)).foldl (metricAlone (appendingMetric compute)) acc = acc ++ is.map compute := by
      clear hpost hs
      induction is with
      | nil => intro acc; simp
      | cons i is ih =>
        intro acc
        rw [List.map_cons, List.foldl_cons, List.map_cons]
        show List.foldl _ (acc ++ [compute i]) _ = _
        rw [ih, List.append_assoc, List.singleton_append]
    rw [h, List.nil_append]

/-- Two metrics (the maximum and the sum of a population), tracked over two runs of the GA, and a third one that is not tracked. -/
example :
    let cls : Fin 3 → MetricClass (List Nat) (List Nat) := fun t => appendingMetric (if t = 0 then (fun i => i.foldl max 0) else List.sum)
    let h := metricRun cls ([.track [(0, []), (1, [])], .start [1], .update [1, 5], .start [2], .update [2, 3], .update [4, 3]])
    h.getRef (fun t => 100 + t.val) 0 = some [3, 4] ∧ h.getRef (fun t => 100 + t.val) 1 = some [5, 7] ∧ h.getRef (fun t => 100 + t.val) 2 = none := by
  decide +kernel

end Gapp.Props
