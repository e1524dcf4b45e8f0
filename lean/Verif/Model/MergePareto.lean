import Verif.Model.Float
/-!
# Model of `mergeParetoSets`

Source: `/repo/src/core/population.hpp:97-168`. The parallel loop runs one task per element of `lhs`. Each
task visits all the elements of `rhs`; its shared accesses are one atomic load of `rhs_state[j]` per visited
element, and at most one atomic store to it afterwards. `lhs_state[i]` is only accessed by task `i`. The model
executes the atomic steps of the tasks in an arbitrary order given by a *schedule*, a list of task numbers;
tasks grouped into one block of the parallel loop are a special case. (The flags are single bytes accessed
with relaxed atomics; each task's result depends on one location at a time, so interleaving semantics
covers what the tasks can read, except that a relaxed load may be delayed; see `loaded`.)
-/

namespace Gapp.Model

/-- population.hpp:97 `ParetoDominance`. -/
inductive PD where
  | unknown
  | optimal
  | dominated
  deriving DecidableEq, Repr

/-- population.hpp:111-118: State of the parallel loop: the flags, and for each task the index `j` it is at and the value of
`rhs_state[j]` if it has already been loaded. -/
structure MergeState where
  lhs : Nat → PD
  rhs : Nat → PD
  pc : Nat → Nat
  loaded : Nat → Option PD

/-- `std::vector<ParetoDominance>(n)` value-initialises to `UNKNOWN` (population.hpp:107-108). -/
def MergeState.init : MergeState := ⟨fun _ => .unknown, fun _ => .unknown, fun _ => 0, fun _ => none⟩

/-- population.hpp:113-146: what task `i` does at element `j` after loading `rhs_state[j] = s`: its new own
flag and the value to store into `rhs_state[j]`, if any. `lessLR` is `paretoCompareLess(lhs[i], rhs[j])`,
`lessRL` the reverse, `comp` is `paretoCompare(lhs[i], rhs[j])`. -/
def mergeBody (own s : PD) (lessLR lessRL : Bool) (comp : Int) : PD × Option PD :=
  if own = .dominated then (own, none)
  else if s = .dominated then (own, none)
  else if own = .optimal then
    (own, if s = .unknown && lessRL then some .dominated else none)
  else if s = .optimal then
    (if lessLR then .dominated else own, none)
  else if comp < 0 then (.dominated, some .optimal)
  else if comp > 0 then (.optimal, some .dominated)
  else (own, none)

/-- population.hpp:120-135: A store to the flag of an element. -/
def upd {β : Type} (f : Nat → β) (i : Nat) (v : β) : Nat → β := fun j => if j = i then v else f j

/-- population.hpp:121-131: The optional store to the shared flag of `rhs[j]`. -/
def store {β : Type} (f : Nat → β) (j : Nat) : Option β → Nat → β
  | none => f
  | some v => upd f j v

/-- population.hpp:114-138: One atomic step of task `i` (nothing if `i` is not a task or is finished). -/
def mergeStep (nl nr : Nat) (less : Bool → Nat → Nat → Bool) (comp : Nat → Nat → Int) (st : MergeState)
    (i : Nat) : MergeState :=
  if i < nl ∧ st.pc i < nr then
    let j := st.pc i
    match st.loaded i with
    | none => { st with loaded := upd st.loaded i (some (st.rhs j)) }
    | some s =>
      let r := mergeBody (st.lhs i) s (less false i j) (less true j i) (comp i j)
      { lhs := upd st.lhs i r.1
        rhs := store st.rhs j r.2
        pc := upd st.pc i (j + 1)
        loaded := upd st.loaded i none }
  else st

/-- population.hpp:114-138: Run a schedule. -/
def mergeRun (nl nr : Nat) (less : Bool → Nat → Nat → Bool) (comp : Nat → Nat → Int) (sched : List Nat) :
    MergeState := sched.foldl (mergeStep nl nr less comp) MergeState.init

/-- population.hpp:114-138: All the tasks have finished (`parallel_for` returns). -/
def mergeDone (nl nr : Nat) (st : MergeState) : Prop := ∀ i, i < nl → st.pc i = nr

variable {K : Type} [CommRing K] [LinearOrder K]

/-- population.hpp:99-168 for a schedule; candidates are modelled by any type with a fitness vector. The
result is `none` if the schedule does not complete the tasks. -/
def mergeParetoSets {α : Type} (t : Tol K) (fitness : α → FVec K) (lhs rhs : List α) (sched : List Nat) :
    Option (List α) :=
  if lhs.isEmpty then some rhs
  else if rhs.isEmpty then some lhs
  else
    let p := if rhs.length > lhs.length then (rhs, lhs) else (lhs, rhs)
    let l := p.1.map fitness
    let r := p.2.map fitness
    -- `less false i j`: lhs[i] < rhs[j]; `less true j i`: rhs[j] < lhs[i]
    let less := fun b x y => if b then paretoCompareLess t (r.getD x []) (l.getD y [])
                             else paretoCompareLess t (l.getD x []) (r.getD y [])
    let st := mergeRun l.length r.length less (fun i j => paretoCompare t (l.getD i []) (r.getD j [])) sched
    if ∀ i, i < l.length → st.pc i = r.length then
      some ((p.1.zipIdx.filter (fun x => st.lhs x.2 != .dominated)).map (·.1) ++
            (p.2.zipIdx.filter (fun x => st.rhs x.2 != .dominated)).map (·.1))
    else none

end Gapp.Model
