import Verif.Model.PoolLife
/-!
# What the user sees of the worker threads
-/

namespace Gapp.Spec
open Gapp.Model

/-- The tasks that a script submits. -/
def tasksOf (script : List LifeOp) : List Nat := script.filterMap (fun op => match op with
  | .submit x => some x
  | _ => none)

/-- The number of threads that was last asked for. -/
def lastCount (threads : Nat) (script : List LifeOp) : Nat := script.foldl (fun n op => match op with
  | .resize count _ => max count 1
  | _ => n) threads

/-- The system can start all the threads that the script asks for. -/
def NoFailure (script : List LifeOp) : Prop := ∀ count k, LifeOp.resize count (some k) ∉ script

/-- The tasks that a worker has and has not finished. -/
def LifeWorker.pending (w : LifeWorker) : List Nat := (match w.pc with
  | .running x => [x]
  | _ => []) ++ w.queue

/-- The master has done everything, and no worker has anything left to do. -/
def LifeFinished (s : LifeState) : Prop :=
  (s.master = .gone ∨ (s.master = .ready ∧ s.script = [])) ∧ ∀ w ∈ s.workers ++ s.fresh ++ s.old, LifeWorker.pending w = []

end Gapp.Spec
