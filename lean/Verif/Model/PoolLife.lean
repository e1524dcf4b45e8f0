/-!
# The life cycle of the worker threads

Source: `/repo/src/utility/thread_pool.hpp:84-154, 182-196`, `/repo/src/utility/concurrent_queue.hpp:18-46`.

One thread, the master, submits tasks, changes the number of threads and destroys the pool, in the order of a script; the workers run at the same time. The queue of a worker is the queue of C42: `emplace`, `take` and
`close` are atomic, and `take` blocks while the queue is empty and open. A task is a number, and running it ends. Simplification: the master does not take part in the work, except when there are no workers; the tasks do not
submit tasks. Starting a thread may fail (`std::jthread` throws `std::system_error`).
-/

namespace Gapp.Model

/-- thread_pool.hpp:117-125 `worker_main`: where a worker is. -/
inductive LifePc
  | taking
  | running (x : Nat)
  | exited
deriving DecidableEq

/-- thread_pool.hpp:115-129 `worker_t`: the queue, and the thread. -/
structure LifeWorker where
  queue : List Nat
  closed : Bool
  pc : LifePc
deriving DecidableEq

/-- thread_pool.hpp:127-128: a new worker. -/
def LifeWorker.new : LifeWorker := ⟨[], false, .taking⟩

/-- concurrent_queue.hpp:40-45 `close`. -/
def LifeWorker.close (w : LifeWorker) : LifeWorker := { w with closed := true }

/-- thread_pool.hpp:117-125, concurrent_queue.hpp:28-38: one step of a worker, and the task that it finished. -/
def LifeWorker.step (w : LifeWorker) : LifeWorker × Option Nat :=
  match w.pc with
  | .taking =>
    match w.queue with
    | x :: q => ({ w with queue := q, pc := .running x }, none)
    | [] => if w.closed then ({ w with pc := .exited }, none) else (w, none)
  | .running x => ({ w with pc := .taking }, some x)
  | .exited => (w, none)

/-- thread_pool.hpp:84-99, 182-196: what the user does. -/
inductive LifeOp
  /-- a task of a parallel loop -/
  | submit (x : Nat)
  /-- `execution_threads(count)`; `fails = some k`: the system can not start the new thread number `k` -/
  | resize (count : Nat) (fails : Option Nat)
  /-- the destructor, at the end of the program -/
  | destroy
deriving DecidableEq

/-- thread_pool.hpp:89-102: where the master is. -/
inductive LifeMaster
  | ready
  /-- `stop`, before the queue number `i` is closed. `next`: the arguments of `thread_count`, or none in the destructor -/
  | closing (next : Option (Nat × Option Nat)) (i : Nat)
  /-- thread_pool.hpp:95: the new vector is being constructed -/
  | starting (count : Nat) (fails : Option Nat)
  /-- the old workers are being destroyed; `ends`: in the destructor -/
  | joining (ends : Bool)
  /-- thread_pool.hpp:95: starting a thread failed, the new workers are being destroyed -/
  | unwinding
  | gone
deriving DecidableEq

/-- thread_pool.hpp:153-154: the pool, the workers that are being started and the ones that are being destroyed, the rest of the script, and what happened. -/
structure LifeState where
  workers : List LifeWorker
  fresh : List LifeWorker
  old : List LifeWorker
  turn : Nat
  master : LifeMaster
  script : List LifeOp
  done : List Nat
  /-- the tasks for which `execute_loop` threw `std::runtime_error` -/
  rejected : List Nat
deriving DecidableEq

/-- thread_pool.hpp:131-137, 64-65: submits a task. -/
def lifeSubmit (s : LifeState) (x : Nat) : LifeState :=
  if s.workers.length = 0 then { s with done := x :: s.done }
  else
    let i := s.turn % s.workers.length
    match s.workers[i]? with
    | none => s
    | some w =>
      if w.closed then { s with turn := s.turn + 1, rejected := x :: s.rejected }
      else { s with turn := s.turn + 1, workers := s.workers.set i { w with queue := w.queue ++ [x] } }

/-- thread_pool.hpp:84-102, 146-151, 182-185: one step of the master. The destructor of a worker joins its thread: it waits until the thread has exited. -/
def lifeMaster (s : LifeState) : LifeState :=
  match s.master with
  | .ready =>
    match s.script with
    | [] => s
    | .submit x :: rest => lifeSubmit { s with script := rest } x
    | .resize count fails :: rest =>
      if max count 1 = s.workers.length + 1 then { s with script := rest, turn := 0 }
      else { s with script := rest, turn := 0, master := .closing (some (max count 1, fails)) 0 }
    | .destroy :: rest => { s with script := rest, master := .closing none 0 }
  | .closing next i =>
    match s.workers[i]? with
    | some w => { s with workers := s.workers.set i w.close, master := .closing next (i + 1) }
    | none =>
      match next with
      | some (count, fails) => { s with master := .starting count fails }
      | none => { s with old := s.workers, workers := [], master := .joining true }
  | .starting count fails =>
    if s.fresh.length = count - 1 then { s with old := s.workers, workers := s.fresh, fresh := [], master := .joining false }
    else if fails = some s.fresh.length then { s with master := .unwinding }
    else { s with fresh := s.fresh ++ [.new] }
  | .joining ends =>
    match s.old with
    | [] => { s with master := if ends then .gone else .ready }
    | w :: rest => if w.pc = .exited then { s with old := rest } else s
  | .unwinding =>
    match s.fresh with
    | [] => { s with master := .ready }
    | w :: rest => if w.pc = .exited then { s with fresh := rest } else s
  | .gone => s

/-- thread_pool.hpp:117-125: the threads that can take a step. -/
inductive LifeEvent
  | master
  | worker (i : Nat)
  | fresh (i : Nat)
  | old (i : Nat)
deriving DecidableEq

/-- thread_pool.hpp:117-125: a step of the worker number `i` of a list. -/
def stepAt (ws : List LifeWorker) (i : Nat) : List LifeWorker × Option Nat :=
  match ws[i]? with
  | none => (ws, none)
  | some w => (ws.set i w.step.1, w.step.2)

/-- thread_pool.hpp:84-154: one step of a thread. -/
def lifeStep (s : LifeState) : LifeEvent → LifeState
  | .master => lifeMaster s
  | .worker i => { s with workers := (stepAt s.workers i).1, done := (stepAt s.workers i).2.toList ++ s.done }
  | .fresh i => { s with fresh := (stepAt s.fresh i).1, done := (stepAt s.fresh i).2.toList ++ s.done }
  | .old i => { s with old := (stepAt s.old i).1, done := (stepAt s.old i).2.toList ++ s.done }

/-- thread_pool.hpp:153-154: a new pool with `threads` threads, one of which is the master. -/
def lifeInit (threads : Nat) (script : List LifeOp) : LifeState := ⟨List.replicate (threads - 1) .new, [], [], 0, .ready, script, [], []⟩

/-- thread_pool.hpp:84-154: the state after a schedule. -/
def lifeRun (threads : Nat) (script : List LifeOp) (es : List LifeEvent) : LifeState := es.foldl lifeStep (lifeInit threads script)

/-- thread_pool.hpp:98-101 `execution_threads()`. -/
def lifeThreads (s : LifeState) : Nat := s.workers.length + 1

end Gapp.Model
