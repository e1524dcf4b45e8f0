import Verif.Model.MergePareto
/-!
# `concurrent_queue`

Source: `/repo/src/utility/concurrent_queue.hpp:14-66`.

Every function of the queue runs under `queue_lock_` from its first to its last access, except while it waits on the condition variable; a critical section is one step of the model (the mutex itself is not modelled). `wait` releases the lock and starts waiting in one step; a waiting thread that has been notified (or that wakes up spuriously) is `woken` until it gets the lock back and tests the predicate again.
-/

namespace Gapp.Model

/-- concurrent_queue.hpp:28-38: Where a thread is in `take`. -/
inductive ConsPc
  | idle
  /-- blocked on the condition variable (concurrent_queue.hpp:31) -/
  | waiting
  /-- notified, waiting for the lock -/
  | woken
deriving DecidableEq

/-- concurrent_queue.hpp:19-57: The results of the operations, in the order of their critical sections. -/
inductive QueueLog (α : Type)
  | emplaced (x : α) (accepted : Bool)
  | took (thread : Nat) (result : Option α)
  | closed
deriving DecidableEq

/-- concurrent_queue.hpp:60-63: The members of the queue, and where the threads are. -/
structure QueueState (α : Type) where
  queue : List α
  isClosed : Bool
  pc : Nat → ConsPc
  log : List (QueueLog α)

/-- concurrent_queue.hpp:19-57: What can happen: the critical sections of the functions, and wake-ups. -/
inductive QueueEvent (α : Type)
  /-- some thread calls `emplace`; `wake` is the thread `notify_one` picks -/
  | emplace (x : α) (wake : Nat)
  /-- thread `t` calls `take` -/
  | take (t : Nat)
  /-- thread `t` gets the lock back in `wait` -/
  | resume (t : Nat)
  /-- spurious wake-up of thread `t` -/
  | spurious (t : Nat)
  /-- some thread calls `close` -/
  | close

variable {α : Type}

/-- concurrent_queue.hpp:24: `notify_one`: wakes one of the waiting threads, if there are any. `n` bounds the thread numbers. -/
def notifyOne (n : Nat) (pc : Nat → ConsPc) (wake : Nat) : Nat → ConsPc :=
  if pc wake = .waiting then upd pc wake .woken
  else match (List.range n).find? (fun t => pc t = .waiting) with
    | some t => upd pc t .woken
    | none => pc

/-- concurrent_queue.hpp:31-37 with the lock held: `wait` tests the predicate, then the element is taken. -/
def takeLocked (s : QueueState α) (t : Nat) : QueueState α :=
  if !s.queue.isEmpty || s.isClosed then
    match s.queue with
    | [] => { s with pc := upd s.pc t .idle, log := s.log ++ [.took t none] }
    | x :: rest => { s with queue := rest, pc := upd s.pc t .idle, log := s.log ++ [.took t (some x)] }
  else { s with pc := upd s.pc t .waiting }

/-- concurrent_queue.hpp:19-57: One step: a critical section or a wake-up. -/
def queueStep (n : Nat) (s : QueueState α) : QueueEvent α → QueueState α
  | .emplace x wake =>
    -- concurrent_queue.hpp:21-25
    if s.isClosed then { s with log := s.log ++ [.emplaced x false] }
    else { s with queue := s.queue ++ [x], pc := notifyOne n s.pc wake, log := s.log ++ [.emplaced x true] }
  | .take t => if s.pc t = .idle then takeLocked s t else s
  | .resume t => if s.pc t = .woken then takeLocked s t else s
  | .spurious t => if s.pc t = .waiting then { s with pc := upd s.pc t .woken } else s
  | .close =>
    -- concurrent_queue.hpp:42-44
    { s with isClosed := true, pc := fun t => if s.pc t = .waiting then .woken else s.pc t, log := s.log ++ [.closed] }

/-- concurrent_queue.hpp:60-63: A new queue. -/
def queueInit : QueueState α := ⟨[], false, fun _ => .idle, []⟩

/-- concurrent_queue.hpp:19-57: A history of a new queue. -/
def queueRun (n : Nat) (es : List (QueueEvent α)) : QueueState α := es.foldl (queueStep n) queueInit

end Gapp.Model
