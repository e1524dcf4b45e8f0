import Verif.Model.MergePareto
/-!
# Spin locks

Source: `/repo/src/utility/spinlock.hpp:14-32`, `/repo/src/utility/shared_spinlock.hpp:16-57`.

The threads interleave at the atomic operations (sequential consistency). A thread that is not inside a function of the lock makes the call given by the event; a client only unlocks what it holds.
-/

namespace Gapp.Model

/-! ## `spinlock` -/

/-- spinlock.hpp:14-32: Where a thread is. -/
inductive SpinPc
  | idle
  /-- spinlock.hpp:18, before `test_and_set` -/
  | lockSet
  /-- spinlock.hpp:19, before `test` -/
  | lockSpin
  /-- spinlock.hpp:25, before `test` -/
  | tryTest
  /-- spinlock.hpp:26, before `test_and_set` -/
  | trySet
  | holding
deriving DecidableEq

/-- spinlock.hpp:14-32: The calls of a client. -/
inductive SpinOp
  | lock
  | tryLock
  | unlock
deriving DecidableEq

/-- spinlock.hpp:35: The flag, and where the threads are. -/
structure SpinState where
  flag : Bool
  pc : Nat → SpinPc

/-- spinlock.hpp:14-32: spinlock.hpp: one step of thread `e.1`. -/
def spinStep (s : SpinState) (e : Nat × SpinOp) : SpinState :=
  let goto := fun p => upd s.pc e.1 p
  match s.pc e.1 with
  | .idle =>
    match e.2 with
    | .lock => { s with pc := goto .lockSet }
    | .tryLock => { s with pc := goto .tryTest }
    | .unlock => s
  | .lockSet => if !s.flag then { flag := true, pc := goto .holding } else { s with pc := goto .lockSpin }
  | .lockSpin => if s.flag then s else { s with pc := goto .lockSet }
  | .tryTest => if !s.flag then { s with pc := goto .trySet } else { s with pc := goto .idle }
  | .trySet => if !s.flag then { flag := true, pc := goto .holding } else { s with pc := goto .idle }
  | .holding =>
    match e.2 with
    | .unlock => { flag := false, pc := goto .idle }
    | _ => s

/-- spinlock.hpp:35: A new lock. -/
def spinInit : SpinState := ⟨false, fun _ => .idle⟩

/-- spinlock.hpp:14-32: A history of the lock. -/
def spinRun (es : List (Nat × SpinOp)) : SpinState := es.foldl spinStep spinInit

/-! ## `shared_spinlock` -/

/-- shared_spinlock.hpp:16-54: Where a thread is. -/
inductive SharedPc
  | idle
  /-- shared_spinlock.hpp:28, before `compare_exchange_strong`, called from `lock` -/
  | lockCas
  /-- shared_spinlock.hpp:21, before `load` -/
  | lockSpin
  /-- shared_spinlock.hpp:28, called by the client -/
  | tryCas
  | writing
  /-- shared_spinlock.hpp:38, before `fetch_add` -/
  | sharedAdd
  /-- shared_spinlock.hpp:39, before `load` -/
  | sharedSpin
  /-- shared_spinlock.hpp:46, before `fetch_add` -/
  | trySharedAdd
  /-- shared_spinlock.hpp:47, before `fetch_sub` -/
  | trySharedSub
  | reading
deriving DecidableEq

/-- shared_spinlock.hpp:16-54: The calls of a client. -/
inductive SharedOp
  | lock
  | tryLock
  | unlock
  | lockShared
  | tryLockShared
  | unlockShared
deriving DecidableEq

/-- shared_spinlock.hpp:58: The counter, and where the threads are. -/
structure SharedState where
  cntr : BitVec 32
  pc : Nat → SharedPc

/-- shared_spinlock.hpp:57 `WRITER`. -/
def sharedWriter : BitVec 32 := BitVec.allOnes 32 >>> 1

/-- shared_spinlock.hpp:16-54: shared_spinlock.hpp: one step of thread `e.1`. -/
def sharedStep (s : SharedState) (e : Nat × SharedOp) : SharedState :=
  let goto := fun p => upd s.pc e.1 p
  match s.pc e.1 with
  | .idle =>
    match e.2 with
    | .lock => { s with pc := goto .lockCas }
    | .tryLock => { s with pc := goto .tryCas }
    | .lockShared => { s with pc := goto .sharedAdd }
    | .tryLockShared => { s with pc := goto .trySharedAdd }
    | _ => s
  | .lockCas => if s.cntr = 0 then { cntr := sharedWriter, pc := goto .writing } else { s with pc := goto .lockSpin }
  | .lockSpin => if s.cntr ≠ 0 then s else { s with pc := goto .lockCas }
  | .tryCas => if s.cntr = 0 then { cntr := sharedWriter, pc := goto .writing } else { s with pc := goto .idle }
  | .writing =>
    match e.2 with
    | .unlock => { cntr := s.cntr - sharedWriter, pc := goto .idle }
    | _ => s
  | .sharedAdd => { cntr := s.cntr + 1, pc := goto .sharedSpin }
  | .sharedSpin => if s.cntr ≥ sharedWriter then s else { s with pc := goto .reading }
  | .trySharedAdd => if s.cntr < sharedWriter then { cntr := s.cntr + 1, pc := goto .reading } else { cntr := s.cntr + 1, pc := goto .trySharedSub }
  | .trySharedSub => { cntr := s.cntr - 1, pc := goto .idle }
  | .reading =>
    match e.2 with
    | .unlockShared => { cntr := s.cntr - 1, pc := goto .idle }
    | _ => s

/-- shared_spinlock.hpp:58: A new lock. -/
def sharedInit : SharedState := ⟨0, fun _ => .idle⟩

/-- shared_spinlock.hpp:16-54: A history of the lock. -/
def sharedRun (es : List (Nat × SharedOp)) : SharedState := es.foldl sharedStep sharedInit

end Gapp.Model
