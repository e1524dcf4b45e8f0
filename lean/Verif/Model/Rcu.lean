import Verif.Model.MergePareto
/-!
# RCU

Source: `/repo/src/utility/rcu.hpp:19-128`.

The threads interleave at the accesses to the shared variables. `tso = false` is sequential consistency; with `tso = true` the stores to `reader.epoch` go through a store buffer of the thread, as on x86, where a release store is a plain store and an acquire load of the thread's own variable is served from the buffer (the read-modify-write operations wait until the buffer is empty).

Simplifications: every thread is registered as a reader from the start (an unregistered thread is not reading, and registration only happens before the first `read_lock` of the thread); `writer_epoch` does not overflow; a thread does not assign or synchronize inside its own read section (it would wait for itself); objects are not destroyed.

A pointer is identified by the number of the `rcu_obj` and the number of the assignment that created it.
-/

namespace Gapp.Model

/-- rcu.hpp:22-31, 111-120: A read section of a thread: when `read_lock` returned, how many `read_lock` calls are open, and the pointers loaded by `get` so far. -/
structure ReadSection where
  start : Nat
  depth : Nat
  held : List (Nat × Nat)
deriving DecidableEq

/-- rcu.hpp:22-45, 94-124: Where a thread is. -/
inductive RcuPc
  | idle
  /-- rcu.hpp:24: `writer_epoch` was loaded; before the store. Inside of another section if there is one. -/
  | locking (e : Nat) (outer : Option ReadSection)
  | reading (sec : ReadSection)
  /-- rcu.hpp:35, before the load; called at time `start` with the replaced pointer `old` (none for `wait_for_readers`) -/
  | syncLoad (start : Nat) (old : Option (Nat × Nat))
  /-- rcu.hpp:37, before `compare_exchange_strong` -/
  | syncCas (start : Nat) (old : Option (Nat × Nat)) (current : Nat)
  /-- rcu.hpp:43, before the load of the epoch of reader `i` -/
  | syncScan (start : Nat) (old : Option (Nat × Nat)) (target i : Nat)
  /-- rcu.hpp:100, `synchronize` has returned; before `delete` -/
  | synced (start : Nat) (old : Option (Nat × Nat))
deriving DecidableEq

/-- rcu.hpp:22-45, 94-124: The calls of a client. -/
inductive RcuOp
  | readLock
  | get (o : Nat)
  | readUnlock
  | assign (o : Nat)
  | waitForReaders
  /-- the oldest buffered store of the thread reaches the memory -/
  | flush
deriving DecidableEq

/-- rcu.hpp:48-75, 127: The epochs, the pointer, and where the threads are. -/
structure RcuState where
  clock : Nat
  writerEpoch : Nat
  /-- the current pointer of each object -/
  version : Nat → Nat
  freed : List (Nat × Nat)
  /-- `reader.epoch` of each thread; `none` is `NOT_READING` -/
  epoch : Nat → Option Nat
  buf : Nat → List (Option Nat)
  pc : Nat → RcuPc

/-- rcu.hpp:24, 30: A store to `reader.epoch` of thread `t`. -/
def rcuStore (tso : Bool) (s : RcuState) (t : Nat) (v : Option Nat) : RcuState :=
  if tso then { s with buf := upd s.buf t (s.buf t ++ [v]) } else { s with epoch := upd s.epoch t v }

/-- rcu.hpp:22-45, 94-124: Thread `t` goes on to another point of its program. -/
def rcuGoto (s : RcuState) (t : Nat) (p : RcuPc) : RcuState := { s with pc := upd s.pc t p }

/-- rcu.hpp:43: reader `i` does not hold up a writer with this target. -/
def epochPassed (target : Nat) : Option Nat → Bool
  | none => true
  | some e => target ≤ e

/-- rcu.hpp:22-45, 94-124: One step of thread `t` among `n` threads. -/
def rcuMove (tso : Bool) (n : Nat) (s : RcuState) (t : Nat) (op : RcuOp) : RcuState :=
  match s.pc t with
  | .idle =>
    match op with
    | .readLock => rcuGoto s t (.locking s.writerEpoch none)
    | .assign o =>
      -- rcu.hpp:97-98
      if s.buf t = [] then
        rcuGoto { s with version := upd s.version o (s.version o + 1) } t (.syncLoad s.clock (some (o, s.version o)))
      else s
    | .waitForReaders => rcuGoto s t (.syncLoad s.clock none)
    | _ => s
  | .locking e outer =>
    match outer with
    | none => rcuGoto (rcuStore tso s t (some e)) t (.reading ⟨s.clock, 1, []⟩)
    | some sec => rcuGoto (rcuStore tso s t (some e)) t (.reading { sec with depth := sec.depth + 1 })
  | .reading sec =>
    match op with
    | .readLock => rcuGoto s t (.locking s.writerEpoch (some sec))
    | .get o => rcuGoto s t (.reading { sec with held := (o, s.version o) :: sec.held })
    | .readUnlock =>
      -- rcu.hpp:30
      if sec.depth ≤ 1 then rcuGoto (rcuStore tso s t none) t .idle
      else rcuGoto (rcuStore tso s t none) t (.reading { sec with depth := sec.depth - 1 })
    | _ => s
  | .syncLoad start old => rcuGoto s t (.syncCas start old s.writerEpoch)
  | .syncCas start old current =>
    if s.buf t = [] then
      rcuGoto { s with writerEpoch := if s.writerEpoch = current then current + 1 else s.writerEpoch } t
        (.syncScan start old (current + 1) 0)
    else s
  | .syncScan start old target i =>
    if i < n then
      if epochPassed target (s.epoch i) then rcuGoto s t (.syncScan start old target (i + 1)) else s
    else rcuGoto s t (.synced start old)
  | .synced _ old => rcuGoto { s with freed := old.toList ++ s.freed } t .idle

/-- rcu.hpp:24, 30: The oldest store in the store buffer of thread `t` reaches the memory. -/
def rcuFlush (s : RcuState) (t : Nat) : RcuState :=
  match s.buf t with
  | [] => s
  | v :: rest => { s with epoch := upd s.epoch t v, buf := upd s.buf t rest }

/-- rcu.hpp:22-45, 94-124: One step: of a thread, or of a store buffer. -/
def rcuStep (tso : Bool) (n : Nat) (s : RcuState) (e : Nat × RcuOp) : RcuState :=
  let s' := if e.2 = .flush then rcuFlush s e.1 else rcuMove tso n s e.1 e.2
  { s' with clock := s.clock + 1 }

/-- rcu.hpp:62, 74: The state at the start. -/
def rcuInit : RcuState := ⟨0, 0, fun _ => 0, [], fun _ => none, fun _ => [], fun _ => .idle⟩

/-- rcu.hpp:22-45, 94-124: A history of `n` threads. -/
def rcuRun (tso : Bool) (n : Nat) (es : List (Nat × RcuOp)) : RcuState := es.foldl (rcuStep tso n) rcuInit

end Gapp.Model
