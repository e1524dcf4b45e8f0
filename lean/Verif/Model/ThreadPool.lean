import Verif.Model.MergePareto
/-!
# The thread pool

Source: `/repo/src/utility/thread_pool.hpp:27-155`, `/repo/src/utility/latch.hpp:13-39`.

There are `W` workers, the threads `0 … W-1`; the other threads are threads of the user. The threads interleave at the accesses to the shared state: the queues, the turn counter, the latches and the exception slots. Each loop call (`execute_loop`) has a number, the time of its start.

Simplifications: the pool is not stopped while loops run; the queues are those of C42 (`emplace` and `take` are atomic; `take` blocks on an empty queue); the bodies of the loops only run further loops or throw, their other actions do not matter here, and they do not catch exceptions; sequential consistency.
-/

namespace Gapp.Model

/-! ## Splitting a loop into tasks -/

/-- thread_pool.hpp:45-46: `task_count`. -/
def poolTaskCount (workers iterations blockSize : Nat) : Nat :=
  let blockCount := iterations / blockSize + (if iterations % blockSize ≠ 0 then 1 else 0)
  min (min (workers + (if workers = 0 then 1 else 0)) iterations) blockCount

/-- thread_pool.hpp:52-55: the blocks of the submitted tasks `i …`, of which `k` remain, and the elements that are left to the caller. -/
def cutBlocks {α : Type} (step rem : Nat) : (k i : Nat) → List α → List (List α) × List α
  | 0, _, xs => ([], xs)
  | k + 1, i, xs =>
    let len := step + (if i < rem then 1 else 0)
    let r := cutBlocks step rem k (i + 1) (xs.drop len)
    (xs.take len :: r.1, r.2)

/-- thread_pool.hpp:44-68: the blocks of the submitted tasks and the block of the caller. -/
def loopBlocks {α : Type} (workers blockSize : Nat) (xs : List α) : List (List α) × List α :=
  let count := poolTaskCount workers xs.length blockSize
  cutBlocks (xs.length / count) (xs.length % count) (count - 1) 0 xs

/-! ## Programs -/

/-- thread_pool.hpp:31-83: What a loop body (or a thread of the user) does. -/
inductive PoolProg (E : Type)
  | done
  | throw (e : E)
  /-- `parallel_for` over the iterations with block size `block + 1` (a block size of 0 is a division by zero), then `next` -/
  | loop (iters : List (PoolProg E)) (block : Nat) (next : PoolProg E)

/-- thread_pool.hpp:59, 68: An iteration: its index in the loop and its body. -/
abbrev PoolItem (E : Type) := Nat × PoolProg E

/-- thread_pool.hpp:55-63: A submitted task: the loop and the iterations of its block. -/
structure PoolTask (E : Type) where
  loop : Nat
  items : List (PoolItem E)

/-- thread_pool.hpp:31-83: What a thread is doing; the calls that are open in a thread are a stack of these. -/
inductive PoolFrame (E : Type)
  /-- runs an iteration (`tag`: the loop and the index; none for a thread of the user) -/
  | body (tag : Option (Nat × Nat)) (p : PoolProg E)
  /-- thread_pool.hpp:52-66: the tasks that have not been submitted; `current_turn` for the first one, if it has been fetched -/
  | submit (l : Nat) (tasks : List (List (PoolItem E))) (own : List (PoolItem E)) (slot : Option Nat)
  /-- thread_pool.hpp:68: the block of the caller -/
  | own (l : Nat) (todo : List (PoolItem E))
  /-- thread_pool.hpp:76, before `empty` -/
  | wait (l : Nat)
  /-- thread_pool.hpp:76, before `take` -/
  | taking (l : Nat)
  /-- thread_pool.hpp:77 and 72, before the latch is read -/
  | check (l : Nat)
  /-- thread_pool.hpp:59-61: a task -/
  | task (l : Nat) (todo : List (PoolItem E))

/-- thread_pool.hpp:31-83: A frame and the time at which it was entered. -/
structure PoolCall (E : Type) where
  time : Nat
  frame : PoolFrame E

/-- thread_pool.hpp:44-50, 127-128, 153-154: The queues, the latches and the exceptions of the loops, and the stacks of the threads. -/
structure PoolState (E : Type) where
  clock : Nat
  turn : Nat
  queues : Nat → List (PoolTask E)
  calls : Nat → List (PoolCall E)
  /-- `remaining_tasks` of each loop -/
  latch : Nat → Nat
  /-- `has_exception` and `exception` of each loop -/
  exc : Nat → Option E
  /-- the call of the loop has not ended, so its local variables exist -/
  alive : Nat → Bool
  /-- an object was accessed after its lifetime -/
  failed : Bool
  -- what happened so far:
  /-- the number of iterations of each loop -/
  size : Nat → Nat
  started : List (Nat × Nat)
  /-- the iterations that returned or threw -/
  ended : List (Nat × Nat)
  /-- iterations that will not run because of an exception -/
  skipped : List (Nat × Nat)
  /-- the exceptions that left an iteration of a loop -/
  thrown : List (Nat × E)
  /-- the results of the loop calls -/
  returned : List (Nat × Option E)
  /-- the loop calls that ended while tasks of the loop remained -/
  leftEarly : List Nat
  /-- the submitted tasks: the turn, the number of the queue and the indices of the elements -/
  submitted : List (Nat × Nat × List Nat)

variable {E : Type}

/-- thread_pool.hpp:81: An exception arrives in the iteration that made the loop call. -/
def throwInto (e : E) : List (PoolCall E) → List (PoolCall E)
  | ⟨τ, .body tag _⟩ :: rest => ⟨τ, .body tag (.throw e)⟩ :: rest
  | rest => rest

/-- thread_pool.hpp:59-61: The exception `e` leaves the iteration `tag`; `rest` is the stack below it. -/
def poolRaise (s : PoolState E) (t : Nat) (tag : Option (Nat × Nat)) (e : E) (rest : List (PoolCall E)) : PoolState E :=
  match rest with
  | ⟨τ, .task l todo⟩ :: rest' =>
    -- thread_pool.hpp:60, 38-42
    { s with
      calls := upd s.calls t (⟨τ, .task l []⟩ :: rest')
      exc := upd s.exc l (some ((s.exc l).getD e))
      failed := s.failed || !s.alive l
      ended := tag.toList ++ s.ended
      thrown := (l, e) :: s.thrown
      skipped := todo.map (fun x => (l, x.1)) ++ s.skipped }
  | ⟨_, .own l todo⟩ :: rest' =>
    -- thread_pool.hpp:68: the exception leaves `execute_loop`
    { s with
      calls := upd s.calls t (throwInto e rest')
      alive := upd s.alive l false
      ended := tag.toList ++ s.ended
      thrown := (l, e) :: s.thrown
      skipped := todo.map (fun x => (l, x.1)) ++ s.skipped
      returned := (l, some e) :: s.returned
      leftEarly := if s.latch l ≠ 0 then l :: s.leftEarly else s.leftEarly }
  | _ => { s with calls := upd s.calls t rest, ended := tag.toList ++ s.ended }

/-- thread_pool.hpp:44-50: a loop call over at least one element. -/
def poolStart (W : Nat) (s : PoolState E) (t τ : Nat) (tag : Option (Nat × Nat)) (iters : List (PoolProg E))
    (block : Nat) (next : PoolProg E) (rest : List (PoolCall E)) : PoolState E :=
  let items := iters.zipIdx.map (fun x => (x.2, x.1))
  let blocks := loopBlocks W (block + 1) items
  { s with
    calls := upd s.calls t (⟨s.clock, .submit s.clock blocks.1 blocks.2 none⟩ :: ⟨τ, .body tag next⟩ :: rest)
    latch := upd s.latch s.clock (poolTaskCount W iters.length (block + 1) - 1)
    exc := upd s.exc s.clock none
    alive := upd s.alive s.clock true
    size := upd s.size s.clock iters.length
    clock := s.clock + 1 }

/-- thread_pool.hpp:81: the call of loop `l` ends. -/
def poolReturn (s : PoolState E) (t l : Nat) (rest : List (PoolCall E)) : PoolState E :=
  { s with
    calls := upd s.calls t (match s.exc l with
      | none => rest
      | some e => throwInto e rest)
    alive := upd s.alive l false
    returned := (l, s.exc l) :: s.returned }

/-- thread_pool.hpp:31-83, 117-125: One step of thread `t`. -/
def poolStep (W : Nat) (s : PoolState E) (t : Nat) : PoolState E :=
  match s.calls t with
  | [] =>
    -- thread_pool.hpp:121-123
    if t < W then
      match s.queues t with
      | [] => s
      | k :: q =>
        { s with
          calls := upd s.calls t [⟨s.clock, .task k.loop k.items⟩]
          queues := upd s.queues t q
          clock := s.clock + 1 }
    else s
  | ⟨_, .body tag .done⟩ :: rest => { s with calls := upd s.calls t rest, ended := tag.toList ++ s.ended }
  | ⟨_, .body tag (.throw e)⟩ :: rest => poolRaise s t tag e rest
  | ⟨τ, .body tag (.loop [] _ next)⟩ :: rest =>
    -- thread_pool.hpp:33
    { s with calls := upd s.calls t (⟨τ, .body tag next⟩ :: rest) }
  | ⟨τ, .body tag (.loop (p :: ps) block next)⟩ :: rest => poolStart W s t τ tag (p :: ps) block next rest
  | ⟨τ, .submit l (b :: bs) own none⟩ :: rest =>
    -- thread_pool.hpp:133
    { s with
      calls := upd s.calls t (⟨τ, .submit l (b :: bs) own (some s.turn)⟩ :: rest)
      turn := s.turn + 1 }
  | ⟨τ, .submit l (b :: bs) own (some n)⟩ :: rest =>
    -- thread_pool.hpp:64, 134
    { s with
      calls := upd s.calls t (⟨τ, .submit l bs own none⟩ :: rest)
      queues := upd s.queues (n % W) (s.queues (n % W) ++ [⟨l, b⟩])
      submitted := (n, n % W, b.map (·.1)) :: s.submitted }
  | ⟨τ, .submit l [] own _⟩ :: rest => { s with calls := upd s.calls t (⟨τ, .own l own⟩ :: rest) }
  | ⟨τ, .own l (i :: todo)⟩ :: rest =>
    { s with
      calls := upd s.calls t (⟨s.clock, .body (some (l, i.1)) i.2⟩ :: ⟨τ, .own l todo⟩ :: rest)
      started := (l, i.1) :: s.started
      clock := s.clock + 1 }
  | ⟨τ, .own l []⟩ :: rest =>
    -- thread_pool.hpp:70: a worker has a local queue
    { s with calls := upd s.calls t (⟨τ, if t < W then .wait l else .check l⟩ :: rest) }
  | ⟨τ, .wait l⟩ :: rest =>
    { s with calls := upd s.calls t (⟨τ, if (s.queues t).isEmpty then .check l else .taking l⟩ :: rest) }
  | ⟨τ, .taking l⟩ :: rest =>
    match s.queues t with
    | [] => s
    | k :: q =>
      { s with
        calls := upd s.calls t (⟨s.clock, .task k.loop k.items⟩ :: ⟨τ, .wait l⟩ :: rest)
        queues := upd s.queues t q
        clock := s.clock + 1 }
  | ⟨τ, .check l⟩ :: rest =>
    if s.latch l = 0 then poolReturn s t l rest
    else if t < W then { s with calls := upd s.calls t (⟨τ, .wait l⟩ :: rest) }
    else s
  | ⟨τ, .task l (i :: todo)⟩ :: rest =>
    { s with
      calls := upd s.calls t (⟨s.clock, .body (some (l, i.1)) i.2⟩ :: ⟨τ, .task l todo⟩ :: rest)
      started := (l, i.1) :: s.started
      failed := s.failed || !s.alive l
      clock := s.clock + 1 }
  | ⟨_, .task l []⟩ :: rest =>
    { s with
      calls := upd s.calls t rest
      latch := upd s.latch l (s.latch l - 1)
      failed := s.failed || !s.alive l }

/-- thread_pool.hpp:117-128, 153: The workers are idle; the threads of the user start with their programs. -/
def poolInit (W : Nat) (progs : List (PoolProg E)) : PoolState E where
  clock := 1
  turn := 0
  queues := fun _ => []
  calls := fun t => if t < W then [] else
    match progs[t - W]? with
    | none => []
    | some p => [⟨0, .body none p⟩]
  latch := fun _ => 0
  exc := fun _ => none
  alive := fun _ => false
  failed := false
  size := fun _ => 0
  started := []
  ended := []
  skipped := []
  thrown := []
  returned := []
  leftEarly := []
  submitted := []

/-- thread_pool.hpp:31-83, 117-125: The state after a schedule (a list of thread numbers). -/
def poolRun (W : Nat) (progs : List (PoolProg E)) (es : List Nat) : PoolState E :=
  es.foldl (poolStep W) (poolInit W progs)

end Gapp.Model
