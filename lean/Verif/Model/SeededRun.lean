import Verif.Model.ThreadPool
import Verif.Model.Rng
/-!
# Runs of a GA on the thread pool with the generators of the threads

Source: `/repo/src/utility/thread_pool.hpp:31-138`, `/repo/src/utility/rng.hpp:233-306`, `/repo/src/core/ga_base.impl.hpp:315-360, 447-579`.

The pool has `W` workers, the threads `0 … W-1`; the thread `W` calls `solve`. Each thread draws its random numbers from its own generator, which
is registered at its first draw. The threads interleave at every draw, every write of a result, and every access to the queues and the latch.

Simplifications: the bodies of the parallel loops run no loops of their own and throw nothing, read only what was there before the loop
(and their own element), and write only their own element; other threads do not use the pool or the generators during the run; the submission of
a task (`fetch_add` and `emplace`) is one step, as only the thread `W` submits tasks; sequential consistency.
-/

namespace Gapp.Model

/-- rng.hpp:239-242, 325-372: A function that may draw random numbers, by its draws and its result. -/
inductive RandProg (D : StdDists) (A : Type)
  | ret (a : A)
  | use (u : Use D) (k : D.Out → RandProg D A)

/-- rng.hpp:239-242: One function after the other. -/
def RandProg.bind {D : StdDists} {A B : Type} : RandProg D A → (A → RandProg D B) → RandProg D B
  | .ret a, f => f a
  | .use u k, f => .use u (fun o => (k o).bind f)

/-- thread_pool.hpp:164-175: A function of the thread that runs the GA: it may draw random numbers and run parallel loops with block size `block + 1`. The bodies of a loop are the `items`;
`next` gets what they have written, by index. -/
inductive MainProg (D : StdDists) (A R : Type)
  | done (a : R)
  | use (u : Use D) (k : D.Out → MainProg D A R)
  | loop (items : List (RandProg D A)) (block : Nat) (next : (Nat → Option A) → MainProg D A R)

/-- thread_pool.hpp:164-175: One function after the other. -/
def MainProg.bind {D : StdDists} {A R R' : Type} : MainProg D A R → (R → MainProg D A R') → MainProg D A R'
  | .done a, f => f a
  | .use u k, f => .use u (fun o => (k o).bind f)
  | .loop items block next, f => .loop items block (fun out => (next out).bind f)

/-- rng.hpp:239-242: The thread that runs the GA calls a function that may draw random numbers. -/
def RandProg.onMain {D : StdDists} {A R : Type} : RandProg D R → MainProg D A R
  | .ret a => .done a
  | .use u k => .use u (fun o => (k o).onMain)

/-- thread_pool.hpp:52-79: Where the thread that runs the GA is. -/
inductive MainAt (D : StdDists) (A R : Type)
  /-- outside of the loops -/
  | run (p : MainProg D A R)
  /-- thread_pool.hpp:52-66: the tasks that have not been submitted, and the block of the caller -/
  | submit (tasks : List (List (Nat × RandProg D A))) (own : List (Nat × RandProg D A)) (next : (Nat → Option A) → MainProg D A R)
  /-- thread_pool.hpp:68 -/
  | own (todo : List (Nat × RandProg D A)) (next : (Nat → Option A) → MainProg D A R)
  /-- thread_pool.hpp:70-72 -/
  | wait (next : (Nat → Option A) → MainProg D A R)

/-- thread_pool.hpp:50, 127-128, 153-154 and rng.hpp:303-305: The generators, the pool, and the elements that the bodies of the current loop write. -/
structure SeededState (D : StdDists) (A R : Type) where
  rng : RngGlobal D
  turn : Nat
  queues : Nat → List (List (Nat × RandProg D A))
  /-- the task that a worker is running -/
  cur : Nat → Option (List (Nat × RandProg D A))
  latch : Nat
  out : Nat → Option A
  main : MainAt D A R

variable {D : StdDists} {A R : Type}

/-- rng.hpp:237-242, 272-279, 305: Thread `t` uses its generator. If it has none yet, the generator is constructed (`none`: this is all that happens in the step). -/
def rngAccess (g : RngGlobal D) (t : Nat) (u : Use D) : RngGlobal D × Option D.Out :=
  match g.gens.find? (fun r => r.id == t) with
  | none => ((rngStep g (.register t)).1, none)
  | some r => ((rngStep g (.use t u)).1, some (r.use u).1)

/-- thread_pool.hpp:59, 68: Thread `t` goes on with the first of the `todo` elements: the generators, the elements written, and what remains of `todo`. -/
def itemsStep (g : RngGlobal D) (out : Nat → Option A) (t : Nat) (i : Nat) (p : RandProg D A) (rest : List (Nat × RandProg D A)) :
    RngGlobal D × (Nat → Option A) × List (Nat × RandProg D A) :=
  match p with
  | .ret a => (g, upd out i (some a), rest)
  | .use u k =>
    match rngAccess g t u with
    | (g', none) => (g', out, (i, .use u k) :: rest)
    | (g', some o) => (g', out, (i, k o) :: rest)

/-- thread_pool.hpp:117-125, 59-61: A step of worker `t`. -/
def workerStep (s : SeededState D A R) (t : Nat) : SeededState D A R :=
  match s.cur t with
  | none =>
    match s.queues t with
    | [] => s
    | k :: q => { s with cur := upd s.cur t (some k), queues := upd s.queues t q }
  | some [] => { s with cur := upd s.cur t none, latch := s.latch - 1 }
  | some ((i, p) :: rest) =>
    let x := itemsStep s.rng s.out t i p rest
    { s with rng := x.1, out := x.2.1, cur := upd s.cur t (some x.2.2) }

/-- thread_pool.hpp:31-83: A step of the thread that runs the GA. -/
def mainStep (W : Nat) (s : SeededState D A R) : SeededState D A R :=
  match s.main with
  | .run (.done _) => s
  | .run (.use u k) =>
    match rngAccess s.rng W u with
    | (g, none) => { s with rng := g }
    | (g, some o) => { s with rng := g, main := .run (k o) }
  | .run (.loop [] _ next) => { s with main := .run (next (fun _ => none)) }
  | .run (.loop (p :: ps) block next) =>
    let blocks := loopBlocks W (block + 1) ((p :: ps).zipIdx.map (fun x => (x.2, x.1)))
    { s with
      main := .submit blocks.1 blocks.2 next
      latch := poolTaskCount W (p :: ps).length (block + 1) - 1
      out := fun _ => none }
  | .submit (b :: bs) own next =>
    -- thread_pool.hpp:64, 133-134
    { s with
      main := .submit bs own next
      turn := s.turn + 1
      queues := upd s.queues (s.turn % W) (s.queues (s.turn % W) ++ [b]) }
  | .submit [] own next => { s with main := .own own next }
  | .own ((i, p) :: rest) next =>
    let x := itemsStep s.rng s.out W i p rest
    { s with rng := x.1, out := x.2.1, main := .own x.2.2 next }
  | .own [] next => { s with main := .wait next }
  | .wait next => if s.latch = 0 then { s with main := .run (next s.out) } else s

/-- thread_pool.hpp:27-155: A step of thread `t`. -/
def seededStep (W : Nat) (s : SeededState D A R) (t : Nat) : SeededState D A R :=
  if t < W then workerStep s t else if t = W then mainStep W s else s

/-- thread_pool.hpp:84-87: `reset_scheduler`: the new value of `turn_`. -/
def resetScheduler (_turn : Nat) : Nat := 0

/-- ga_base.impl.hpp:321: The state at the start of `solve`, when nobody else uses the pool. `turn` is the value left by the earlier loops. -/
def solveStart (g : RngGlobal D) (turn : Nat) (prog : MainProg D A R) : SeededState D A R where
  rng := g
  turn := resetScheduler turn
  queues := fun _ => []
  cur := fun _ => none
  latch := 0
  out := fun _ => none
  main := .run prog

/-- ga_base.impl.hpp:541-558: The state of a run after a schedule (a list of thread numbers). -/
def seededRun (W : Nat) (g : RngGlobal D) (turn : Nat) (prog : MainProg D A R) (es : List Nat) : SeededState D A R :=
  es.foldl (seededStep W) (solveStart g turn prog)

/-- ga_base.impl.hpp:556, 577: The result of a run that has ended. -/
def SeededState.result (s : SeededState D A R) : Option R :=
  match s.main with
  | .run (.done a) => some a
  | _ => none

/-! ## `solve` -/

/-- ga_base.impl.hpp:315-556: The parts of a GA, as functions that may draw random numbers. `C`: the candidates, `S`: the state of the GA (the population, the
algorithm, the stop condition, …), `R`: the result of `solve`. The parts that run in the calling thread may also run parallel loops (e.g. the non-dominated
sorting); the simplifications above apply to their bodies (those of `mergeParetoSets` share data, and are not covered: see C65). -/
structure RandGa (D : StdDists) (C S R : Type) where
  popSize : Nat
  /-- `initialize()` and `findNumberOfObjectives()`, ga_base.impl.hpp:334-337 -/
  setup : MainProg D (List C) Unit
  /-- ga_base.impl.hpp:376 -/
  generate : MainProg D (List C) C
  /-- the initial population, at most `popSize` candidates of which are used, ga_base.impl.hpp:371-372 -/
  preset : List C
  /-- ga_base.impl.hpp:339, 456-484 -/
  evaluate : C → RandProg D C
  /-- ga_base.impl.hpp:340-359 -/
  init : List C → MainProg D (List C) S
  /-- ga_base.impl.hpp:383-391 -/
  prepare : S → MainProg D (List C) S
  /-- ga_base.impl.hpp:393-399 -/
  select : S → RandProg D C
  /-- ga_base.impl.hpp:401-407 -/
  crossover : S → C → C → RandProg D (C × C)
  /-- `mutate` and `repair`, ga_base.impl.hpp:408-433, 526-527 -/
  mutate : S → C → RandProg D C
  /-- `evaluate` in the second loop of `advance`, ga_base.impl.hpp:456-484, 528 -/
  reevaluate : S → C → RandProg D C
  /-- ga_base.impl.hpp:531-537 -/
  update : S → List C → MainProg D (List C) S
  /-- ga_base.impl.hpp:447-453 -/
  stop : S → MainProg D (List C) (Bool × S)
  /-- ga_base.impl.hpp:554-556 -/
  finish : S → MainProg D (List C) R

variable {C S : Type}

/-- ga_base.impl.hpp:374-378: `k` more candidates are generated. -/
def generateMore (gen : MainProg D A C) : Nat → List C → MainProg D A (List C)
  | 0, pop => .done pop
  | k + 1, pop => gen.bind (fun c => generateMore gen k (pop ++ [c]))

/-- ga_base.impl.hpp:339, 515, 524: A parallel loop with block size 1; the results of its `n` bodies, in order. -/
def loopAll (items : List (RandProg D (List C))) (next : List C → MainProg D (List C) R) : MainProg D (List C) R :=
  .loop items 0 (fun out => next ((List.range items.length).flatMap (fun i => (out i).getD [])))

/-- ga_base.impl.hpp:517, 522: `crossover(select(), select())`. The order of the two calls is unspecified; here the first argument is evaluated first. -/
def breed (ga : RandGa D C S R) (st : S) : RandProg D (C × C) :=
  (ga.select st).bind (fun p1 => (ga.select st).bind (fun p2 => ga.crossover st p1 p2))

/-- ga_base.impl.hpp:524-531: The second loop of `advance`, and the rest of it. -/
def advanceChildren (ga : RandGa D C S R) (st : S) (children : List C) : MainProg D (List C) S :=
  loopAll (children.map (fun c => (ga.mutate st c).bind (fun c => (ga.reevaluate st c).bind (fun c => .ret [c])))) (ga.update st)

/-- ga_base.impl.hpp:508-538 `advance`. -/
def advanceProg (ga : RandGa D C S R) (st : S) : MainProg D (List C) S :=
  (ga.prepare st).bind (fun st =>
    loopAll (List.replicate (ga.popSize / 2) ((breed ga st).bind (fun c => .ret [c.1, c.2]))) (fun children =>
      if ga.popSize % 2 = 1 then ((breed ga st).onMain).bind (fun c => advanceChildren ga st (children ++ [c.1]))
      else advanceChildren ga st children))

/-- ga_base.impl.hpp:549-553: The main loop, which makes at most `gens` generations. -/
def generationsProg (ga : RandGa D C S R) : Nat → S → MainProg D (List C) S
  | 0, st => .done st
  | k + 1, st => (ga.stop st).bind (fun x => if x.1 then .done x.2 else (advanceProg ga x.2).bind (generationsProg ga k))

/-- ga_base.impl.hpp:315-360, 541-557 `solve`. Simplification: the run ends after `gens` generations at the latest (the limit on the generations is checked
together with the stop condition). -/
def solveProg (ga : RandGa D C S R) (gens : Nat) : MainProg D (List C) R :=
  ga.setup.bind (fun _ =>
    (generateMore ga.generate (ga.popSize - ga.preset.length) (ga.preset.take ga.popSize)).bind (fun pop =>
      loopAll (pop.map (fun c => (ga.evaluate c).bind (fun c => .ret [c]))) (fun pop =>
        (ga.init pop).bind (fun st => (generationsProg ga gens st).bind ga.finish))))

end Gapp.Model
