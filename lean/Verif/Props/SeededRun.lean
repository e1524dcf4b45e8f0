import Verif.Proofs.SeededRun
import Verif.Props.Rng
/-!
# C78: runs with the same seed give the same results

The documentation (docs/miscellaneous.md, "Determinism and reproducibility"):
```
rng::prng.seed(0x9e3779b97f4a7c15);
const auto solutions1 = ga.solve(f);
rng::prng.seed(0x9e3779b97f4a7c15);
const auto solutions2 = ga.solve(f);
assert(solutions1 == solutions2);
```
"As long as the PRNG is seeded with the same value before each run, the results from the runs will be the same. This will be true regardless of the number of threads used".

The runs are those of `Verif/Model/SeededRun.lean`: `seededRun W g turn prog es` is the state after the schedule `es` (which thread makes the next step) of a run with
`W` workers; `g` are the generators at its start, `turn` is the state that the earlier loops left in the scheduler of the pool. `ids` are the threads that have a generator, in
the order of their first draws.
-/

namespace Gapp.Props

open Gapp.Model Gapp.Proofs.SeededRun

variable {D : StdDists} {A R C S : Type}

/-! ## The same process -/

theorem ids_ops {ops : List (RngOp D)} : ∀ {g : RngGlobal D}, (∀ op ∈ ops, ∀ id, op ≠ .unregister id) → ids g <+: ids (rngRun g ops).1 := by
  induction ops with
  | nil => intro g _; exact List.prefix_refl _
  | cons op ops ih =>
    intro g h
    refine List.IsPrefix.trans ?_ (ih (g := (rngStep g op).1) (fun o ho => h o (by simp [ho])))
    cases op with
    | seed s => rw [seed_ids]
    | register id => exact ⟨[id], by simp [ids, rngStep, newGen]⟩
    | unregister id => exact absurd rfl (h _ (by simp) id)
    | use id u =>
      have : ids (rngStep g (.use id u)).1 = ids g := by
        simp only [ids, rngStep, useAt, List.map_map]
        apply List.map_congr_left
        intro x _
        simp only [Function.comp]
        split <;> simp [RegGen.use_id]
      rw [this]

/-- C78: the example of the documentation. The generators are seeded with `s`, and `solve` is called; later they are seeded with `s` again, and `solve` is called again. In the meantime
the threads may have drawn other numbers and new threads may have drawn their first ones, but no thread with a generator has ended. The results are the same,
whatever happened before the first run, and in whatever order the threads make their steps in the two runs: also if some of the workers draw their first numbers in the first run. -/
theorem C78_same_process_partial (ga : RandGa D C S R) (gens W : Nat) (g : RngGlobal D) (s : BitVec 64) (turn1 turn2 : Nat) (es1 es2 : List Nat) (a b : R) (ops : List (RngOp D))
    (hops : ∀ op ∈ ops, ∀ id, op ≠ .unregister id)
    (h1 : (seededRun W (rngStep g (.seed s)).1 turn1 (solveProg ga gens) es1).result = some a)
    (h2 : (seededRun W (rngStep (rngRun (seededRun W (rngStep g (.seed s)).1 turn1 (solveProg ga gens) es1).rng ops).1 (.seed s)).1 turn2 (solveProg ga gens) es2).result = some b) :
    a = b :=
  same_order h1 h2 ((ids_ops hops).trans (start_ids _ _ _))

/-- C78: the same for any other program that runs parallel loops one after the other. -/
theorem C78_loops_partial (prog : MainProg D A R) (W : Nat) (g : RngGlobal D) (s : BitVec 64) (turn1 turn2 : Nat) (es1 es2 : List Nat) (a b : R) (ops : List (RngOp D))
    (hops : ∀ op ∈ ops, ∀ id, op ≠ .unregister id)
    (h1 : (seededRun W (rngStep g (.seed s)).1 turn1 prog es1).result = some a)
    (h2 : (seededRun W (rngStep (rngRun (seededRun W (rngStep g (.seed s)).1 turn1 prog es1).rng ops).1 (.seed s)).1 turn2 prog es2).result = some b) :
    a = b :=
  same_order h1 h2 ((ids_ops hops).trans (start_ids _ _ _))

/-! ## Different processes -/

/-- C78: two runs with arbitrary, different pasts (e.g. in two processes), in which all of the threads (the workers `0 … W-1` and the calling thread `W`) already had generators,
created in the same order. -/
theorem C78_all_registered_partial (ga : RandGa D C S R) (gens W : Nat) (g1 g2 : RngGlobal D) (hsame : ids g1 = ids g2) (hall : ∀ t ≤ W, t ∈ ids g1)
    (s : BitVec 64) (turn1 turn2 : Nat) (es1 es2 : List Nat) (a b : R)
    (h1 : (seededRun W (rngStep g1 (.seed s)).1 turn1 (solveProg ga gens) es1).result = some a)
    (h2 : (seededRun W (rngStep g2 (.seed s)).1 turn2 (solveProg ga gens) es2).result = some b) : a = b := by
  have key : ∀ (es : List Nat) (st : SeededState D (List C) R), ids st.rng = ids g1 → ids (es.foldl (seededStep W) st).rng = ids g1 := by
    intro es
    induction es with
    | nil => intro st h; exact h
    | cons t es ih =>
      intro st h
      apply ih
      have acc : ∀ t ≤ W, ∀ u, ids (rngAccess st.rng t u).1 = ids g1 := by
        intro t ht u
        rcases ids_access_cases st.rng t u with e | ⟨hn, -⟩
        · rw [e, h]
        · exact absurd (h ▸ hall t ht) hn
      have items : ∀ t ≤ W, ∀ out i p rest, ids (itemsStep (A := List C) st.rng out t i p rest).1 = ids g1 := by
        intro t ht out i p rest
        rcases items_rng st.rng out t i p rest with e | ⟨u, e⟩
        · rw [e, h]
        · rw [e]; exact acc t ht u
      unfold seededStep
      split
      · rename_i ht
        unfold workerStep
        split
        · split <;> exact h
        · exact h
        · exact items t (by omega) _ _ _ _
      · split
        · unfold mainStep
          split
          · exact h
          · rename_i u _ _
            have := acc W (Nat.le_refl _) u
            split
            · rename_i g ha; rw [ha] at this; exact this
            · rename_i g o ha; rw [ha] at this; exact this
          · exact h
          · exact h
          · exact h
          · exact h
          · exact items W (Nat.le_refl _) _ _ _ _
          · exact h
          · split <;> exact h
        · exact h
  refine same_order h1 h2 ?_
  have k1 := key es1 (solveStart (rngStep g1 (.seed s)).1 turn1 (solveProg ga gens)) (seed_ids g1 s)
  have k2 := key es2 (solveStart (rngStep g2 (.seed s)).1 turn2 (solveProg ga gens)) ((seed_ids g2 s).trans hsame.symm)
  unfold seededRun
  rw [k1, k2]

/-- C78: with at most two threads (`thread_count() ≤ 2`) the runs of different processes give the same results, if the same threads had generators before, in the same order. -/
theorem C78_few_threads_partial (ga : RandGa D C S R) (gens W : Nat) (hW : W + 1 ≤ 2) (g1 g2 : RngGlobal D) (hsame : ids g1 = ids g2)
    (s : BitVec 64) (turn1 turn2 : Nat) (es1 es2 : List Nat) (a b : R)
    (h1 : (seededRun W (rngStep g1 (.seed s)).1 turn1 (solveProg ga gens) es1).result = some a)
    (h2 : (seededRun W (rngStep g2 (.seed s)).1 turn2 (solveProg ga gens) es2).result = some b) : a = b := by
  have k1 := (few_run (by omega) es1 (few_start W (rngStep g1 (.seed s)).1 turn1 (solveProg ga gens))).2.2
  have k2 := (few_run (by omega) es2 (few_start W (rngStep g2 (.seed s)).1 turn2 (solveProg ga gens))).2.2
  rw [seed_ids] at k1 k2
  rw [← hsame] at k2
  by_cases hp : ids (seededRun W (rngStep g1 (.seed s)).1 turn1 (solveProg ga gens) es1).rng <+: ids (seededRun W (rngStep g2 (.seed s)).1 turn2 (solveProg ga gens) es2).rng
  · exact same_order h1 h2 hp
  · refine (same_order h2 h1 ?_).symm
    unfold seededRun at hp ⊢
    rcases k1 with k1 | ⟨-, k1⟩ <;> rcases k2 with k2 | ⟨-, k2⟩ <;> rw [k1, k2] at hp ⊢ <;> simp at hp ⊢

/-- C78: with at most two threads the workers of the pool are never used: no worker gets a task in any run. -/
theorem C78_two_threads_idle (prog : MainProg D A R) (W : Nat) (hW : W + 1 ≤ 2) (g : RngGlobal D) (turn : Nat) (es : List Nat) (t : Nat) (ht : t < W) :
    (seededRun W g turn prog es).queues t = [] ∧ (seededRun W g turn prog es).cur t = none := by
  have h := (few_run (by omega) es (few_start W g turn prog)).1 t ht
  exact ⟨(load_zero h).2, (load_zero h).1⟩

/-- C78: no run gets stuck: from every state of a run, the threads can make steps until it ends. -/
theorem C78_never_stuck (prog : MainProg D A R) (W : Nat) (g : RngGlobal D) (s : BitVec 64) (turn : Nat) (es : List Nat) :
    ∃ es' a, (seededRun W (rngStep g (.seed s)).1 turn prog (es ++ es')).result = some a := by
  have hgood : Good W (seedSequence s) (es.foldl (seededStep W) (solveStart (rngStep g (.seed s)).1 turn prog)) :=
    Good.steps ⟨inv_start W _ turn prog, seed_global g s⟩ es
  obtain ⟨es', a, h⟩ := can_end hgood
  exact ⟨es', a, by unfold seededRun; rw [foldl_app]; exact h⟩

/-! ## Examples -/

/-- A GA with a population of three numbers; a mutation draws a new number. -/
def demoRandGa : RandGa exampleDists Nat (List Nat) (List Nat) where
  popSize := 3
  setup := .done ()
  generate := .use .word (fun o => .done (Nat.mod o 100))
  preset := []
  evaluate := fun c => .ret c
  init := fun pop => .done pop
  prepare := fun st => .done st
  select := fun st => .ret (st.headD 0)
  crossover := fun _ p q => .ret (p, q)
  mutate := fun _ c => .use .word (fun o => .ret (c + 100 * Nat.mod o 100))
  reevaluate := fun _ c => .ret c
  update := fun _ children => .done children
  stop := fun st => .done (false, st)
  finish := fun st => .done st

/-- The steps before the second loop of `advance`, with three workers. -/
def demoStart : List Nat := List.replicate 12 3 ++ [0, 0, 0, 1, 1, 1] ++ List.replicate 12 3

/-- Worker 2 runs its task before worker 0. -/
def demoFirst : List Nat := demoStart ++ List.replicate 6 2 ++ List.replicate 6 0 ++ List.replicate 8 3

/-- Worker 0 runs its task before worker 2. -/
def demoSecond : List Nat := demoStart ++ List.replicate 6 0 ++ List.replicate 6 2 ++ List.replicate 8 3

/-- The generators at the start of a process. -/
def demoFresh : RngGlobal exampleDists := rngInit exampleDists 1#64

-- The hypotheses of `C78_same_process_partial` are met by two runs in a new process, where the three threads that draw numbers get their generators in the first one, and where the workers
-- make their steps in different orders.
example : (seededRun 3 (rngStep demoFresh (.seed 5#64)).1 0 (solveProg demoRandGa 1) demoFirst).result = some [8839, 7539, 339] := by decide +kernel
example : (seededRun 3 (rngStep (rngRun (seededRun 3 (rngStep demoFresh (.seed 5#64)).1 0 (solveProg demoRandGa 1) demoFirst).rng
    [.use 3 .word, .register 9, .use 0 .bool]).1 (.seed 5#64)).1 6 (solveProg demoRandGa 1) demoSecond).result = some [8839, 7539, 339] := by decide +kernel
example : ids (seededRun 3 (rngStep demoFresh (.seed 5#64)).1 0 (solveProg demoRandGa 1) demoFirst).rng = [3, 2, 0] := by decide +kernel

-- A process where all of the threads have generators, for `C78_all_registered_partial`.
example : ∀ t ≤ 3, t ∈ ids (rngRun demoFresh [.register 3, .register 0, .register 2, .use 0 .word, .register 1]).1 := by decide +kernel
example : (seededRun 3 (rngStep (rngRun demoFresh [.register 3, .register 0, .register 2, .use 0 .word, .register 1]).1 (.seed 5#64)).1 4 (solveProg demoRandGa 1) demoFirst).result
    = (seededRun 3 (rngStep (rngRun demoFresh [.register 3, .register 0, .register 2, .register 1]).1 (.seed 5#64)).1 0 (solveProg demoRandGa 1) demoSecond).result := by decide +kernel

-- Two threads.
example : (seededRun 1 (rngStep demoFresh (.seed 5#64)).1 0 (solveProg demoRandGa 1) (List.replicate 40 1)).result ≠ none := by decide +kernel

/-! ## What is not true -/

/-- C78: the documented claim does not hold for two processes. Both seed the generators with the same value before their first run, and use the same number of threads (four). The
workers get their generators in the order of their first draws, which depends on the schedule, so the results differ. -/
theorem C78_processes_violated : ∃ (ga : RandGa exampleDists Nat (List Nat) (List Nat)) (gens W : Nat) (s : BitVec 64) (es1 es2 : List Nat) (a b : List Nat),
    (seededRun W (rngStep (rngInit exampleDists 1#64) (.seed s)).1 0 (solveProg ga gens) es1).result = some a ∧
    (seededRun W (rngStep (rngInit exampleDists 1#64) (.seed s)).1 0 (solveProg ga gens) es2).result = some b ∧ a ≠ b :=
  ⟨demoRandGa, 1, 3, 5#64, demoFirst, demoSecond, [8839, 7539, 339], [7539, 8839, 339], by decide +kernel, by decide +kernel, by decide⟩

/-- C78: the documented claim does not hold within a process either, if a thread that drew random numbers before the first run ends between the runs: the generators of the
other threads then move up in the order. The schedules of the two runs are the same. -/
theorem C78_thread_exit_violated : ∃ (ga : RandGa exampleDists Nat (List Nat) (List Nat)) (gens W other : Nat) (s : BitVec 64) (es : List Nat) (a b : List Nat),
    let before := (rngRun (rngInit exampleDists 1#64) [.register other, .use other .word]).1
    let first := seededRun W (rngStep before (.seed s)).1 0 (solveProg ga gens) es
    let second := seededRun W (rngRun first.rng [.unregister other, .seed s]).1 0 (solveProg ga gens) es
    W < other ∧ first.result = some a ∧ second.result = some b ∧ a ≠ b :=
  ⟨demoRandGa, 1, 3, 9, 5#64, demoFirst,
    (seededRun 3 (rngStep (rngRun demoFresh [.register 9, .use 9 .word]).1 (.seed 5#64)).1 0 (solveProg demoRandGa 1) demoFirst).result.getD [], [8839, 7539, 339], by decide,
    by decide +kernel, by decide +kernel, by decide +kernel⟩

end Gapp.Props
