import Verif.Proofs.ThreadPoolFlat

/-!
# The thread pool (C39, C40, C41)

`poolRun W progs es` is the state after the schedule `es` (the numbers of the threads that make a step, in order) of a pool with `W` workers, when the threads of the user run the programs `progs`. `size l` is the number of elements of loop call `l`; `started`, `ended`, `thrown` and `returned` record what happened.
-/

namespace Gapp.Props

open Gapp.Model

variable {E : Type}

/-! ## C39 -/

/-- **C39**: the blocks of a loop over `n` elements, in order, are the elements; they have the same number of elements up to one, none is empty, and there are at most as many as workers (or one, if there are none). -/
theorem C39_blocks {α : Type} (W b : Nat) (xs : List α) (hb : 0 < b) (hx : xs ≠ []) :
    let r := loopBlocks W b xs
    (r.1 ++ [r.2]).flatten = xs ∧ (r.1 ++ [r.2]).length ≤ max W 1 ∧
      ∃ step, 0 < step ∧ r.2.length = step ∧ ∀ block ∈ r.1, block.length = step ∨ block.length = step + 1 := by
  have hcut : ∀ (step rem k i : Nat) (ys : List α), rem ≤ i + k → ys.length = step * (k + 1) + (rem - i) →
      (cutBlocks step rem k i ys).2.length = step ∧
        ∀ block ∈ (cutBlocks step rem k i ys).1, block.length = step ∨ block.length = step + 1 := by
    intro step rem k
    induction k with
    | zero =>
      intro i ys h1 h2
      refine ⟨?_, fun block hm => by cases hm⟩
      show ys.length = step
      rw [h2]
      omega
    | succ k ih =>
      intro i ys h1 h2
      unfold cutBlocks
      simp only
      have hmul : step * (k + 1 + 1) = step * (k + 1) + step := by rw [Nat.mul_add step (k + 1) 1, Nat.mul_one]
      rw [hmul] at h2
      obtain ⟨h3, h4⟩ := ih (i + 1) (ys.drop (step + if i < rem then 1 else 0)) (by omega) (by
        rw [List.length_drop, h2]
        split <;> omega)
      refine ⟨h3, fun block hm => ?_⟩
      rcases List.mem_cons.1 hm with hm | hm
      · rw [hm, List.length_take, h2]
        split <;> omega
      · exact h4 block hm
  have hn : 0 < xs.length := List.length_pos_iff.2 hx
  have hpos := poolTaskCount_pos (W := W) hn hb
  have hle := poolTaskCount_le W xs.length b
  have hmax : poolTaskCount W xs.length b ≤ max W 1 := by
    unfold poolTaskCount
    simp only
    have : W + (if W = 0 then 1 else 0) ≤ max W 1 := by split <;> omega
    omega
  obtain ⟨h1, h2⟩ := hcut (xs.length / poolTaskCount W xs.length b) (xs.length % poolTaskCount W xs.length b)
    (poolTaskCount W xs.length b - 1) 0 xs (by have := Nat.mod_lt xs.length hpos; omega) (by
      rw [Nat.sub_add_cancel hpos, Nat.sub_zero, Nat.mul_comm]
      exact (Nat.div_add_mod _ _).symm)
  refine ⟨?_, ?_, xs.length / poolTaskCount W xs.length b, Nat.div_pos hle hpos, h1, h2⟩
  · rw [List.flatten_append, List.flatten_singleton]
    exact loopBlocks_flatten W b xs
  · rw [List.length_append, loopBlocks_length]
    show poolTaskCount W xs.length b - 1 + 1 ≤ _
    omega

example : loopBlocks 3 2 [10, 11, 12, 13, 14, 15, 16, 17] = ([[10, 11, 12], [13, 14, 15]], [16, 17]) ∧
    loopBlocks 3 5 [10, 11, 12, 13, 14, 15, 16, 17] = ([[10, 11, 12, 13]], [14, 15, 16, 17]) ∧
    loopBlocks 0 1 [10, 11, 12] = ([], [10, 11, 12]) := by decide +kernel

/-- **C39**: no iteration is started twice, and only the elements of the loop have iterations. -/
theorem C39_at_most_once (W : Nat) (progs : List (PoolProg E)) (es : List Nat) (l i : Nat) :
    (poolRun W progs es).started.count (l, i) ≤ (if i < (poolRun W progs es).size l then 1 else 0) := by
  have h := (poolInv_run W progs es).pend l i
  omega

/-- **C39**: when a loop call has returned normally, its body has run exactly once for each of its elements: each iteration has been started and has ended. -/
theorem C39_exactly_once (W : Nat) (progs : List (PoolProg E)) (es : List Nat) (l i : Nat)
    (h : (l, none) ∈ (poolRun W progs es).returned) :
    (poolRun W progs es).started.count (l, i) = (if i < (poolRun W progs es).size l then 1 else 0) ∧
      (poolRun W progs es).ended.count (l, i) = (if i < (poolRun W progs es).size l then 1 else 0) := by
  have hinv := poolInv_run W progs es
  obtain ⟨hlat, hth⟩ := hinv.ev.retNone l h
  have hdead := hinv.ev.retDead l none h
  have hp := hinv.pend l i
  have hr := hinv.run l i
  obtain ⟨h1, h2⟩ := loop_over hinv hlat hdead i
  have hsk : (poolRun W progs es).skipped.count (l, i) = 0 := by
    refine List.count_eq_zero_of_not_mem (fun hm => ?_)
    obtain ⟨e, he⟩ := hinv.ev.skipThrown l i hm
    exact hth e he
  omega

/-- **C39**: the tasks are distributed over the queues of the workers in turn: the task with turn `n` goes to queue `n` modulo the number of workers, and every turn is used once. -/
theorem C39_queues (W : Nat) (progs : List (PoolProg E)) (es : List Nat) :
    (∀ n q l, (n, q, l) ∈ (poolRun W progs es).submitted → q = n % W ∧ n < (poolRun W progs es).turn) ∧
      ((poolRun W progs es).submitted.map (·.1)).Nodup := by
  have h := turn_run W progs es
  refine ⟨fun n q l hm => ⟨h.queue n q l hm, ?_⟩, ?_⟩
  · have h1 := h.once n
    have h2 : 0 < ((poolRun W progs es).submitted.map (·.1)).count n :=
      List.count_pos_iff.2 (List.mem_map.2 ⟨_, hm, rfl⟩)
    by_contra hn
    rw [if_neg hn] at h1
    omega
  · rw [List.nodup_iff_count]
    intro n
    have := h.once n
    split at this <;> omega

/-- **C39**: when one thread runs loops one after the other, the distribution of the elements over the queues is a function of the sizes and block sizes of the loops only: in every schedule, the tasks submitted so far are the first ones of `plannedTasks`. -/
theorem C39_assignment (W : Nat) (loops : List (List (Option E) × Nat)) (es : List Nat) :
    (poolRun W [flatProg loops] es).submitted.reverse <+: plannedTasks W 0 (loops.map (fun x => (x.1.length, x.2))) := by
  obtain ⟨fut, hf, _⟩ := (flat_run W loops es).user
  exact ⟨fut, hf⟩

/-- Two loops over 7 and 4 elements on three workers; the block size is 1 and 3. -/
example : plannedTasks 3 0 [(7, 0), (4, 2)] = [(0, 0, [0, 1, 2]), (1, 1, [3, 4]), (2, 2, [0, 1])] ∧
    (poolRun 3 [flatProg [(List.replicate 7 (none : Option Nat), 0), (List.replicate 4 none, 2)]]
      (List.replicate 30 [3, 1, 0, 2]).flatten).submitted.reverse = plannedTasks 3 0 [(7, 0), (4, 2)] := by
  decide +kernel

/-- **C39**: when everything has finished and no iteration threw, the number of iterations that ran is the number the programs asked for. -/
theorem C39_total (W : Nat) (progs : List (PoolProg E)) (es : List Nat) (hf : PoolFinished (poolRun W progs es))
    (hth : (poolRun W progs es).thrown = []) : (poolRun W progs es).started.length = (progs.map progIters).sum := by
  have h := iters_conserved W progs es hth
  have h0 := wsum_finished (poolInv_run W progs es).shape hf (itersF (E := E)) itersG
  unfold itersLeft at h
  omega

/-! ## C40 -/

/-- **C40**: if every thread runs again and again, every program finishes, for every nesting of the loops. -/
theorem C40_fair_runs_finish (W : Nat) (progs : List (PoolProg E)) (σ : Nat → Nat)
    (hfair : ∀ t < W + progs.length, ∀ n, ∃ m, n ≤ m ∧ σ m = t) :
    ∃ n, ∀ m, n ≤ m → PoolFinished (poolRun W progs ((List.range m).map σ)) := by
  obtain ⟨n, hn⟩ := fair_finishes hfair
  refine ⟨n, fun m hm => ?_⟩
  obtain ⟨k, rfl⟩ : ∃ k, m = n + k := ⟨m - n, by omega⟩
  induction k with
  | zero => exact hn
  | succ k ih =>
    have h := ih (by omega)
    show PoolFinished (poolRun W progs (schedule σ (n + k + 1)))
    rw [schedule_succ, poolRun_snoc]
    have h : PoolFinished (poolRun W progs (schedule σ (n + k))) := h
    rw [finished_stays h]
    exact h

/-- **C40**: no reachable state is a deadlock: every run can be continued so that everything finishes. -/
theorem C40_no_deadlock (W : Nat) (progs : List (PoolProg E)) (es : List Nat) :
    ∃ es', PoolFinished (poolRun W progs (es ++ es')) := by
  let T := W + progs.length
  let σ : Nat → Nat := fun n => if h : n < es.length then es[n] else n % T
  have hfair : ∀ t < T, ∀ n, ∃ m, n ≤ m ∧ σ m = t := by
    intro t ht n
    refine ⟨(n + es.length) * T + t, ?_, ?_⟩
    · have : n + es.length ≤ (n + es.length) * T := Nat.le_mul_of_pos_right _ (by omega)
      omega
    · have : n + es.length ≤ (n + es.length) * T := Nat.le_mul_of_pos_right _ (by omega)
      show (if h : _ then _ else _) = t
      rw [dif_neg (by omega), Nat.mul_comm, Nat.mul_add_mod, Nat.mod_eq_of_lt ht]
  obtain ⟨n, hn⟩ := C40_fair_runs_finish W progs σ hfair
  have hpre : (List.range es.length).map σ = es := by
    apply List.ext_getElem
    · simp
    · intro i h1 h2
      rw [List.getElem_map, List.getElem_range]
      show (if h : _ then _ else _) = _
      rw [dif_pos h2]
  refine ⟨(List.range' es.length n).map σ, ?_⟩
  have h := hn (es.length + n) (by omega)
  rw [List.range_eq_range', ← List.range'_append_1, List.map_append, Nat.zero_add, ← List.range_eq_range', hpre] at h
  exact h

/-- **C40**: when everything has finished, every loop call has returned. -/
theorem C40_all_return (W : Nat) (progs : List (PoolProg E)) (es : List Nat) (hf : PoolFinished (poolRun W progs es)) (l : Nat)
    (hl : 0 < (poolRun W progs es).size l) : ∃ r, (l, r) ∈ (poolRun W progs es).returned := by
  have hinv := poolInv_run W progs es
  rcases hinv.ev.created l hl with h | h
  · have h1 := hinv.owner l
    rw [wsum_finished hinv.shape hf, wsum_finished hinv.shape hf, h] at h1
    cases h1
  · exact h

/-- The run of two threads of the user on a pool of two workers; the loop of the first thread is nested in a loop. -/
def demoProgs : List (PoolProg Nat) :=
  [.loop [.loop [.done, .done] 0 .done, .loop [.done, .done, .done] 0 .done, .done] 0 .done, .loop [.done, .done] 0 .done]

def demoSchedule : List Nat := (List.replicate 30 [2, 3, 0, 1, 0]).flatten

def poolDone (T W : Nat) (s : PoolState E) : Bool :=
  (List.range T).all (fun t => (s.calls t).isEmpty) && (List.range W).all (fun w => (s.queues w).isEmpty)

theorem poolDone_finished {W : Nat} {progs : List (PoolProg E)} {es : List Nat}
    (h : poolDone (W + progs.length) W (poolRun W progs es) = true) : PoolFinished (poolRun W progs es) := by
  unfold poolDone at h
  rw [Bool.and_eq_true, List.all_eq_true, List.all_eq_true] at h
  have hinv := pinv_run W progs es
  refine ⟨fun t => ?_, fun w => ?_⟩
  · by_cases ht : t < W + progs.length
    · exact List.isEmpty_iff.1 (h.1 t (List.mem_range.2 ht))
    · exact hinv.out t (by omega)
  · by_cases hw : w < W
    · exact List.isEmpty_iff.1 (h.2 w (List.mem_range.2 hw))
    · exact hinv.qout w (by omega)

example : PoolFinished (poolRun 2 demoProgs demoSchedule) := poolDone_finished (by decide +kernel)

/-- Four loop calls return normally, ten iterations run. -/
example : (poolRun 2 demoProgs demoSchedule).returned.length = 4 ∧
    (poolRun 2 demoProgs demoSchedule).started.length = 10 ∧ (demoProgs.map progIters).sum = 10 ∧
    (1, none) ∈ (poolRun 2 demoProgs demoSchedule).returned ∧ (poolRun 2 demoProgs demoSchedule).size 1 = 3 ∧
    (poolRun 2 demoProgs demoSchedule).thrown = [] ∧ (poolRun 2 demoProgs demoSchedule).failed = false := by
  decide +kernel

/-! ## C41 -/

/-- **C41**: if an iteration of a loop threw, the loop call throws one of the exceptions of its iterations. -/
theorem C41_exception_reaches_caller (W : Nat) (progs : List (PoolProg E)) (es : List Nat) (l : Nat) (e : E) (r : Option E)
    (ht : (l, e) ∈ (poolRun W progs es).thrown) (hr : (l, r) ∈ (poolRun W progs es).returned) :
    ∃ e', r = some e' ∧ (l, e') ∈ (poolRun W progs es).thrown := by
  have hinv := poolInv_run W progs es
  cases r with
  | none => exact absurd ht ((hinv.ev.retNone l hr).2 e)
  | some e' => exact ⟨e', rfl, (hinv.ev.retSome l e' hr).1⟩

/-- **C41**: a loop call throws only an exception that left one of its iterations, and it returns once. -/
theorem C41_only_thrown_exceptions (W : Nat) (progs : List (PoolProg E)) (es : List Nat) :
    (∀ l e, (l, some e) ∈ (poolRun W progs es).returned → (l, e) ∈ (poolRun W progs es).thrown) ∧
      ((poolRun W progs es).returned.map (·.1)).Nodup :=
  ⟨fun l e h => ((poolInv_run W progs es).ev.retSome l e h).1, (poolInv_run W progs es).ev.retOnce⟩

/-- **C41**, in part: if an exception did not leave the block of the caller while other tasks of the loop remained (`leftEarly`), then after the loop call has ended, with or without an exception, no iteration of the loop is running, and none will run. Missing: the case in which the block of the caller throws, in which this is false (`C41_caller_exception_leaves_tasks`). -/
theorem C41_no_task_after_return_partial (W : Nat) (progs : List (PoolProg E)) (es es' : List Nat) (l i : Nat) (r : Option E)
    (hr : (l, r) ∈ (poolRun W progs es).returned) (hearly : l ∉ (poolRun W progs es).leftEarly) :
    (poolRun W progs (es ++ es')).started.count (l, i) = (poolRun W progs es).ended.count (l, i) := by
  have hlat : (poolRun W progs es).latch l = 0 := by
    have hinv := poolInv_run W progs es
    cases r with
    | none => exact (hinv.ev.retNone l hr).1
    | some e => exact (hinv.ev.retSome l e hr).2.resolve_right hearly
  have hdead := (poolInv_run W progs es).ev.retDead l r hr
  have hclk := (poolInv_run W progs es).ev.returnedClk l r hr
  have hmain : ((poolRun W progs (es ++ es')).latch l = 0 ∧ (poolRun W progs (es ++ es')).alive l = false ∧
      l < (poolRun W progs (es ++ es')).clock) ∧
      (poolRun W progs (es ++ es')).started.count (l, i) = (poolRun W progs es).ended.count (l, i) := by
    induction es' using Gapp.ListAux.snoc_induction with
    | nil =>
      rw [List.append_nil]
      refine ⟨⟨hlat, hdead, hclk⟩, ?_⟩
      have hinv := poolInv_run W progs es
      have := hinv.run l i
      have := (loop_over hinv hlat hdead i).2
      omega
    | append_singleton es' t ih =>
      obtain ⟨⟨h1, h2, h3⟩, h4⟩ := ih
      rw [← List.append_assoc, poolRun_snoc]
      have hinv := poolInv_run W progs (es ++ es')
      have := loop_over_step hinv (poolStep_view W _ t) h1 h2 h3 i
      exact ⟨this.1, this.2.trans h4⟩
  exact hmain.2

/-- **C41**: as long as no exception leaves the block of a caller while tasks of its loop remain, no task uses a variable of a loop call that has ended. -/
theorem C41_no_use_after_free_partial (W : Nat) (progs : List (PoolProg E)) (es : List Nat)
    (h : (poolRun W progs es).leftEarly = []) : (poolRun W progs es).failed = false := by
  cases hf : (poolRun W progs es).failed with
  | false => rfl
  | true => exact absurd h ((poolInv_run W progs es).ev.fail hf)

/-- **C41**: this needs an exception: without one, no loop call ends while tasks of its loop remain. -/
theorem C41_safe_without_exceptions (W : Nat) (progs : List (PoolProg E)) (es : List Nat)
    (h : (poolRun W progs es).thrown = []) : (poolRun W progs es).failed = false := by
  refine C41_no_use_after_free_partial W progs es (List.eq_nil_iff_forall_not_mem.2 (fun l hl => ?_))
  obtain ⟨e, he⟩ := (poolInv_run W progs es).ev.early l hl
  have := ((poolInv_run W progs es).ev.retSome l e he).1
  rw [h] at this
  cases this

/-- A loop whose first element (on a worker) throws: the caller gets the exception after the tasks have ended. -/
example :
    let s := poolRun 2 [(.loop [.throw 7, .done, .done] 0 .done : PoolProg Nat)] (List.replicate 12 [2, 0, 1]).flatten
    (1, some 7) ∈ s.returned ∧ (1, 7) ∈ s.thrown ∧ s.leftEarly = [] ∧ s.failed = false ∧ s.skipped = [(1, 1)] := by
  decide +kernel

/-- **C41** fails when the body throws in the block of the caller: the exception leaves `parallel_for` while a task of the loop is still in the queue of a worker. The worker then runs the body, reads the destroyed closure and writes the destroyed latch: here iteration 0 starts after the loop call has ended. -/
theorem C41_caller_exception_leaves_tasks :
    ∃ (progs : List (PoolProg Nat)) (es es' : List Nat), (1, some 7) ∈ (poolRun 2 progs es).returned ∧
      (1, 0) ∉ (poolRun 2 progs es).started ∧ (1, 0) ∈ (poolRun 2 progs (es ++ es')).started ∧
      (poolRun 2 progs (es ++ es')).failed = true := by
  refine ⟨[.loop [.done, .throw 7] 0 .done], [2, 2, 2, 2, 2, 2], [0, 0], ?_⟩
  decide +kernel

end Gapp.Props
