import Verif.Proofs.PoolLife
import Verif.Model.ThreadPool
/-!
# C72: changing the number of threads
-/

namespace Gapp.Props
open Gapp.Model Gapp.Spec

/-- **C72**: no schedule loses or repeats a task: at every time each submitted task has been run once, or its submission failed, or it is waiting in a queue or running. -/
theorem C72_no_task_lost (threads : Nat) (script : List LifeOp) (es : List LifeEvent) :
    let s := lifeRun threads script es
    (s.done ++ s.rejected ++ (s.workers ++ s.fresh ++ s.old).flatMap LifeWorker.pending ++ tasksOf s.script).Perm (tasksOf script) ∧ (NoFailure script → s.rejected = []) := by
  dsimp only
  refine ⟨?_, (lifeInv_run threads script es).accepted⟩
  rw [List.perm_iff_count]
  intro x
  rw [← lifeCount_run x threads script es]
  unfold lifeCount
  simp only [List.count_append, pendCount_flatMap, pendCount_append]

theorem pending_nil_count (ws : List LifeWorker) (h : ∀ w ∈ ws, LifeWorker.pending w = []) : ws.flatMap LifeWorker.pending = [] := by
  rw [List.flatMap_eq_nil_iff]; exact h

/-- **C72**: `execution_threads(n)` and the destructor wait for the old workers: when the call ends, everything that was submitted before has been run. -/
theorem C72_resize_waits (threads : Nat) (script : List LifeOp) (hnf : NoFailure script) (es : List LifeEvent) (e : LifeEvent)
    (hbefore : (lifeRun threads script es).master ≠ .ready ∧ (lifeRun threads script es).master ≠ .gone)
    (hafter : (lifeRun threads script (es ++ [e])).master = .ready ∨ (lifeRun threads script (es ++ [e])).master = .gone) :
    ((lifeRun threads script (es ++ [e])).done ++ tasksOf (lifeRun threads script (es ++ [e])).script).Perm (tasksOf script) := by
  have hperm := (C72_no_task_lost threads script (es ++ [e])).1
  have hrej := (C72_no_task_lost threads script (es ++ [e])).2 hnf
  suffices hp : ((lifeRun threads script (es ++ [e])).workers ++ (lifeRun threads script (es ++ [e])).fresh ++ (lifeRun threads script (es ++ [e])).old).flatMap LifeWorker.pending = [] by
    rw [hp, hrej] at hperm
    simpa using hperm
  rw [lifeRun_snoc] at hafter ⊢
  have hinv := lifeInv_run threads script es
  generalize lifeRun threads script es = s at hbefore hafter hinv ⊢
  have hph := hinv.phase
  unfold LifePhase at hph
  have hmas : ∀ i, (lifeStep s (.worker i)).master = s.master ∧ (lifeStep s (.fresh i)).master = s.master ∧ (lifeStep s (.old i)).master = s.master := fun i => ⟨rfl, rfl, rfl⟩
  have hcontra : ∀ m, m = s.master → ¬ (m = .ready ∨ m = .gone) := by
    rintro m rfl (h | h)
    · exact hbefore.1 h
    · exact hbefore.2 h
  cases e with
  | worker i => exact absurd hafter (hcontra _ rfl)
  | fresh i => exact absurd hafter (hcontra _ rfl)
  | old i => exact absurd hafter (hcontra _ rfl)
  | master =>
    have hafter : (lifeMaster s).master = .ready ∨ (lifeMaster s).master = .gone := hafter
    show ((lifeMaster s).workers ++ (lifeMaster s).fresh ++ (lifeMaster s).old).flatMap LifeWorker.pending = []
    unfold lifeMaster at hafter ⊢
    cases hm : s.master with
    | ready => exact absurd hm hbefore.1
    | gone => exact absurd hm hbefore.2
    | unwinding => rw [hm] at hph; exact absurd hnf hph.2
    | closing next i =>
      simp only [hm] at hafter
      split at hafter
      · rcases hafter with h | h <;> cases h
      · split at hafter
        · rcases hafter with h | h <;> cases h
        · rcases hafter with h | h <;> cases h
    | starting c f =>
      simp only [hm] at hafter
      split at hafter
      · rcases hafter with h | h <;> cases h
      · split at hafter
        · rcases hafter with h | h <;> cases h
        · rcases hafter with h | h <;> cases h
    | joining b =>
      rw [hm] at hph
      obtain ⟨p1, -, p3, -⟩ := hph
      simp only [hm] at hafter
      dsimp only
      cases ho : s.old with
      | nil =>
        dsimp only
        refine pending_nil_count _ ?_
        intro w hw
        rw [p1] at hw
        have hw : w ∈ s.workers := by simpa using hw
        rw [p3 w hw]; rfl
      | cons w rest =>
        rw [ho] at hafter
        dsimp only at hafter
        split at hafter
        · rcases hafter with h | h <;> cases h
        · rw [hm] at hafter; rcases hafter with h | h <;> cases h

/-- The number of workers that the master is going to have. -/
def CountInv (threads : Nat) (script : List LifeOp) (s : LifeState) : Prop :=
  ∃ consumed, script = consumed ++ s.script ∧
    match s.master with
    | .ready => s.workers.length + 1 = lastCount (max threads 1) consumed
    | .closing (some (c, _)) _ => c = lastCount (max threads 1) consumed ∧ 1 ≤ c
    | .starting c _ => c = lastCount (max threads 1) consumed ∧ 1 ≤ c
    | .joining false => s.workers.length + 1 = lastCount (max threads 1) consumed
    | .unwinding => False
    | _ => True

theorem lastCount_snoc (n : Nat) (l : List LifeOp) (op : LifeOp) : lastCount n (l ++ [op]) = match op with
    | .resize c _ => max c 1
    | _ => lastCount n l := by
  unfold lastCount; rw [List.foldl_append]; rfl

theorem lifeSubmit_fields (s : LifeState) (x : Nat) : (lifeSubmit s x).workers.length = s.workers.length ∧ (lifeSubmit s x).script = s.script ∧ (lifeSubmit s x).master = s.master := by
  unfold lifeSubmit
  split
  · exact ⟨rfl, rfl, rfl⟩
  · dsimp only
    split
    · exact ⟨rfl, rfl, rfl⟩
    · split
      · exact ⟨rfl, rfl, rfl⟩
      · exact ⟨by simp, rfl, rfl⟩

theorem countInv_master {threads : Nat} {script : List LifeOp} {s : LifeState} (hinv : LifeInv True s) (h : CountInv threads script s) : CountInv threads script (lifeMaster s) := by
  obtain ⟨consumed, hc, hph⟩ := h
  have hl := hinv.phase
  unfold LifePhase at hl
  unfold lifeMaster
  cases hm : s.master with
  | ready =>
    rw [hm] at hph
    dsimp only at hph ⊢
    cases hs : s.script with
    | nil => exact ⟨consumed, hc, by rw [hm]; exact hph⟩
    | cons op rest =>
      have hc' : script = (consumed ++ [op]) ++ rest := by rw [hc, hs]; simp
      cases op with
      | submit x =>
        dsimp only
        obtain ⟨f1, f2, f3⟩ := lifeSubmit_fields { s with script := rest, master := .ready } x
        refine ⟨consumed ++ [.submit x], by rw [f2]; exact hc', ?_⟩
        rw [f3]
        dsimp only
        rw [f1, lastCount_snoc]
        exact hph
      | resize c f =>
        dsimp only
        split
        · rename_i he
          refine ⟨consumed ++ [.resize c f], hc', ?_⟩
          dsimp only
          rw [lastCount_snoc]
          exact he.symm
        · refine ⟨consumed ++ [.resize c f], hc', ?_⟩
          dsimp only
          rw [lastCount_snoc]
          exact ⟨rfl, Nat.le_max_right _ _⟩
      | destroy => exact ⟨consumed ++ [.destroy], hc', trivial⟩
  | closing next i =>
    rw [hm] at hph
    dsimp only
    cases s.workers[i]? with
    | some w =>
      refine ⟨consumed, hc, ?_⟩
      cases next with
      | none => trivial
      | some nf => exact hph
    | none =>
      cases next with
      | none => exact ⟨consumed, hc, trivial⟩
      | some nf => exact ⟨consumed, hc, hph⟩
  | starting c f =>
    rw [hm] at hph hl
    dsimp only at hph ⊢
    split
    · rename_i he
      refine ⟨consumed, hc, ?_⟩
      dsimp only
      rw [he, ← hph.1]; omega
    · rw [if_neg (by rw [hl.2.2.2 trivial]; simp)]
      refine ⟨consumed, hc, ?_⟩
      dsimp only
      exact hph
  | joining b =>
    rw [hm] at hph
    dsimp only
    cases ho : s.old with
    | nil =>
      refine ⟨consumed, hc, ?_⟩
      cases b with
      | true => trivial
      | false => exact hph
    | cons w rest =>
      dsimp only
      split
      · refine ⟨consumed, hc, ?_⟩
        cases b with
        | true => trivial
        | false => exact hph
      · refine ⟨consumed, hc, ?_⟩
        rw [hm]
        cases b with
        | true => trivial
        | false => exact hph
  | unwinding => rw [hm] at hph; exact hph.elim
  | gone => exact ⟨consumed, hc, by rw [hm]; trivial⟩

theorem countInv_run (threads : Nat) (script : List LifeOp) (hnf : NoFailure script) (es : List LifeEvent) : CountInv threads script (lifeRun threads script es) := by
  induction es using Gapp.ListAux.snoc_induction with
  | nil =>
    refine ⟨[], rfl, ?_⟩
    show (List.replicate (threads - 1) LifeWorker.new).length + 1 = max threads 1
    rw [List.length_replicate]; omega
  | append_singleton es e ih =>
    rw [lifeRun_snoc]
    have hinv : LifeInv True (lifeRun threads script es) := by
      have h := lifeInv_run threads script es
      rwa [show NoFailure script = True from propext ⟨fun _ => trivial, fun _ => hnf⟩] at h
    generalize lifeRun threads script es = s at ih hinv ⊢
    cases e with
    | master => exact countInv_master hinv ih
    | worker i =>
      obtain ⟨consumed, hc, hph⟩ := ih
      refine ⟨consumed, hc, ?_⟩
      have hl : (lifeStep s (.worker i)).workers.length = s.workers.length := stepAt_length _ _
      rw [hl]
      exact hph
    | fresh i => exact ih
    | old i => exact ih

/-- **C72**: between the calls the pool has the number of threads that was last asked for, and all of them are running and accept tasks. -/
theorem C72_thread_count (threads : Nat) (script : List LifeOp) (hnf : NoFailure script) (es : List LifeEvent) (hr : (lifeRun threads script es).master = .ready) :
    ∃ consumed, script = consumed ++ (lifeRun threads script es).script ∧ lifeThreads (lifeRun threads script es) = lastCount (max threads 1) consumed ∧
      ∀ w ∈ (lifeRun threads script es).workers, w.closed = false ∧ w.pc ≠ .exited := by
  obtain ⟨consumed, hc, hph⟩ := countInv_run threads script hnf es
  rw [hr] at hph
  have hinv := lifeInv_run threads script es
  have hl := hinv.phase
  unfold LifePhase at hl
  rw [hr] at hl
  refine ⟨consumed, hc, hph, fun w hw => ⟨hl.2.2 hnf w hw, fun he => ?_⟩⟩
  have h1 := (hinv.exit w (by simp [hw]) he).2
  rw [hl.2.2 hnf w hw] at h1; cases h1

/-! ## Progress -/

theorem lifeInv_true (threads : Nat) (script : List LifeOp) (hnf : NoFailure script) (es : List LifeEvent) : LifeInv True (lifeRun threads script es) := by
  have h := lifeInv_run threads script es
  rwa [show NoFailure script = True from propext ⟨fun _ => trivial, fun _ => hnf⟩] at h

/-- **C72**: if every thread runs again and again, then everything comes to an end: all the tasks are run and all the calls return, whatever the order of the steps is. -/
theorem C72_fair_runs_finish (threads : Nat) (script : List LifeOp) (hnf : NoFailure script) (σ : Nat → LifeEvent) (hfair : ∀ e n, ∃ m, n ≤ m ∧ σ m = e) :
    ∃ n, ∀ m, n ≤ m → LifeFinished (lifeRun threads script ((List.range m).map σ)) ∧
      ((lifeRun threads script ((List.range m).map σ)).done ++ tasksOf (lifeRun threads script ((List.range m).map σ)).script).Perm (tasksOf script) := by
  let st : Nat → LifeState := fun m => lifeRun threads script ((List.range m).map σ)
  have hsucc : ∀ m, st (m + 1) = lifeStep (st m) (σ m) := by
    intro m
    show lifeRun _ _ _ = _
    rw [List.range_succ, List.map_append]
    exact lifeRun_snoc _ _ _ _
  have hinv : ∀ m, LifeInv True (st m) := fun m => lifeInv_true threads script hnf _
  have hmono : ∀ n k, st (n + k) = st n ∨ ∃ j, lifeWeight (st (n + j)) < lifeWeight (st n) := by
    intro n k
    induction k with
    | zero => exact Or.inl rfl
    | succ k ih =>
      rcases ih with ih | ih
      · rcases lifeWeight_step (hinv (n + k)) (σ (n + k)) with h | h
        · left; rw [← Nat.add_assoc, hsucc, h, ih]
        · right; refine ⟨k + 1, ?_⟩
          rw [← Nat.add_assoc, hsucc]
          rw [ih] at h ⊢
          exact h
      · exact Or.inr ih
  have hmain : ∀ w n, lifeWeight (st n) ≤ w → ∃ m, LifeFinished (st m) := by
    intro w
    induction w with
    | zero =>
      intro n hn
      by_cases hf : LifeFinished (st n)
      · exact ⟨n, hf⟩
      · obtain ⟨e, he⟩ := lifeStep_progress (hinv n) hf
        have := (lifeWeight_step (hinv n) e).resolve_left he
        omega
    | succ w ih =>
      intro n hn
      by_cases hf : LifeFinished (st n)
      · exact ⟨n, hf⟩
      · obtain ⟨e, he⟩ := lifeStep_progress (hinv n) hf
        obtain ⟨m, hm, hσ⟩ := hfair e n
        obtain ⟨k, rfl⟩ : ∃ k, m = n + k := ⟨m - n, by omega⟩
        rcases hmono n k with h | ⟨j, hj⟩
        · have h1 := (lifeWeight_step (hinv n) e).resolve_left he
          refine ih (n + k + 1) ?_
          rw [hsucc, hσ, h]; omega
        · exact ih (n + j) (by omega)
  obtain ⟨n, hn⟩ := hmain _ 0 (Nat.le_refl _)
  have hstay : ∀ k, LifeFinished (st (n + k)) := by
    intro k
    induction k with
    | zero => exact hn
    | succ k ih => rw [← Nat.add_assoc, hsucc]; exact (finished_step ih _).1
  refine ⟨n, fun m hm => ?_⟩
  obtain ⟨k, rfl⟩ : ∃ k, m = n + k := ⟨m - n, by omega⟩
  have hf := hstay k
  refine ⟨hf, ?_⟩
  have hperm := (C72_no_task_lost threads script ((List.range (n + k)).map σ)).1
  have hrej := (C72_no_task_lost threads script ((List.range (n + k)).map σ)).2 hnf
  rw [pending_nil_count _ hf.2, hrej] at hperm
  simpa using hperm

/-- **C72**: no reachable state is a deadlock. -/
theorem C72_no_deadlock (threads : Nat) (script : List LifeOp) (hnf : NoFailure script) (es : List LifeEvent) (hf : ¬ LifeFinished (lifeRun threads script es)) :
    ∃ e, lifeRun threads script (es ++ [e]) ≠ lifeRun threads script es := by
  obtain ⟨e, he⟩ := lifeStep_progress (lifeInv_true threads script hnf es) hf
  exact ⟨e, by rw [lifeRun_snoc]; exact he⟩

/-! ## What goes wrong when a thread can not be started -/

/-- C72 is violated if the system can not start one of the threads (`std::system_error`): the workers that were started before it are destroyed, which joins their threads, but nobody has closed their queues, so that
the threads never exit. `execution_threads` never returns, whatever happens. -/
theorem C72_failed_start_hangs (threads : Nat) (script : List LifeOp) (es es' : List LifeEvent) (hm : (lifeRun threads script es).master = .unwinding) (hfr : (lifeRun threads script es).fresh ≠ []) :
    (lifeRun threads script (es ++ es')).master = .unwinding := by
  suffices h : (lifeRun threads script (es ++ es')).master = .unwinding ∧ (lifeRun threads script (es ++ es')).fresh = (lifeRun threads script es).fresh from h.1
  induction es' using Gapp.ListAux.snoc_induction with
  | nil => rw [List.append_nil]; exact ⟨hm, rfl⟩
  | append_singleton es' e ih =>
    rw [← List.append_assoc, lifeRun_snoc]
    have hinv := lifeInv_run threads script (es ++ es')
    generalize lifeRun threads script (es ++ es') = s at ih hinv ⊢
    obtain ⟨i1, i2⟩ := ih
    cases e with
    | worker i => exact ⟨i1, i2⟩
    | fresh i =>
      refine ⟨i1, ?_⟩
      show (stepAt s.fresh i).1 = _
      rw [stepAt_new s.fresh i hinv.fresh]; exact i2
    | old i => exact ⟨i1, i2⟩
    | master =>
      have : lifeStep s .master = s := by
        show lifeMaster s = s
        unfold lifeMaster
        rw [i1]
        dsimp only
        cases hs : s.fresh with
        | nil => rw [← i2, hs] at hfr; exact absurd rfl hfr
        | cons w rest =>
          dsimp only
          rw [if_neg]
          rw [hinv.fresh w (by rw [hs]; exact List.mem_cons_self)]; decide
      rw [this]; exact ⟨i1, i2⟩

/-- The state of `C72_failed_start_hangs` is reached: three workers are asked for, and the second one can not be started. -/
theorem C72_failed_start_violated : ∃ es, ∀ es', (lifeRun 2 [.resize 4 (some 1)] (es ++ es')).master = .unwinding :=
  ⟨List.replicate 5 .master, fun es' => C72_failed_start_hangs 2 _ _ es' (by decide) (by decide)⟩

/-- If already the first thread can not be started then the call ends with an exception, but the old workers have been stopped: from then on every parallel loop with more than one task fails. -/
theorem C72_failed_start_stops_pool : ∃ es, (lifeRun 3 [.resize 5 (some 0), .submit 7] es).master = .ready ∧ (lifeRun 3 [.resize 5 (some 0), .submit 7] es).rejected = [7] ∧
    lifeThreads (lifeRun 3 [.resize 5 (some 0), .submit 7] es) = 3 := ⟨List.replicate 7 .master, by decide, by decide, by decide⟩

/-! ## The number of threads that are used -/

theorem cutBlocks_length {α : Type} (step rem : Nat) : ∀ (k i : Nat) (xs : List α), (cutBlocks step rem k i xs).1.length = k
  | 0, _, _ => rfl
  | k + 1, i, xs => by
    unfold cutBlocks
    dsimp only
    rw [List.length_cons, cutBlocks_length]

/-- C72: a loop is split into at most `n - 1` blocks for `n ≥ 2` threads, so that at least one of the threads has nothing to do. -/
theorem C72_one_thread_unused {α : Type} (n b : Nat) (hn : 2 ≤ n) (xs : List α) (hx : xs ≠ []) (hb : 0 < b) : (loopBlocks (n - 1) b xs).1.length + 1 ≤ n - 1 := by
  unfold loopBlocks
  dsimp only
  rw [cutBlocks_length]
  have hle : poolTaskCount (n - 1) xs.length b ≤ n - 1 := by
    unfold poolTaskCount
    dsimp only
    rw [if_neg (by omega)]
    exact (Nat.min_le_left _ _).trans (Nat.min_le_left _ _)
  omega

/-- C72 is violated: the documentation says that `execution_threads` sets the number of threads used to run the genetic algorithms. With two threads every loop runs in the calling thread only, as with one thread. -/
theorem C72_two_threads_violated {α : Type} (b : Nat) (hb : 0 < b) (xs : List α) (hx : xs ≠ []) : loopBlocks (2 - 1) b xs = ([], xs) ∧ loopBlocks (1 - 1) b xs = ([], xs) := by
  have h : ∀ W, W ≤ 1 → loopBlocks W b xs = ([], xs) := by
    intro W hW
    have hle : poolTaskCount W xs.length b - 1 = 0 := by
      unfold poolTaskCount
      dsimp only
      have : W + (if W = 0 then 1 else 0) ≤ 1 := by split <;> omega
      omega
    unfold loopBlocks
    dsimp only
    rw [hle]
    rfl
  exact ⟨h _ (by omega), h _ (by omega)⟩

/-! ## Cases that meet the assumptions -/

/-- Two tasks for two workers, then one worker more, another task, and the end of the program. -/
def demoLife : List LifeOp := [.submit 1, .submit 2, .resize 4 none, .submit 3, .destroy]

example : NoFailure demoLife := by
  intro c k h
  simp [demoLife] at h

-- a schedule in which the old workers run their tasks only after they have been told to stop
example : (lifeRun 3 demoLife (List.replicate 10 .master ++ [.old 0, .old 1, .old 0, .old 1, .old 1, .old 0] ++ List.replicate 3 .master)).done = [2, 1] ∧
    (lifeRun 3 demoLife (List.replicate 10 .master ++ [.old 0, .old 1, .old 0, .old 1, .old 1, .old 0] ++ List.replicate 3 .master)).master = .ready ∧
    lifeThreads (lifeRun 3 demoLife (List.replicate 10 .master ++ [.old 0, .old 1, .old 0, .old 1, .old 1, .old 0] ++ List.replicate 3 .master)) = 4 := by decide

/-- Every event again and again. -/
def demoFair (m : Nat) : LifeEvent :=
  let k := m - Nat.sqrt m * Nat.sqrt m
  match k % 4 with
  | 0 => .master
  | 1 => .worker (k / 4)
  | 2 => .fresh (k / 4)
  | _ => .old (k / 4)

example : ∀ e n, ∃ m, n ≤ m ∧ demoFair m = e := by
  intro e n
  have hsq : ∀ N k, k ≤ N → Nat.sqrt (N * N + k) = N := by
    intro N k hk
    exact Nat.sqrt_add_eq N (by omega)
  have key : ∀ k, ∃ m, n ≤ m ∧ m - Nat.sqrt m * Nat.sqrt m = k := by
    intro k
    refine ⟨(n + k) * (n + k) + k, ?_, ?_⟩
    · have : n + k ≤ (n + k) * (n + k) := Nat.le_mul_self _
      omega
    · rw [hsq (n + k) k (by omega)]; omega
  cases e with
  | master => obtain ⟨m, h1, h2⟩ := key 0; exact ⟨m, h1, by unfold demoFair; simp only [h2]⟩
  | worker i =>
    obtain ⟨m, h1, h2⟩ := key (4 * i + 1)
    refine ⟨m, h1, ?_⟩
    unfold demoFair
    simp only [h2, show (4 * i + 1) % 4 = 1 by omega, show (4 * i + 1) / 4 = i by omega]
  | fresh i =>
    obtain ⟨m, h1, h2⟩ := key (4 * i + 2)
    refine ⟨m, h1, ?_⟩
    unfold demoFair
    simp only [h2, show (4 * i + 2) % 4 = 2 by omega, show (4 * i + 2) / 4 = i by omega]
  | old i =>
    obtain ⟨m, h1, h2⟩ := key (4 * i + 3)
    refine ⟨m, h1, ?_⟩
    unfold demoFair
    simp only [h2, show (4 * i + 3) % 4 = 3 by omega, show (4 * i + 3) / 4 = i by omega]

example : (loopBlocks (4 - 1) 1 [10, 20, 30, 40, 50]) = ([[10, 20], [30, 40]], [50]) := by decide

end Gapp.Props
