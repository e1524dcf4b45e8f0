import Verif.Proofs.Locks
/-!
# Properties of the spin locks (C43)

A history is any list of steps of any threads. `SpinPc.holding`: the thread has returned from `lock`, or from a successful `try_lock`, and has not called `unlock`. `SharedPc.writing` and `SharedPc.reading` are the same for the exclusive and the shared lock.
-/

namespace Gapp.Props

open Gapp.Model

/-! ## `spinlock` -/

/-- **C43** (mutual exclusion). -/
theorem C43_spinlock_mutual_exclusion (es : List (Nat × SpinOp)) (t u : Nat) (ht : (spinRun es).pc t = .holding)
    (hu : (spinRun es).pc u = .holding) : t = u :=
  (spinInv_run es).one t u ht hu

/-- **C43** (`lock` and `try_lock` succeed only if nobody holds the lock). -/
theorem C43_spinlock_acquired_when_free (es : List (Nat × SpinOp)) (e : Nat × SpinOp)
    (h0 : (spinRun es).pc e.1 ≠ .holding) (h1 : (spinRun (es ++ [e])).pc e.1 = .holding) (u : Nat) :
    (spinRun es).pc u ≠ .holding := by
  intro hu
  have hinv := spinInv_run (es ++ [e])
  by_cases hue : u = e.1
  · exact h0 (hue ▸ hu)
  · refine hue (hinv.one u e.1 ?_ h1)
    have hs : spinRun (es ++ [e]) = spinStep (spinRun es) e := by
      unfold spinRun; rw [List.foldl_append]; rfl
    rw [hs]
    have hk : ∀ p, upd (spinRun es).pc e.1 p u = .holding := fun p => by rw [upd_ne _ _ hue]; exact hu
    unfold spinStep
    cases (spinRun es).pc e.1 <;> simp only []
    case idle => cases e.2 <;> first | exact hk _ | exact hu
    case holding => cases e.2 <;> first | exact hk _ | exact hu
    all_goals (split <;> first | exact hk _ | exact hu)

/-- **C43** (a lock that nobody holds is acquired): by a new call of `lock` or `try_lock`, and by a thread that is waiting in `lock`, in at most three steps of the thread. -/
theorem C43_spinlock_free_is_acquired (es : List (Nat × SpinOp)) (hfree : ∀ u, (spinRun es).pc u ≠ .holding) (t : Nat) :
    ((spinRun es).pc t = .idle → (spinRun (es ++ [(t, .lock), (t, .lock)])).pc t = .holding ∧
      (spinRun (es ++ [(t, .tryLock), (t, .tryLock), (t, .tryLock)])).pc t = .holding) ∧
    ((spinRun es).pc t = .lockSet → ∀ op, (spinRun (es ++ [(t, op)])).pc t = .holding) ∧
    ((spinRun es).pc t = .lockSpin → ∀ op op', (spinRun (es ++ [(t, op), (t, op')])).pc t = .holding) := by
  have hf : (spinRun es).flag = false := by
    cases h : (spinRun es).flag
    · rfl
    · obtain ⟨u, hu⟩ := (spinInv_run es).held.1 h
      exact absurd hu (hfree u)
  have hrun : ∀ l, spinRun (es ++ l) = l.foldl spinStep (spinRun es) := fun l => by
    unfold spinRun; rw [List.foldl_append]
  refine ⟨fun h => ⟨?_, ?_⟩, fun h op => ?_, fun h op op' => ?_⟩
  all_goals
    rw [hrun]
    simp [spinStep, h, hf, upd]

/-- **C43** (`try_lock` fails while another thread holds the lock): it returns without the lock, whatever the holder does short of unlocking. -/
theorem C43_spinlock_try_lock_fails (es : List (Nat × SpinOp)) (t u : Nat) (hu : (spinRun es).pc u = .holding)
    (ht : (spinRun es).pc t = .tryTest ∨ (spinRun es).pc t = .trySet) (op : SpinOp) :
    (spinRun (es ++ [(t, op)])).pc t = .idle := by
  have hf : (spinRun es).flag = true := (spinInv_run es).held.2 ⟨u, hu⟩
  have hrun : spinRun (es ++ [(t, op)]) = spinStep (spinRun es) (t, op) := by
    unfold spinRun; rw [List.foldl_append]; rfl
  rw [hrun]
  rcases ht with h | h <;> simp [spinStep, h, hf, upd]

/-- Two threads compete for the lock: thread 1 tests the flag before thread 0 sets it, then fails to set it; it gets the lock after the unlock. -/
example :
    let es : List (Nat × SpinOp) := [(0, .lock), (1, .tryLock), (1, .tryLock), (0, .lock), (1, .tryLock)]
    (spinRun es).pc 0 = .holding ∧ (spinRun es).pc 1 = .idle ∧
      (spinRun (es ++ [(1, .lock), (1, .lock), (1, .lock)])).pc 1 = .lockSpin ∧
      (spinRun (es ++ [(1, .lock), (1, .lock), (0, .unlock)])).pc 0 = .idle ∧
      (spinRun (es ++ [(1, .lock), (1, .lock), (0, .unlock), (1, .lock), (1, .lock)])).pc 1 = .holding := by
  decide +kernel

/-! ## `shared_spinlock` -/

/-- A bound on the thread numbers of the history that is below `WRITER`. -/
def FewThreads (n : Nat) (es : List (Nat × SharedOp)) : Prop := n < 2 ^ 31 - 1 ∧ ∀ e ∈ es, e.1 < n

/-- **C43** (one writer and no readers, or any number of readers). -/
theorem C43_shared_mutual_exclusion (n : Nat) (es : List (Nat × SharedOp)) (hn : FewThreads n es) (t u : Nat)
    (ht : (sharedRun es).pc t = .writing)
    (hu : (sharedRun es).pc u = .writing ∨ (sharedRun es).pc u = .reading) : t = u := by
  have hinv := sharedInv_run hn.1 es hn.2
  have hlt : ∀ v, (sharedRun es).pc v ≠ .idle → v < n := by
    intro v hv
    by_contra hge
    exact hv (sharedRun_idle es v (fun e he hev => hge (hev ▸ hn.2 e he)))
  have htn : t < n := hlt t (by rw [ht]; decide)
  rcases hu with hu | hu
  · have hun : u < n := hlt u (by rw [hu]; decide)
    by_contra hne
    have := cnt_two (p := isWriting) (f := (sharedRun es).pc) htn hun hne (by rw [ht]; rfl) (by rw [hu]; rfl)
    have := hinv.le
    omega
  · exfalso
    have hun : u < n := hlt u (by rw [hu]; decide)
    have h1 : 0 < cnt n isWriting (sharedRun es).pc := cnt_pos htn (by rw [ht]; rfl)
    have h2 : 0 < cnt n isReading (sharedRun es).pc := cnt_pos hun (by rw [hu]; rfl)
    have := hinv.excl (by have := hinv.le; omega)
    omega

/-- A step of one thread leaves the others where they are. -/
theorem sharedStep_other (s : SharedState) (e : Nat × SharedOp) (u : Nat) (hue : u ≠ e.1) :
    (sharedStep s e).pc u = s.pc u := by
  have hu : ∀ p, upd s.pc e.1 p u = s.pc u := fun p => upd_ne _ _ hue
  unfold sharedStep
  cases s.pc e.1 <;> simp only []
  case idle => cases e.2 <;> first | exact hu _ | rfl
  case writing => cases e.2 <;> first | exact hu _ | rfl
  case reading => cases e.2 <;> first | exact hu _ | rfl
  all_goals first | exact hu _ | (split <;> first | exact hu _ | rfl)

/-- **C43** (the lock is acquired only if it is not held incompatibly): a thread becomes a writer only when there are no writers and no readers, and it becomes a reader only when there is no writer; this holds for the blocking calls and for `try_lock` and `try_lock_shared`. -/
theorem C43_shared_acquired_when_free (n : Nat) (es : List (Nat × SharedOp)) (e : Nat × SharedOp)
    (hn : FewThreads n (es ++ [e])) :
    ((sharedRun es).pc e.1 ≠ .writing → (sharedRun (es ++ [e])).pc e.1 = .writing →
      ∀ u, (sharedRun es).pc u ≠ .writing ∧ (sharedRun es).pc u ≠ .reading) ∧
    ((sharedRun es).pc e.1 ≠ .reading → (sharedRun (es ++ [e])).pc e.1 = .reading →
      ∀ u, (sharedRun es).pc u ≠ .writing) := by
  have hs : sharedRun (es ++ [e]) = sharedStep (sharedRun es) e := by
    unfold sharedRun; rw [List.foldl_append]; rfl
  have hoth : ∀ u, u ≠ e.1 → (sharedRun (es ++ [e])).pc u = (sharedRun es).pc u := fun u hu => by
    rw [hs]; exact sharedStep_other _ _ u hu
  refine ⟨fun h0 h1 u => ?_, fun h0 h1 u hu => ?_⟩
  · by_cases hue : u = e.1
    · subst hue
      refine ⟨h0, fun hr => ?_⟩
      rw [hs] at h1
      unfold sharedStep at h1
      rw [hr] at h1
      revert h1
      cases e.2 <;> simp [upd, hr]
    · refine ⟨fun hw => ?_, fun hr => ?_⟩
      · exact hue (C43_shared_mutual_exclusion n _ hn e.1 u h1 (Or.inl ((hoth u hue).trans hw))).symm
      · exact hue (C43_shared_mutual_exclusion n _ hn e.1 u h1 (Or.inr ((hoth u hue).trans hr))).symm
  · by_cases hue : u = e.1
    · subst hue
      rw [hs] at h1
      unfold sharedStep at h1
      rw [hu] at h1
      revert h1
      cases e.2 <;> simp [upd, hu]
    · exact hue (C43_shared_mutual_exclusion n _ hn u e.1 ((hoth u hue).trans hu) (Or.inr h1))

/-- **C43** (a lock without a writer is acquired by readers): by new calls of `lock_shared` and `try_lock_shared`, and by a thread that is waiting in `lock_shared`. -/
theorem C43_shared_readers_acquire (n : Nat) (es : List (Nat × SharedOp)) (t : Nat) (htn : t < n) (hn : FewThreads n es)
    (hfree : ∀ u, (sharedRun es).pc u ≠ .writing) :
    ((sharedRun es).pc t = .idle →
      (sharedRun (es ++ [(t, .lockShared), (t, .lockShared), (t, .lockShared)])).pc t = .reading ∧
      (sharedRun (es ++ [(t, .tryLockShared), (t, .tryLockShared)])).pc t = .reading) ∧
    ((sharedRun es).pc t = .sharedSpin → ∀ op, (sharedRun (es ++ [(t, op)])).pc t = .reading) := by
  have hrun : ∀ l, sharedRun (es ++ l) = l.foldl sharedStep (sharedRun es) := fun l => by
    unfold sharedRun; rw [List.foldl_append]
  have hinv := sharedInv_run hn.1 es hn.2
  have hw0 : cnt n isWriting (sharedRun es).pc = 0 := by
    refine cnt_zero (fun u _ => ?_)
    have := hfree u
    revert this
    cases (sharedRun es).pc u <;> simp [isWriting]
  have hc : (sharedRun es).cntr.toNat = cnt n isShared (sharedRun es).pc := by
    rw [hinv.count, hw0]; omega
  have hle := cnt_le n isShared (sharedRun es).pc
  have hn1 : n < 2147483647 := hn.1
  have hlt : (sharedRun es).cntr < sharedWriter := by
    rw [BitVec.lt_def, sharedWriter_toNat, hc]; omega
  refine ⟨fun h => ⟨?_, ?_⟩, fun h op => ?_⟩
  · have hlt' : ¬ (sharedWriter ≤ (sharedRun es).cntr + 1) := by
      have hidle : cnt n isShared (sharedRun es).pc + 1 ≤ n := by
        have := cnt_upd n isShared (sharedRun es).pc t .reading htn
        rw [h] at this
        simp only [isShared, Bool.toNat_false, Bool.toNat_true] at this
        have := cnt_le n isShared (upd (sharedRun es).pc t .reading)
        omega
      rw [BitVec.le_def, sharedWriter_toNat, BitVec.toNat_add, Nat.mod_eq_of_lt] <;>
        rw [show (1 : BitVec 32).toNat = 1 from rfl, hc] <;> omega
    have hlt2 : ¬ (sharedWriter ≤ (sharedRun es).cntr + 1#32) := hlt'
    rw [hrun]
    simp [sharedStep, h, upd, hlt2]
  · rw [hrun]
    simp [sharedStep, h, upd, hlt]
  · rw [hrun]
    have hlt' : ¬ (sharedWriter ≤ (sharedRun es).cntr) := by
      rw [BitVec.le_def]
      rw [BitVec.lt_def] at hlt
      omega
    simp [sharedStep, h, upd, hlt']

/-- **C43** (a lock that nobody holds or is acquiring as a reader is acquired by a writer): by new calls of `lock` and `try_lock`, and by a thread that is waiting in `lock`. -/
theorem C43_shared_writer_acquires (n : Nat) (es : List (Nat × SharedOp)) (t : Nat) (hn : FewThreads n es)
    (hfree : ∀ u, (sharedRun es).pc u = .idle ∨ (sharedRun es).pc u = .lockCas ∨ (sharedRun es).pc u = .lockSpin ∨
      (sharedRun es).pc u = .tryCas ∨ (sharedRun es).pc u = .sharedAdd ∨ (sharedRun es).pc u = .trySharedAdd) :
    ((sharedRun es).pc t = .idle → (sharedRun (es ++ [(t, .lock), (t, .lock)])).pc t = .writing ∧
      (sharedRun (es ++ [(t, .tryLock), (t, .tryLock)])).pc t = .writing) ∧
    ((sharedRun es).pc t = .lockSpin → ∀ op op', (sharedRun (es ++ [(t, op), (t, op')])).pc t = .writing) := by
  have hrun : ∀ l, sharedRun (es ++ l) = l.foldl sharedStep (sharedRun es) := fun l => by
    unfold sharedRun; rw [List.foldl_append]
  have hinv := sharedInv_run hn.1 es hn.2
  have hw0 : cnt n isWriting (sharedRun es).pc = 0 := by
    refine cnt_zero (fun u _ => ?_)
    rcases hfree u with h | h | h | h | h | h <;> rw [h] <;> rfl
  have hs0 : cnt n isShared (sharedRun es).pc = 0 := by
    refine cnt_zero (fun u _ => ?_)
    rcases hfree u with h | h | h | h | h | h <;> rw [h] <;> rfl
  have hc : (sharedRun es).cntr = 0 := by
    have : (sharedRun es).cntr.toNat = (0 : BitVec 32).toNat := by
      rw [hinv.count, hw0, hs0]; rfl
    exact BitVec.eq_of_toNat_eq this
  refine ⟨fun h => ⟨?_, ?_⟩, fun h op op' => ?_⟩
  all_goals
    rw [hrun]
    simp [sharedStep, h, upd, hc]

/-- Two readers share the lock, a writer waits for both of them, a reader that arrives later waits for the writer. -/
example :
    let es : List (Nat × SharedOp) := [(0, .lockShared), (0, .lockShared), (0, .lockShared), (1, .tryLockShared), (1, .tryLockShared),
      (2, .lock), (2, .lock), (2, .lock)]
    let es' := es ++ [(0, .unlockShared), (2, .lock), (1, .unlockShared), (2, .lock), (2, .lock)]
    FewThreads 4 es ∧ (sharedRun es).pc 0 = .reading ∧ (sharedRun es).pc 1 = .reading ∧ (sharedRun es).pc 2 = .lockSpin ∧
      (sharedRun es').pc 2 = .writing ∧
      (sharedRun (es' ++ [(3, .lockShared), (3, .lockShared), (3, .lockShared)])).pc 3 = .sharedSpin ∧
      (sharedRun (es' ++ [(3, .lockShared), (3, .lockShared), (2, .unlock), (3, .lockShared)])).pc 3 = .reading := by
  unfold FewThreads
  decide +kernel

end Gapp.Props
