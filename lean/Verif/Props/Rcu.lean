import Verif.Proofs.Rcu
/-!
# Properties of RCU (C44)

A history is any list of steps of the threads `0 … n-1`. `RcuPc.reading sec`: the thread is between `read_lock` and `read_unlock`; `sec.held` are the pointers it has loaded in this section, `sec.start` is the number of steps before the section began. `RcuPc.synced start old`: `synchronize`, called when `start` steps had been made, has returned.
-/

namespace Gapp.Props

open Gapp.Model

/-- The numbers of the threads of the history are below `n`. -/
def ThreadsBelow (n : Nat) (es : List (Nat × RcuOp)) : Prop := ∀ e ∈ es, e.1 < n

/-- **C44** (no use after free): under sequential consistency, an object that a thread has loaded in its current read section has not been freed. Missing: read sections of one thread that overlap, for which it is false (`C44_nested_sections_use_after_free`), and weaker memory models (`C44_store_buffer_use_after_free`). -/
theorem C44_no_use_after_free_partial (n : Nat) (es : List (Nat × RcuOp)) (he : ThreadsBelow n es)
    (hn : ¬ NestedRead n es) (r : Nat) (sec : ReadSection) (hr : (rcuRun false n es).pc r = .reading sec)
    (p : Nat × Nat) (hp : p ∈ sec.held) : p ∉ (rcuRun false n es).freed :=
  (rcuInv_run n es he hn).held r sec p hr hp

/-- **C44** (grace period): when `synchronize` returns, no read section that had begun before it was called is still running. Missing: as for `C44_no_use_after_free_partial`. -/
theorem C44_grace_period_partial (n : Nat) (es : List (Nat × RcuOp)) (he : ThreadsBelow n es)
    (hn : ¬ NestedRead n es) (w start : Nat) (old : Option (Nat × Nat))
    (hw : (rcuRun false n es).pc w = .synced start old) (r : Nat) (sec : ReadSection)
    (hr : (rcuRun false n es).pc r = .reading sec) : start ≤ sec.start := by
  by_contra hlt
  have hinv := rcuInv_run n es he hn
  obtain ⟨_, _, e, hepoch, _⟩ := hinv.read r sec hr
  have := hinv.guard r sec w e hr hepoch (Or.inr ⟨start, by rw [hw]; rfl, by omega⟩)
  rw [hw] at this
  exact this

/-- The times in `C44_grace_period_partial` count the steps: a call of `synchronize` and the end of `read_lock` are stamped with the number of steps before them. -/
theorem C44_times (tso : Bool) (n : Nat) (es : List (Nat × RcuOp)) (t : Nat) :
    ((rcuRun tso n es).pc t = .idle →
      (rcuRun tso n (es ++ [(t, .waitForReaders)])).pc t = .syncLoad es.length none) ∧
    (∀ e op, (rcuRun tso n es).pc t = .locking e none → op ≠ .flush →
      (rcuRun tso n (es ++ [(t, op)])).pc t = .reading ⟨es.length, 1, []⟩) := by
  have hc := rcuRun_clock tso n es
  refine ⟨fun h => ?_, fun e op h hop => ?_⟩
  · rw [rcuRun_snoc]
    simp [rcuStep, rcuMove, h, rcuGoto, upd, hc]
  · rw [rcuRun_snoc]
    cases tso <;> simp [rcuStep, rcuMove, h, rcuGoto, rcuStore, upd, hc, hop]

/-- **C44** (no double free). -/
theorem C44_freed_once_partial (n : Nat) (es : List (Nat × RcuOp)) (he : ThreadsBelow n es)
    (hn : ¬ NestedRead n es) : (rcuRun false n es).freed.Nodup ∧
      ∀ p ∈ (rcuRun false n es).freed, p.2 ≠ (rcuRun false n es).version p.1 :=
  ⟨(rcuInv_run n es he hn).once, fun p hp => Nat.ne_of_lt ((rcuInv_run n es he hn).freed p hp)⟩

/-- **C44** (a writer does not wait for new readers): a `read_lock` that starts while a writer waits gets an epoch the writer does not wait for. -/
theorem C44_new_readers_do_not_block (tso : Bool) (n : Nat) (es : List (Nat × RcuOp)) (w r : Nat) (start target i : Nat)
    (old : Option (Nat × Nat)) (hw : (rcuRun tso n es).pc w = .syncScan start old target i)
    (hr : (rcuRun tso n es).pc r = .idle) :
    ∃ e, (rcuRun tso n (es ++ [(r, .readLock)])).pc r = .locking e none ∧ epochPassed target (some e) = true := by
  refine ⟨(rcuRun tso n es).writerEpoch, ?_, ?_⟩
  · rw [rcuRun_snoc]
    simp [rcuStep, rcuMove, hr, rcuGoto, upd]
  · have := (rcuRun_target tso n es w).2 _ _ _ _ hw
    simpa [epochPassed] using this

/-- **C44** (`synchronize` returns): once no reader has an epoch below the target, the writer's own steps complete the call. -/
theorem C44_synchronize_returns (tso : Bool) (n : Nat) (w start target : Nat) (old : Option (Nat × Nat)) (k : Nat) :
    ∀ (es : List (Nat × RcuOp)) (i : Nat), (rcuRun tso n es).pc w = .syncScan start old target i → n - i = k →
      (∀ r < n, epochPassed target ((rcuRun tso n es).epoch r) = true) →
      (rcuRun tso n (es ++ List.replicate (k + 1) (w, .waitForReaders))).pc w = .synced start old := by
  induction k with
  | zero =>
    intro es i hw hk _
    rw [show List.replicate (0 + 1) (w, RcuOp.waitForReaders) = [(w, RcuOp.waitForReaders)] from rfl, rcuRun_snoc]
    have hi : ¬ i < n := by omega
    simp [rcuStep, rcuMove, hw, rcuGoto, upd, hi]
  | succ k ih =>
    intro es i hw hk hall
    have hi : i < n := by omega
    have hstep : rcuRun tso n (es ++ [(w, .waitForReaders)]) =
        { rcuGoto (rcuRun tso n es) w (.syncScan start old target (i + 1)) with clock := (rcuRun tso n es).clock + 1 } := by
      rw [rcuRun_snoc]
      simp [rcuStep, rcuMove, hw, hi, hall i hi, rcuGoto]
    have := ih (es ++ [(w, .waitForReaders)]) (i + 1) (by rw [hstep]; simp [rcuGoto, upd]) (by omega)
      (fun r hr => by rw [hstep]; exact hall r hr)
    rw [List.append_assoc] at this
    exact this

/-- The last epoch that thread `t` has stored: the newest one in its store buffer, or the one in memory if the buffer is empty. -/
def lastStored (s : RcuState) (t : Nat) : Option Nat := ((s.buf t).getLast?).getD (s.epoch t)

/-- **C44** (store buffers keep the order): that a store reaches the memory does not change which one is the last, of any thread. -/
theorem C44_flush_keeps_last (tso : Bool) (n : Nat) (s : RcuState) (t u : Nat) : lastStored (rcuStep tso n s (u, .flush)) t = lastStored s t := by
  unfold rcuStep rcuFlush lastStored
  cases hb : s.buf u with
  | nil => simp
  | cons v rest =>
    by_cases ht : t = u
    · subst ht
      cases rest with
      | nil => simp [upd, hb]
      | cons w rest => simp [upd, hb, List.getLast?_cons]
    · simp [upd, ht]

/-- What the program of a thread says about the last epoch it has stored. -/
theorem lastStored_move (n : Nat) (s : RcuState) (u : Nat) (op : RcuOp) (t : Nat) :
    (lastStored (rcuMove true n s u op) t = none ∨ lastStored (rcuMove true n s u op) t = lastStored s t ∧ (rcuMove true n s u op).pc t = s.pc t ∨
      (∃ sec, (rcuMove true n s u op).pc t = .reading sec) ∨ (∃ e sec, (rcuMove true n s u op).pc t = .locking e (some sec)) ∨
      lastStored (rcuMove true n s u op) t = lastStored s t ∧ (∀ sec, s.pc t ≠ .reading sec) ∧ ∀ e sec, s.pc t ≠ .locking e (some sec)) := by
  by_cases htu : t = u
  · subst htu
    unfold rcuMove lastStored
    cases hpc : s.pc t with
    | idle => cases op <;> simp only [rcuGoto] <;> (try split) <;> simp [upd]
    | locking e outer => cases outer <;> simp [rcuGoto, rcuStore, upd]
    | reading sec => cases op <;> simp only [rcuGoto, rcuStore] <;> (try split) <;> simp [upd, hpc]
    | syncLoad a b => simp [rcuGoto]
    | syncCas a b c => simp only [rcuGoto]; split <;> simp
    | syncScan a b c d => simp only [rcuGoto]; split <;> (try split) <;> simp
    | synced a b => simp [rcuGoto]
  · have hb : (rcuMove true n s u op).buf t = s.buf t ∧ (rcuMove true n s u op).epoch t = s.epoch t ∧ (rcuMove true n s u op).pc t = s.pc t := by
      unfold rcuMove
      cases s.pc u with
      | idle => cases op <;> simp only [rcuGoto] <;> (try split) <;> simp [upd, htu]
      | locking e outer => cases outer <;> simp [rcuGoto, rcuStore, upd, htu]
      | reading sec => cases op <;> simp only [rcuGoto, rcuStore] <;> (try split) <;> simp [upd, htu]
      | syncLoad a b => simp [rcuGoto, upd, htu]
      | syncCas a b c => simp only [rcuGoto]; split <;> simp [upd, htu]
      | syncScan a b c d => simp only [rcuGoto]; split <;> (try split) <;> simp [upd, htu]
      | synced a b => simp [rcuGoto, upd, htu]
    refine Or.inr (Or.inl ⟨?_, hb.2.2⟩)
    unfold lastStored
    rw [hb.1, hb.2.1]

/-- **C44** (threads that are not reading do not block writers for ever): in every history with store buffers, the last epoch a thread has stored is `NOT_READING` if the thread is in no read section, so the
memory holds this value once the buffer is empty. -/
theorem C44_not_reading (n : Nat) (es : List (Nat × RcuOp)) (t : Nat) (h : ∀ sec, (rcuRun true n es).pc t ≠ .reading sec) (h' : ∀ e sec, (rcuRun true n es).pc t ≠ .locking e (some sec)) :
    lastStored (rcuRun true n es) t = none := by
  induction es using Gapp.ListAux.snoc_induction with
  | nil => rfl
  | append_singleton es e ih =>
    obtain ⟨u, op⟩ := e
    rw [rcuRun_snoc] at h h' ⊢
    by_cases hop : op = .flush
    · subst hop
      rw [C44_flush_keeps_last]
      have hp : (rcuStep true n (rcuRun true n es) (u, .flush)).pc = (rcuRun true n es).pc := by
        unfold rcuStep rcuFlush
        cases (rcuRun true n es).buf u <;> rfl
      rw [hp] at h h'
      exact ih h h'
    · have e1 : (rcuStep true n (rcuRun true n es) (u, op)).pc = (rcuMove true n (rcuRun true n es) u op).pc := by
        unfold rcuStep
        simp only [hop, if_false]
      have e2 : lastStored (rcuStep true n (rcuRun true n es) (u, op)) t = lastStored (rcuMove true n (rcuRun true n es) u op) t := by
        unfold rcuStep lastStored
        simp only [hop, if_false]
      rw [e1] at h h'
      rw [e2]
      rcases lastStored_move n (rcuRun true n es) u op t with h1 | ⟨h1, h2⟩ | ⟨sec, h1⟩ | ⟨e, sec, h1⟩ | ⟨h1, h2, h3⟩
      · exact h1
      · rw [h1]
        rw [h2] at h h'
        exact ih h h'
      · exact absurd h1 (h sec)
      · exact absurd h1 (h' e sec)
      · rw [h1]
        exact ih h2 h3

/-- **C44** (`read_lock` announces the reader): with store buffers, the last epoch stored by a thread whose `read_lock` has just returned is the one it has read. -/
theorem C44_read_lock_announces (n : Nat) (es : List (Nat × RcuOp)) (t e : Nat) (outer : Option ReadSection) (op : RcuOp) (hop : op ≠ .flush) (h : (rcuRun true n es).pc t = .locking e outer) :
    lastStored (rcuRun true n (es ++ [(t, op)])) t = some e := by
  rw [rcuRun_snoc]
  unfold rcuStep rcuMove lastStored
  simp only [hop, if_false, h]
  cases outer <;> simp [rcuGoto, rcuStore, upd]

/-- A thread locks and unlocks and locks again, and one store has reached the memory: the last one is still in the buffer. -/
example : lastStored (rcuRun true 1 [(0, .readLock), (0, .get 0), (0, .readUnlock), (0, .readLock), (0, .get 0), (0, .flush)]) 0 = some 0 ∧
    (rcuRun true 1 [(0, .readLock), (0, .get 0), (0, .readUnlock)]).pc 0 = .idle ∧ lastStored (rcuRun true 1 [(0, .readLock), (0, .get 0), (0, .readUnlock)]) 0 = none := by decide +kernel

/-- A reader holds the object while it is replaced; the writer waits for it. A later reader does not hold it up. -/
def demoRcu : List (Nat × RcuOp) :=
  [(0, .readLock), (0, .readLock), (0, .get 3), (1, .assign 3), (1, .assign 3), (1, .assign 3), (1, .assign 3),
    (2, .readLock), (2, .readLock), (2, .get 3)]

theorem demoRcu_unnested : ¬ NestedRead 3 demoRcu := by
  rintro ⟨a, t, b, sec, hes, hpc⟩
  have hlen := congrArg List.length hes
  rw [List.length_append, List.length_cons] at hlen
  have hl : a.length < 10 := by
    have : demoRcu.length = 10 := rfl
    omega
  have hget : demoRcu[a.length]? = some (t, .readLock) := by rw [hes]; simp
  have htake : a = demoRcu.take a.length := by rw [hes]; simp
  generalize hk : a.length = k at hget htake hl
  match k, hl with
  | 0, _ =>
    cases hget
    rw [htake, show (rcuRun false 3 (demoRcu.take 0)).pc 0 = .idle by decide +kernel] at hpc
    cases hpc
  | 1, _ =>
    cases hget
    rw [htake, show (rcuRun false 3 (demoRcu.take 1)).pc 0 = .locking 0 none by decide +kernel] at hpc
    cases hpc
  | 2, _ => cases hget
  | 3, _ => cases hget
  | 4, _ => cases hget
  | 5, _ => cases hget
  | 6, _ => cases hget
  | 7, _ =>
    cases hget
    rw [htake, show (rcuRun false 3 (demoRcu.take 7)).pc 2 = .idle by decide +kernel] at hpc
    cases hpc
  | 8, _ =>
    cases hget
    rw [htake, show (rcuRun false 3 (demoRcu.take 8)).pc 2 = .locking 1 none by decide +kernel] at hpc
    cases hpc
  | 9, _ => cases hget

example :
    ThreadsBelow 3 demoRcu ∧ ¬ NestedRead 3 demoRcu ∧
      (rcuRun false 3 demoRcu).pc 0 = .reading ⟨1, 1, [(3, 0)]⟩ ∧
      (rcuRun false 3 demoRcu).pc 1 = .syncScan 3 (some (3, 0)) 1 0 ∧
      (rcuRun false 3 demoRcu).pc 2 = .reading ⟨8, 1, [(3, 1)]⟩ ∧
      (rcuRun false 3 (demoRcu ++ [(0, .readUnlock), (1, .get 0), (1, .get 0), (1, .get 0), (1, .get 0), (1, .get 0)])).freed =
        [(3, 0)] := by
  refine ⟨?_, demoRcu_unnested, by decide +kernel, by decide +kernel, by decide +kernel, by decide +kernel⟩
  unfold ThreadsBelow
  decide +kernel

/-- **C44** fails for overlapping read sections of one thread. All objects share one epoch per thread, so releasing one object (or locking another one later) gives up the protection of the first: here a thread holds pointers to objects 0 and 1 and leaves the section of object 1; the object 0 it is still reading is freed. -/
theorem C44_nested_sections_use_after_free :
    ∃ (es : List (Nat × RcuOp)) (sec : ReadSection), ThreadsBelow 2 es ∧
      (rcuRun false 2 es).pc 0 = .reading sec ∧ (0, 0) ∈ sec.held ∧ (0, 0) ∈ (rcuRun false 2 es).freed := by
  refine ⟨[(0, .readLock), (0, .readLock), (0, .get 0), (0, .readLock), (0, .readLock), (0, .get 1), (0, .readUnlock),
    (1, .assign 0), (1, .assign 0), (1, .assign 0), (1, .assign 0), (1, .assign 0), (1, .assign 0), (1, .assign 0)],
    ⟨1, 1, [(1, 0), (0, 0)]⟩, ?_, by decide +kernel, by decide, by decide +kernel⟩
  unfold ThreadsBelow
  decide +kernel

/-- **C44** fails with store buffers (x86): the store of the epoch in `read_lock` may become visible after the pointer has been loaded, because nothing orders that store before the later load. The writer then does not see the reader, and frees the object the reader holds. -/
theorem C44_store_buffer_use_after_free :
    ∃ (es : List (Nat × RcuOp)) (sec : ReadSection), ThreadsBelow 2 es ∧ ¬ NestedRead 2 es ∧
      (rcuRun true 2 es).pc 0 = .reading sec ∧ (0, 0) ∈ sec.held ∧ (0, 0) ∈ (rcuRun true 2 es).freed := by
  refine ⟨[(0, .readLock), (0, .get 0), (0, .get 0),
    (1, .assign 0), (1, .assign 0), (1, .assign 0), (1, .assign 0), (1, .assign 0), (1, .assign 0), (1, .assign 0)],
    ⟨1, 1, [(0, 0)]⟩, ?_, ?_, by decide +kernel, by decide, by decide +kernel⟩
  · unfold ThreadsBelow
    decide +kernel
  · rintro ⟨a, t, b, sec, hes, hpc⟩
    cases a with
    | nil => cases hpc
    | cons x a =>
      rw [List.cons_append] at hes
      have := (List.cons.inj hes).2
      have hmem : (t, RcuOp.readLock) ∈ a ++ (t, RcuOp.readLock) :: b := by simp
      rw [← this] at hmem
      simp at hmem

end Gapp.Props
