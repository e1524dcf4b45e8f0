import Verif.Proofs.ConcurrentQueue
/-!
# Properties of `concurrent_queue` (C42)
-/

namespace Gapp.Props

open Gapp.Model Gapp.Spec

variable {α : Type}

/-- **C42** (linearizability): in every history of any number of threads, the results of the operations, in the order of their critical sections, are those of a closable FIFO queue. -/
theorem C42_fifo (n : Nat) (es : List (QueueEvent α)) : LegalQueue (queueRun n es).log :=
  (queueInv_run n es).legal

/-- **C42** (each element exactly once, in order): the elements handed out so far, followed by the elements in the queue, are the accepted elements in their order. -/
theorem C42_exactly_once (n : Nat) (es : List (QueueEvent α)) :
    acceptedOf (queueRun n es).log = deliveredOf (queueRun n es).log ++ (queueRun n es).queue :=
  (queueInv_run n es).fifo

/-- **C42** (no lost wake-up): if no thread that has been signalled is on its way back, then a thread that is left waiting waits for an open and empty queue. -/
theorem C42_no_lost_wakeup (n : Nat) (es : List (QueueEvent α)) (he : ∀ e ∈ es, e.below n)
    (hquiet : ∀ t, (queueRun n es).pc t ≠ .woken) (t : Nat) (ht : (queueRun n es).pc t = .waiting) :
    (queueRun n es).queue = [] ∧ QueueLog.closed ∉ (queueRun n es).log := by
  obtain ⟨h1, h2⟩ := (wakeInv_run es he).enough ⟨t, ht⟩
  have h0 : cnt n isWoken (queueRun n es).pc = 0 := by
    refine cnt_zero (fun u _ => ?_)
    have := hquiet u
    revert this
    cases (queueRun n es).pc u <;> simp [isWoken]
  refine ⟨List.length_eq_zero_iff.1 (by omega), fun hc => ?_⟩
  have := (queueInv_run n es).closed.2 hc
  rw [h2] at this; cases this

/-- **C42** (a woken thread and a new call are served): whenever the queue has an element or is closed, a thread that has been woken up, or that calls `take`, returns in its next step. -/
theorem C42_take_served (n : Nat) (es : List (QueueEvent α)) (t : Nat)
    (h : (queueRun n es).queue ≠ [] ∨ QueueLog.closed ∈ (queueRun n es).log) :
    ((queueRun n es).pc t = .woken →
      ∃ r, (queueRun n (es ++ [.resume t])).log = (queueRun n es).log ++ [.took t r] ∧
        (queueRun n (es ++ [.resume t])).pc t = .idle) ∧
    ((queueRun n es).pc t = .idle →
      ∃ r, (queueRun n (es ++ [.take t])).log = (queueRun n es).log ++ [.took t r] ∧
        (queueRun n (es ++ [.take t])).pc t = .idle) := by
  have hrun : ∀ e, queueRun n (es ++ [e]) = queueStep n (queueRun n es) e := fun e => by
    unfold queueRun; rw [List.foldl_append]; rfl
  have hlk : ∃ r, (takeLocked (queueRun n es) t).log = (queueRun n es).log ++ [.took t r] ∧
      (takeLocked (queueRun n es) t).pc t = .idle := by
    have hp : (!(queueRun n es).queue.isEmpty || (queueRun n es).isClosed) = true := by
      rcases h with h | h
      · cases hq : (queueRun n es).queue with
        | nil => exact absurd hq h
        | cons => rfl
      · rw [(queueInv_run n es).closed.2 h, Bool.or_true]
    unfold takeLocked
    rw [if_pos hp]
    split
    · exact ⟨none, rfl, upd_same _ _ _⟩
    · rename_i x rest hq
      exact ⟨some x, rfl, upd_same _ _ _⟩
  refine ⟨fun hw => ?_, fun hi => ?_⟩
  · rw [hrun]
    unfold queueStep
    simp only
    rw [if_pos hw]
    exact hlk
  · rw [hrun]
    unfold queueStep
    simp only
    rw [if_pos hi]
    exact hlk

/-- **C42** (a thread waits only for an open and empty queue). -/
theorem C42_waits_only_when_empty (n : Nat) (es : List (QueueEvent α)) (e : QueueEvent α) (t : Nat)
    (h0 : (queueRun n es).pc t ≠ .waiting) (h1 : (queueRun n (es ++ [e])).pc t = .waiting) :
    (queueRun n es).queue = [] ∧ QueueLog.closed ∉ (queueRun n es).log := by
  have hrun : queueRun n (es ++ [e]) = queueStep n (queueRun n es) e := by
    unfold queueRun; rw [List.foldl_append]; rfl
  rw [hrun] at h1
  have hinv := queueInv_run n es
  generalize queueRun n es = s at *
  have hlk : ∀ u, (takeLocked s u).pc t = .waiting → s.queue = [] ∧ QueueLog.closed ∉ s.log := by
    intro u hu
    unfold takeLocked at hu
    split at hu
    · exfalso
      have : upd s.pc u .idle t = .waiting := by
        split at hu <;> exact hu
      by_cases htu : t = u
      · subst htu; rw [upd_same] at this; cases this
      · rw [upd_ne _ _ htu] at this; exact h0 this
    · rename_i hp
      have hq : s.queue = [] ∧ s.isClosed = false := by
        revert hp
        cases s.queue <;> cases s.isClosed <;> simp
      refine ⟨hq.1, fun hc => ?_⟩
      have := hinv.closed.2 hc
      rw [hq.2] at this; cases this
  cases e with
  | emplace x wake =>
    exfalso
    unfold queueStep at h1
    simp only at h1
    split at h1
    · exact h0 h1
    · have h1 : notifyOne n s.pc wake t = .waiting := h1
      unfold notifyOne at h1
      have hu : ∀ v, upd s.pc v .woken t = .waiting → False := by
        intro v hv
        by_cases htu : t = v
        · subst htu; rw [upd_same] at hv; cases hv
        · rw [upd_ne _ _ htu] at hv; exact h0 hv
      split at h1
      · exact hu _ h1
      · cases hf : (List.range n).find? (fun t => decide (s.pc t = .waiting)) with
        | some v => rw [hf] at h1; exact hu _ h1
        | none => rw [hf] at h1; exact h0 h1
  | take u =>
    unfold queueStep at h1
    simp only at h1
    split at h1
    · exact hlk u h1
    · exact absurd h1 h0
  | resume u =>
    unfold queueStep at h1
    simp only at h1
    split at h1
    · exact hlk u h1
    · exact absurd h1 h0
  | spurious u =>
    exfalso
    unfold queueStep at h1
    simp only at h1
    split at h1
    · have h1 : upd s.pc u .woken t = .waiting := h1
      by_cases htu : t = u
      · subst htu; rw [upd_same] at h1; cases h1
      · rw [upd_ne _ _ htu] at h1; exact h0 h1
    · exact h0 h1
  | close =>
    exfalso
    unfold queueStep at h1
    have h1 : (if s.pc t = .waiting then ConsPc.woken else s.pc t) = .waiting := h1
    split at h1
    · cases h1
    · exact h0 h1

/-- Two consumers wait; an element wakes the second one, but a third thread takes it first, so that the second waits again; then the queue is closed with one element in it. -/
example :
    let es : List (QueueEvent Nat) := [.take 0, .take 1, .emplace 5 1, .take 2, .resume 1, .spurious 0, .resume 0]
    let es' := es ++ [.emplace 6 0, .emplace 7 0, .close, .resume 1, .emplace 8 0, .resume 0, .take 2]
    (∀ e ∈ es', e.below 3) ∧ (queueRun 3 es).pc 0 = .waiting ∧ (queueRun 3 es).pc 1 = .waiting ∧
      (queueRun 3 es).log = [.emplaced 5 true, .took 2 (some 5)] ∧
      (queueRun 3 es').log = [.emplaced 5 true, .took 2 (some 5), .emplaced 6 true, .emplaced 7 true, .closed,
        .took 1 (some 6), .emplaced 8 false, .took 0 (some 7), .took 2 none] := by
  refine ⟨?_, by decide +kernel, by decide +kernel, by decide +kernel, by decide +kernel⟩
  intro e he
  simp at he
  rcases he with rfl | rfl | rfl | rfl | rfl | rfl | rfl | rfl | rfl | rfl | rfl | rfl | rfl | rfl <;>
    simp [QueueEvent.below]

end Gapp.Props
