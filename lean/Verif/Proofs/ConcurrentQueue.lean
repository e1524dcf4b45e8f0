import Verif.Spec.ConcurrentQueue
import Verif.Proofs.Locks

namespace Gapp.Model

open Gapp.Spec

variable {α : Type}

theorem acceptedOf_append (a b : List (QueueLog α)) : acceptedOf (a ++ b) = acceptedOf a ++ acceptedOf b := by
  induction a with
  | nil => rfl
  | cons e a ih =>
    rcases e with ⟨x, _ | _⟩ | ⟨t, r⟩ | _ <;> simp [acceptedOf, ih]

theorem deliveredOf_append (a b : List (QueueLog α)) : deliveredOf (a ++ b) = deliveredOf a ++ deliveredOf b := by
  induction a with
  | nil => rfl
  | cons e a ih =>
    rcases e with ⟨x, _ | _⟩ | ⟨t, _ | x⟩ | _ <;> simp [deliveredOf, ih]

theorem legalQueue_snoc {log : List (QueueLog α)} {e : QueueLog α} (h : LegalQueue log) (he : LegalNext log e) :
    LegalQueue (log ++ [e]) := by
  intro a e' b hab
  rcases List.eq_nil_or_concat b with hb | ⟨b', x, hb⟩
  · subst hb
    obtain ⟨h1, h2⟩ := List.append_inj' hab rfl
    cases h2
    exact h1 ▸ he
  · subst hb
    have : log ++ [e] = (a ++ e' :: b') ++ [x] := by rw [hab]; simp
    obtain ⟨h1, _⟩ := List.append_inj' this rfl
    exact h a e' b' h1

structure QueueInv (s : QueueState α) : Prop where
  fifo : acceptedOf s.log = deliveredOf s.log ++ s.queue
  closed : s.isClosed = true ↔ .closed ∈ s.log
  legal : LegalQueue s.log

theorem queueInv_take {s : QueueState α} (h : QueueInv s) (t : Nat) : QueueInv (takeLocked s t) := by
  unfold takeLocked
  split
  · rename_i hp
    split
    · rename_i hq
      rw [hq] at hp
      have hcl : s.isClosed = true := by simpa using hp
      refine ⟨?_, ?_, ?_⟩
      · show acceptedOf (s.log ++ [_]) = deliveredOf (s.log ++ [_]) ++ s.queue
        rw [acceptedOf_append, deliveredOf_append, h.fifo]
        simp [acceptedOf, deliveredOf]
      · show s.isClosed = true ↔ .closed ∈ s.log ++ [_]
        rw [h.closed]; simp
      · refine legalQueue_snoc h.legal ⟨h.closed.1 hcl, ?_⟩
        rw [h.fifo, hq, List.append_nil]
    · rename_i x rest hq
      refine ⟨?_, ?_, ?_⟩
      · show acceptedOf (s.log ++ [_]) = deliveredOf (s.log ++ [_]) ++ rest
        rw [acceptedOf_append, deliveredOf_append, h.fifo, hq]
        simp [acceptedOf, deliveredOf]
      · show s.isClosed = true ↔ .closed ∈ s.log ++ [_]
        rw [h.closed]; simp
      · refine legalQueue_snoc h.legal ?_
        show (acceptedOf s.log)[(deliveredOf s.log).length]? = some x
        rw [h.fifo, hq, List.getElem?_append_right (Nat.le_refl _)]
        simp
  · exact ⟨h.fifo, h.closed, h.legal⟩

theorem queueInv_step (n : Nat) {s : QueueState α} (h : QueueInv s) (e : QueueEvent α) : QueueInv (queueStep n s e) := by
  cases e with
  | emplace x wake =>
    unfold queueStep
    simp only
    split
    · rename_i hc
      refine ⟨?_, ?_, ?_⟩
      · show acceptedOf (s.log ++ [_]) = deliveredOf (s.log ++ [_]) ++ s.queue
        rw [acceptedOf_append, deliveredOf_append, h.fifo]
        simp [acceptedOf, deliveredOf]
      · show s.isClosed = true ↔ .closed ∈ s.log ++ [_]
        rw [h.closed]; simp
      · refine legalQueue_snoc h.legal ?_
        show false = true ↔ _
        refine ⟨fun hf => (by cases hf), fun hf => absurd (h.closed.1 hc) hf⟩
    · rename_i hc
      refine ⟨?_, ?_, ?_⟩
      · show acceptedOf (s.log ++ [_]) = deliveredOf (s.log ++ [_]) ++ (s.queue ++ [x])
        rw [acceptedOf_append, deliveredOf_append, h.fifo]
        simp [acceptedOf, deliveredOf]
      · show s.isClosed = true ↔ .closed ∈ s.log ++ [_]
        rw [h.closed]; simp
      · refine legalQueue_snoc h.legal ?_
        show true = true ↔ _
        exact ⟨fun _ hf => hc (h.closed.2 hf), fun _ => rfl⟩
  | take t =>
    unfold queueStep
    simp only
    split
    · exact queueInv_take h t
    · exact h
  | resume t =>
    unfold queueStep
    simp only
    split
    · exact queueInv_take h t
    · exact h
  | spurious t =>
    unfold queueStep
    simp only
    split
    · exact ⟨h.fifo, h.closed, h.legal⟩
    · exact h
  | close =>
    unfold queueStep
    refine ⟨?_, ?_, ?_⟩
    · show acceptedOf (s.log ++ [_]) = deliveredOf (s.log ++ [_]) ++ s.queue
      rw [acceptedOf_append, deliveredOf_append, h.fifo]
      simp [acceptedOf, deliveredOf]
    · show true = true ↔ .closed ∈ s.log ++ [_]
      simp
    · exact legalQueue_snoc h.legal trivial

theorem queueInv_run (n : Nat) (es : List (QueueEvent α)) : QueueInv (queueRun n es) := by
  unfold queueRun
  have : ∀ (es : List (QueueEvent α)) (s : QueueState α), QueueInv s → QueueInv (es.foldl (queueStep n) s) := by
    intro es
    induction es with
    | nil => intro s h; exact h
    | cons e es ih => intro s h; exact ih _ (queueInv_step n h e)
  refine this es _ ⟨rfl, by simp [queueInit], ?_⟩
  intro a e b hab
  have := congrArg List.length hab
  simp [queueInit] at this

/-! ## Wake-ups -/

def isWoken : ConsPc → Bool
  | .woken => true
  | _ => false

/-- The numbers of the threads that act in an event are below `n`. -/
def QueueEvent.below (n : Nat) : QueueEvent α → Prop
  | .take t | .resume t | .spurious t => t < n
  | _ => True

structure WakeInv (n : Nat) (s : QueueState α) : Prop where
  /-- while a thread waits, there is a woken thread for every element -/
  enough : (∃ t, s.pc t = .waiting) → s.queue.length ≤ cnt n isWoken s.pc ∧ s.isClosed = false
  out : ∀ t, n ≤ t → s.pc t = .idle

theorem wakeInv_take {n : Nat} {s : QueueState α} (h : WakeInv n s) {t : Nat} (ht : t < n)
    (hw : s.pc t = .idle ∨ s.pc t = .woken) : WakeInv n (takeLocked s t) := by
  have hout : ∀ (p : ConsPc) (u : Nat), n ≤ u → upd s.pc t p u = .idle := fun p u hu => by
    rw [upd_ne _ _ (by omega)]; exact h.out u hu
  have hidle : (∃ u, upd s.pc t .idle u = .waiting) → ∃ u, s.pc u = .waiting := by
    rintro ⟨u, hu⟩
    by_cases hut : u = t
    · subst hut; rw [upd_same] at hu; cases hu
    · rw [upd_ne _ _ hut] at hu; exact ⟨u, hu⟩
  have hcnt := fun v => cnt_upd n isWoken s.pc t v ht
  have hb : (isWoken (s.pc t)).toNat ≤ 1 := Bool.toNat_le _
  unfold takeLocked
  split
  · split
    · rename_i hp _ hq
      refine ⟨fun hx => ?_, hout _⟩
      obtain ⟨h1, h2⟩ := h.enough (hidle hx)
      rw [hq, h2] at hp
      simp at hp
    · rename_i x rest hq
      refine ⟨fun hx => ?_, hout _⟩
      obtain ⟨h1, h2⟩ := h.enough (hidle hx)
      refine ⟨?_, h2⟩
      show rest.length ≤ cnt n isWoken (upd s.pc t .idle)
      have := hcnt .idle
      rw [hq, List.length_cons] at h1
      have h0 : (isWoken .idle).toNat = 0 := rfl
      omega
  · rename_i hp
    refine ⟨fun _ => ?_, hout _⟩
    have hq : s.queue = [] ∧ s.isClosed = false := by
      revert hp
      cases s.queue <;> cases s.isClosed <;> simp
    refine ⟨?_, hq.2⟩
    show s.queue.length ≤ _
    rw [hq.1]; exact Nat.zero_le _

theorem notifyOne_spec (n : Nat) (pc : Nat → ConsPc) (wake : Nat) (hout : ∀ t, n ≤ t → pc t = .idle) :
    (∃ t, t < n ∧ pc t = .waiting ∧ notifyOne n pc wake = upd pc t .woken) ∨
    ((∀ t, pc t ≠ .waiting) ∧ notifyOne n pc wake = pc) := by
  have hlt : ∀ t, pc t = .waiting → t < n := by
    intro t ht
    by_contra hc
    rw [hout t (by omega)] at ht; cases ht
  unfold notifyOne
  split
  · rename_i h; exact Or.inl ⟨wake, hlt _ h, h, rfl⟩
  · cases hf : (List.range n).find? (fun t => decide (pc t = .waiting)) with
    | some t =>
      have := List.find?_some hf
      have ht : pc t = .waiting := by simpa using this
      exact Or.inl ⟨t, hlt _ ht, ht, rfl⟩
    | none =>
      refine Or.inr ⟨fun t ht => ?_, rfl⟩
      have := List.find?_eq_none.1 hf t (List.mem_range.2 (hlt t ht))
      simp [ht] at this

theorem wakeInv_step {n : Nat} {s : QueueState α} (h : WakeInv n s) {e : QueueEvent α} (he : e.below n) :
    WakeInv n (queueStep n s e) := by
  cases e with
  | emplace x wake =>
    unfold queueStep
    simp only
    split
    · exact ⟨h.enough, h.out⟩
    · rcases notifyOne_spec n s.pc wake h.out with ⟨t, ht, htw, heq⟩ | ⟨hno, heq⟩
      · refine ⟨fun _ => ?_, ?_⟩
        · obtain ⟨h1, h2⟩ := h.enough ⟨t, htw⟩
          refine ⟨?_, h2⟩
          show (s.queue ++ [x]).length ≤ cnt n isWoken (notifyOne n s.pc wake)
          rw [heq]
          have := cnt_upd n isWoken s.pc t .woken ht
          rw [htw] at this
          simp only [isWoken, Bool.toNat_false, Bool.toNat_true] at this
          rw [List.length_append, List.length_singleton]
          omega
        · intro u hu
          show notifyOne n s.pc wake u = .idle
          rw [heq, upd_ne _ _ (by omega)]
          exact h.out u hu
      · refine ⟨?_, ?_⟩
        · rintro ⟨u, hu⟩
          have hu : notifyOne n s.pc wake u = .waiting := hu
          rw [heq] at hu
          exact absurd hu (hno u)
        · intro u hu
          show notifyOne n s.pc wake u = .idle
          rw [heq]; exact h.out u hu
  | take t =>
    unfold queueStep
    simp only
    split
    · rename_i hp; exact wakeInv_take h he (Or.inl hp)
    · exact h
  | resume t =>
    unfold queueStep
    simp only
    split
    · rename_i hp; exact wakeInv_take h he (Or.inr hp)
    · exact h
  | spurious t =>
    have ht : t < n := he
    unfold queueStep
    simp only
    split
    · rename_i hp
      refine ⟨fun _ => ?_, ?_⟩
      · obtain ⟨h1, h2⟩ := h.enough ⟨t, hp⟩
        refine ⟨?_, h2⟩
        show s.queue.length ≤ cnt n isWoken (upd s.pc t .woken)
        have := cnt_upd n isWoken s.pc t .woken ht
        rw [hp] at this
        simp only [isWoken, Bool.toNat_false, Bool.toNat_true] at this
        omega
      · intro u hu
        show upd s.pc t .woken u = .idle
        rw [upd_ne _ _ (by omega)]; exact h.out u hu
    · exact h
  | close =>
    unfold queueStep
    refine ⟨?_, ?_⟩
    · rintro ⟨u, hu⟩
      have hu : (if s.pc u = .waiting then ConsPc.woken else s.pc u) = .waiting := hu
      split at hu
      · cases hu
      · rename_i hne; exact absurd hu hne
    · intro u hu
      show (if s.pc u = .waiting then ConsPc.woken else s.pc u) = .idle
      rw [h.out u hu]; rfl

theorem wakeInv_run {n : Nat} (es : List (QueueEvent α)) (he : ∀ e ∈ es, e.below n) : WakeInv n (queueRun n es) := by
  unfold queueRun
  have : ∀ (es : List (QueueEvent α)) (s : QueueState α), (∀ e ∈ es, e.below n) → WakeInv n s →
      WakeInv n (es.foldl (queueStep n) s) := by
    intro es
    induction es with
    | nil => intro s _ h; exact h
    | cons e es ih =>
      intro s he h
      exact ih _ (fun e' h' => he e' (List.mem_cons_of_mem _ h')) (wakeInv_step h (he e List.mem_cons_self))
  exact this es _ he ⟨fun ⟨t, ht⟩ => (by cases ht), fun _ _ => rfl⟩

end Gapp.Model
