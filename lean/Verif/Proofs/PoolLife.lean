import Verif.Spec.PoolLife
import Verif.Proofs.ListAux
import Mathlib.Tactic.Ring
import Mathlib.Data.List.Count
import Mathlib.Data.List.Perm.Basic
import Mathlib.Algebra.BigOperators.Group.List.Basic
/-!
# Proofs about the life cycle of the worker threads
-/

namespace Gapp.Model
open Gapp.Spec

/-- A sum over the workers when one of them is replaced. -/
theorem workerSum_set (f : LifeWorker → Nat) : ∀ (ws : List LifeWorker) (i : Nat) (w w' : LifeWorker), ws[i]? = some w → ((ws.set i w').map f).sum + f w = (ws.map f).sum + f w'
  | [], i, w, w', h => by simp at h
  | v :: ws, 0, w, w', h => by
    simp only [List.getElem?_cons_zero, Option.some.injEq] at h
    subst h
    simp only [List.set_cons_zero, List.map_cons, List.sum_cons]; omega
  | v :: ws, i + 1, w, w', h => by
    have := workerSum_set f ws i w w' (by simpa using h)
    simp only [List.set_cons_succ, List.map_cons, List.sum_cons]; omega

/-- How often the task `x` is waiting or running. -/
def pendCount (x : Nat) (ws : List LifeWorker) : Nat := (ws.map (fun w => (LifeWorker.pending w).count x)).sum

theorem pendCount_append (x : Nat) (a b : List LifeWorker) : pendCount x (a ++ b) = pendCount x a + pendCount x b := by
  unfold pendCount; rw [List.map_append, List.sum_append]

theorem pendCount_flatMap (x : Nat) (ws : List LifeWorker) : (ws.flatMap LifeWorker.pending).count x = pendCount x ws := by
  unfold pendCount
  rw [List.count_flatMap]; rfl

theorem step_pending (x : Nat) (w : LifeWorker) : (LifeWorker.pending w.step.1).count x + w.step.2.toList.count x = (LifeWorker.pending w).count x := by
  obtain ⟨q, c, pc⟩ := w
  cases pc with
  | taking =>
    cases q with
    | nil => cases c <;> simp [LifeWorker.step, LifeWorker.pending]
    | cons y q => simp [LifeWorker.step, LifeWorker.pending]
  | running y => simp [LifeWorker.step, LifeWorker.pending, List.count_cons, Nat.add_comm]
  | exited => simp [LifeWorker.step, LifeWorker.pending]

theorem stepAt_pending (x : Nat) (ws : List LifeWorker) (i : Nat) : pendCount x (stepAt ws i).1 + (stepAt ws i).2.toList.count x = pendCount x ws := by
  unfold stepAt
  cases h : ws[i]? with
  | none => simp
  | some w =>
    have h1 := workerSum_set (fun w => (LifeWorker.pending w).count x) ws i w w.step.1 h
    have h2 := step_pending x w
    dsimp only at h1 ⊢
    unfold pendCount
    omega

/-- The number of steps that a worker still has to take, with room for a task to be added. -/
def workerWeight (w : LifeWorker) : Nat := 3 * w.queue.length + (match w.pc with
  | .taking => 1
  | .running _ => 2
  | .exited => 0)

/-- A step of a worker changes nothing, or makes progress. -/
theorem step_weight (w : LifeWorker) : (w.step = (w, none)) ∨ workerWeight w.step.1 < workerWeight w := by
  obtain ⟨q, c, pc⟩ := w
  cases pc with
  | taking =>
    cases q with
    | nil => cases c <;> simp [LifeWorker.step, workerWeight]
    | cons y q => right; simp [LifeWorker.step, workerWeight]; omega
  | running y => right; simp [LifeWorker.step, workerWeight]
  | exited => left; simp [LifeWorker.step]

def weightSum (ws : List LifeWorker) : Nat := (ws.map workerWeight).sum

theorem weightSum_append (a b : List LifeWorker) : weightSum (a ++ b) = weightSum a + weightSum b := by
  unfold weightSum; rw [List.map_append, List.sum_append]

theorem stepAt_weight (ws : List LifeWorker) (i : Nat) : (stepAt ws i = (ws, none)) ∨ weightSum (stepAt ws i).1 < weightSum ws := by
  unfold stepAt
  cases h : ws[i]? with
  | none => left; rfl
  | some w =>
    have h1 := workerSum_set workerWeight ws i w w.step.1 h
    rcases step_weight w with h2 | h2
    · left
      dsimp only
      rw [h2]
      dsimp only
      obtain ⟨hi, rfl⟩ := List.getElem?_eq_some_iff.mp h
      rw [List.set_getElem_self]
    · right
      dsimp only at h1 ⊢
      unfold weightSum
      omega

/-- Replacing a worker by one with the same property. -/
theorem forall_mem_set {p : LifeWorker → Prop} {ws : List LifeWorker} (h : ∀ w ∈ ws, p w) (i : Nat) {w' : LifeWorker} (hw : p w') : ∀ w ∈ ws.set i w', p w := by
  intro w hm
  rcases List.mem_or_eq_of_mem_set hm with hm | rfl
  · exact h w hm
  · exact hw

theorem stepAt_forall {p : LifeWorker → Prop} (hp : ∀ w, p w → p w.step.1) {ws : List LifeWorker} (h : ∀ w ∈ ws, p w) (i : Nat) : ∀ w ∈ (stepAt ws i).1, p w := by
  unfold stepAt
  cases hi : ws[i]? with
  | none => exact h
  | some w => exact forall_mem_set h i (hp w (h w (List.mem_of_getElem? hi)))

theorem stepAt_length (ws : List LifeWorker) (i : Nat) : (stepAt ws i).1.length = ws.length := by
  unfold stepAt; split <;> simp

theorem step_closed (w : LifeWorker) : w.step.1.closed = w.closed := by
  obtain ⟨q, c, pc⟩ := w
  cases pc with
  | taking => cases q <;> cases c <;> rfl
  | running y => rfl
  | exited => rfl

/-- A thread has exited only if the queue is closed and empty. -/
def ExitOk (w : LifeWorker) : Prop := w.pc = .exited → w.queue = [] ∧ w.closed = true

theorem exitOk_new : ExitOk .new := fun h => by cases h

theorem exitOk_step (w : LifeWorker) (h : ExitOk w) : ExitOk w.step.1 := by
  obtain ⟨q, c, pc⟩ := w
  cases pc with
  | taking =>
    cases q with
    | nil =>
      cases c with
      | false => intro h; cases h
      | true => exact fun _ => ⟨rfl, rfl⟩
    | cons y q => intro h; cases h
  | running y => intro h; cases h
  | exited => exact h

theorem new_step : LifeWorker.new.step = (.new, none) := rfl

/-- The part of the invariant that depends on where the master is. `P`: all the threads can be started. -/
def LifePhase (P : Prop) (s : LifeState) : Prop :=
  match s.master with
  | .ready => s.fresh = [] ∧ s.old = [] ∧ (P → ∀ w ∈ s.workers, w.closed = false)
  | .closing next i => s.fresh = [] ∧ s.old = [] ∧ i ≤ s.workers.length ∧ (∀ j w, j < i → s.workers[j]? = some w → w.closed = true) ∧ (P → ∀ c k, next ≠ some (c, some k))
  | .starting count fails => s.old = [] ∧ s.fresh.length ≤ count - 1 ∧ (∀ w ∈ s.workers, w.closed = true) ∧ (P → fails = none)
  | .joining ends => s.fresh = [] ∧ (∀ w ∈ s.old, w.closed = true) ∧ (∀ w ∈ s.workers, w = .new) ∧ (ends = true → s.workers = [])
  | .unwinding => s.old = [] ∧ ¬ P
  | .gone => s.fresh = [] ∧ s.old = [] ∧ s.workers = []

structure LifeInv (P : Prop) (s : LifeState) : Prop where
  exit : ∀ w ∈ s.workers ++ s.fresh ++ s.old, ExitOk w
  fresh : ∀ w ∈ s.fresh, w = .new
  phase : LifePhase P s
  script : P → NoFailure s.script
  accepted : P → s.rejected = []

theorem stepAt_getElem (ws : List LifeWorker) (i j : Nat) (w : LifeWorker) (h : (stepAt ws i).1[j]? = some w) : ∃ w0, ws[j]? = some w0 ∧ (w = w0 ∨ w = w0.step.1) := by
  unfold stepAt at h
  cases hi : ws[i]? with
  | none => simp only [hi] at h; exact ⟨w, h, Or.inl rfl⟩
  | some w0 =>
    simp only [hi] at h
    rw [List.getElem?_set] at h
    split at h
    · rename_i hij
      subst hij
      split at h
      · exact ⟨w0, hi, Or.inr (Option.some.inj h).symm⟩
      · cases h
    · exact ⟨w, h, Or.inl rfl⟩

theorem stepAt_new (ws : List LifeWorker) (i : Nat) (h : ∀ w ∈ ws, w = .new) : stepAt ws i = (ws, none) := by
  unfold stepAt
  cases hi : ws[i]? with
  | none => rfl
  | some w =>
    obtain rfl := h w (List.mem_of_getElem? hi)
    dsimp only
    rw [new_step]
    obtain ⟨hlt, he⟩ := List.getElem?_eq_some_iff.mp hi
    dsimp only
    rw [← he, List.set_getElem_self]

theorem lifeInv_submit {P : Prop} {s : LifeState} (h : LifeInv P s) (hm : s.master = .ready) (x : Nat) : LifeInv P (lifeSubmit s x) := by
  have hph := h.phase
  unfold LifePhase at hph
  rw [hm] at hph
  obtain ⟨p1, p2, p3⟩ := hph
  unfold lifeSubmit
  split
  · exact ⟨h.exit, h.fresh, by unfold LifePhase; simp only [hm]; exact ⟨p1, p2, p3⟩, h.script, h.accepted⟩
  dsimp only
  cases hw : s.workers[s.turn % s.workers.length]? with
  | none => exact h
  | some w =>
    have hwm := List.mem_of_getElem? hw
    dsimp only
    by_cases hcl : w.closed = true
    · rw [if_pos hcl]
      refine ⟨h.exit, h.fresh, by unfold LifePhase; simp only [hm]; exact ⟨p1, p2, p3⟩, h.script, fun hP => ?_⟩
      rw [p3 hP w hwm] at hcl; cases hcl
    · rw [if_neg hcl]
      refine ⟨?_, h.fresh, ?_, h.script, h.accepted⟩
      · intro v hv
        have hv : v ∈ s.workers.set _ _ ++ s.fresh ++ s.old := hv
        rw [List.append_assoc] at hv
        rcases List.mem_append.mp hv with hv | hv
        · refine forall_mem_set (p := ExitOk) (fun u hu => h.exit u (by simp [hu])) _ ?_ v hv
          intro he
          exact absurd (h.exit w (by simp [hwm]) he).2 hcl
        · exact h.exit v (by rw [List.append_assoc]; exact List.mem_append_right _ hv)
      · unfold LifePhase
        simp only [hm]
        exact ⟨p1, p2, fun hP => forall_mem_set (p3 hP) _ (by simpa using hcl)⟩

theorem lifeInv_master {P : Prop} {s : LifeState} (h : LifeInv P s) : LifeInv P (lifeMaster s) := by
  have hph := h.phase
  unfold LifePhase at hph
  unfold lifeMaster
  cases hm : s.master with
  | ready =>
    rw [hm] at hph
    obtain ⟨p1, p2, p3⟩ := hph
    dsimp only
    cases hs : s.script with
    | nil => exact h
    | cons op rest =>
      have hrest : P → NoFailure rest := fun hP c k hmem => h.script hP c k (by rw [hs]; exact List.mem_cons_of_mem _ hmem)
      cases op with
      | submit x =>
        exact lifeInv_submit (s := { s with script := rest, master := .ready }) ⟨h.exit, h.fresh, ⟨p1, p2, p3⟩, hrest, h.accepted⟩ rfl x
      | resize count fails =>
        dsimp only
        split
        · refine ⟨h.exit, h.fresh, ?_, hrest, h.accepted⟩
          unfold LifePhase; simp only [hm]; exact ⟨p1, p2, p3⟩
        · refine ⟨h.exit, h.fresh, ?_, hrest, h.accepted⟩
          refine ⟨p1, p2, Nat.zero_le _, fun j w hj => by omega, fun hP c k he => ?_⟩
          simp only [Option.some.injEq, Prod.mk.injEq] at he
          exact h.script hP count k (by rw [hs, he.2]; exact List.mem_cons_self)
      | destroy =>
        refine ⟨h.exit, h.fresh, ?_, hrest, h.accepted⟩
        exact ⟨p1, p2, Nat.zero_le _, fun j w hj => by omega, fun hP c k he => by cases he⟩
  | closing next i =>
    rw [hm] at hph
    obtain ⟨p1, p2, p3, p4, p5⟩ := hph
    dsimp only
    cases hw : s.workers[i]? with
    | some w =>
      have hwm := List.mem_of_getElem? hw
      refine ⟨?_, h.fresh, ?_, h.script, h.accepted⟩
      · intro v hv
        have hv : v ∈ s.workers.set _ _ ++ s.fresh ++ s.old := hv
        rw [List.append_assoc] at hv
        rcases List.mem_append.mp hv with hv | hv
        · refine forall_mem_set (p := ExitOk) (fun u hu => h.exit u (by simp [hu])) _ ?_ v hv
          intro he
          exact ⟨(h.exit w (by simp [hwm]) he).1, rfl⟩
        · exact h.exit v (by rw [List.append_assoc]; exact List.mem_append_right _ hv)
      · have hi := (List.getElem?_eq_some_iff.mp hw).1
        refine ⟨p1, p2, by simp only [List.length_set]; omega, ?_, p5⟩
        intro j v hj hv
        have hv : (s.workers.set i w.close)[j]? = some v := hv
        rw [List.getElem?_set] at hv
        split at hv
        · obtain rfl := Option.some.inj hv; rfl
        · exact p4 j v (by omega) hv
    | none =>
      have hge : s.workers.length ≤ i := List.getElem?_eq_none_iff.mp hw
      have hall : ∀ w ∈ s.workers, w.closed = true := by
        intro w hwm
        obtain ⟨j, hj⟩ := List.getElem?_of_mem hwm
        have := (List.getElem?_eq_some_iff.mp hj).1
        exact p4 j w (by omega) hj
      cases next with
      | none =>
        refine ⟨?_, h.fresh, ⟨p1, hall, by simp, fun _ => rfl⟩, h.script, h.accepted⟩
        intro v hv
        have hv : v ∈ [] ++ s.fresh ++ s.workers := hv
        rw [p1] at hv
        exact h.exit v (by simp at hv; simp [hv])
      | some nf =>
        obtain ⟨c, f⟩ := nf
        refine ⟨h.exit, h.fresh, ⟨p2, by rw [p1]; simp, hall, fun hP => ?_⟩, h.script, h.accepted⟩
        cases f with
        | none => rfl
        | some k => exact absurd rfl (p5 hP c k)
  | starting count fails =>
    rw [hm] at hph
    obtain ⟨p1, p2, p3, p4⟩ := hph
    dsimp only
    split
    · refine ⟨?_, by simp, ⟨rfl, p3, h.fresh, fun he => by cases he⟩, h.script, h.accepted⟩
      intro v hv
      refine h.exit v ?_
      have hv : v ∈ s.fresh ++ [] ++ s.workers := hv
      simp only [List.append_nil, List.mem_append] at hv ⊢
      tauto
    · split
      · rename_i hf
        refine ⟨h.exit, h.fresh, ⟨p1, fun hP => ?_⟩, h.script, h.accepted⟩
        rw [p4 hP] at hf; cases hf
      · rename_i hne _
        refine ⟨?_, ?_, ?_, h.script, h.accepted⟩
        · intro v hv
          have hv : v ∈ s.workers ++ (s.fresh ++ [.new]) ++ s.old := hv
          simp only [List.mem_append, List.mem_singleton] at hv
          rcases hv with (hv | hv | hv) | hv
          · exact h.exit v (by simp [hv])
          · exact h.exit v (by simp [hv])
          · rw [hv]; exact exitOk_new
          · exact h.exit v (by simp [hv])
        · intro v hv
          rcases List.mem_append.mp hv with hv | hv
          · exact h.fresh v hv
          · exact List.mem_singleton.mp hv
        · unfold LifePhase
          simp only [hm]
          exact ⟨p1, by rw [List.length_append, List.length_singleton]; omega, p3, p4⟩
  | joining ends =>
    rw [hm] at hph
    obtain ⟨p1, p2, p3, p4⟩ := hph
    dsimp only
    cases ho : s.old with
    | nil =>
      refine ⟨fun w hw => h.exit w (by rw [ho]; exact hw), h.fresh, ?_, h.script, h.accepted⟩
      unfold LifePhase
      cases ends with
      | true => exact ⟨p1, rfl, p4 rfl⟩
      | false => exact ⟨p1, rfl, fun _ w hw => by rw [p3 w hw]; rfl⟩
    | cons w rest =>
      dsimp only
      split
      · refine ⟨?_, h.fresh, ?_, h.script, h.accepted⟩
        · intro v hv
          refine h.exit v ?_
          have hv : v ∈ s.workers ++ s.fresh ++ rest := hv
          rw [ho]
          simp only [List.mem_append, List.mem_cons] at hv ⊢
          tauto
        · unfold LifePhase
          simp only [hm]
          exact ⟨p1, fun v hv => p2 v (by rw [ho]; exact List.mem_cons_of_mem _ hv), p3, p4⟩
      · exact h
  | unwinding =>
    rw [hm] at hph
    obtain ⟨p1, p2⟩ := hph
    dsimp only
    cases hf : s.fresh with
    | nil => exact ⟨fun w hw => h.exit w (by rw [hf]; exact hw), by simp, ⟨rfl, p1, fun hP => absurd hP p2⟩, h.script, h.accepted⟩
    | cons w rest =>
      dsimp only
      rw [if_neg]
      · exact h
      · rw [h.fresh w (by rw [hf]; exact List.mem_cons_self)]; decide
  | gone => exact h

theorem lifeInv_step {P : Prop} {s : LifeState} (h : LifeInv P s) (e : LifeEvent) : LifeInv P (lifeStep s e) := by
  have hw : ∀ w ∈ s.workers, ExitOk w := fun w hw => h.exit w (by simp [hw])
  have hfr : ∀ w ∈ s.fresh, ExitOk w := fun w hw => h.exit w (by simp [hw])
  have ho : ∀ w ∈ s.old, ExitOk w := fun w hw => h.exit w (by simp [hw])
  cases e with
  | master => exact lifeInv_master h
  | worker i =>
    have hw' := stepAt_forall exitOk_step hw i
    refine ⟨?_, h.fresh, ?_, h.script, h.accepted⟩
    · intro v hv
      have hv : v ∈ (stepAt s.workers i).1 ++ s.fresh ++ s.old := hv
      simp only [List.mem_append] at hv
      rcases hv with (hv | hv) | hv
      · exact hw' v hv
      · exact hfr v hv
      · exact ho v hv
    · have hph := h.phase
      have hlen := stepAt_length s.workers i
      unfold LifePhase at hph ⊢
      rw [show (lifeStep s (.worker i)).master = s.master from rfl]
      cases hm : s.master with
      | ready =>
        rw [hm] at hph
        exact ⟨hph.1, hph.2.1, fun hP => stepAt_forall (p := fun w => w.closed = false) (fun w hc => by rw [step_closed]; exact hc) (hph.2.2 hP) i⟩
      | closing next j =>
        rw [hm] at hph
        refine ⟨hph.1, hph.2.1, by show j ≤ (stepAt s.workers i).1.length; rw [hlen]; exact hph.2.2.1, ?_, hph.2.2.2.2⟩
        intro k w hk hkw
        obtain ⟨w0, h0, hw0⟩ := stepAt_getElem s.workers i k w hkw
        have := hph.2.2.2.1 k w0 hk h0
        rcases hw0 with rfl | rfl
        · exact this
        · rw [step_closed]; exact this
      | starting c f =>
        rw [hm] at hph
        exact ⟨hph.1, hph.2.1, stepAt_forall (p := fun w => w.closed = true) (fun w hc => by rw [step_closed]; exact hc) hph.2.2.1 i, hph.2.2.2⟩
      | joining b =>
        rw [hm] at hph
        have hwk : (lifeStep s (.worker i)).workers = s.workers := by
          show (stepAt s.workers i).1 = _
          rw [stepAt_new s.workers i hph.2.2.1]
        dsimp only
        rw [hwk]
        exact hph
      | unwinding => rw [hm] at hph; exact hph
      | gone =>
        rw [hm] at hph
        refine ⟨hph.1, hph.2.1, ?_⟩
        show (stepAt s.workers i).1 = []
        rw [hph.2.2]; rfl
  | fresh i =>
    have he : lifeStep s (.fresh i) = s := by
      unfold lifeStep
      dsimp only
      rw [stepAt_new s.fresh i h.fresh]; rfl
    rw [he]; exact h
  | old i =>
    have ho' := stepAt_forall exitOk_step ho i
    refine ⟨?_, h.fresh, ?_, h.script, h.accepted⟩
    · intro v hv
      have hv : v ∈ s.workers ++ s.fresh ++ (stepAt s.old i).1 := hv
      simp only [List.mem_append] at hv
      rcases hv with (hv | hv) | hv
      · exact hw v hv
      · exact hfr v hv
      · exact ho' v hv
    · have hph := h.phase
      have hempty : s.old = [] → (stepAt s.old i).1 = [] := fun h => by rw [h]; rfl
      unfold LifePhase at hph ⊢
      rw [show (lifeStep s (.old i)).master = s.master from rfl]
      cases hm : s.master with
      | ready => rw [hm] at hph; exact ⟨hph.1, hempty hph.2.1, hph.2.2⟩
      | closing next j => rw [hm] at hph; exact ⟨hph.1, hempty hph.2.1, hph.2.2⟩
      | starting c f => rw [hm] at hph; exact ⟨hempty hph.1, hph.2⟩
      | joining b =>
        rw [hm] at hph
        exact ⟨hph.1, stepAt_forall (p := fun w => w.closed = true) (fun w hc => by rw [step_closed]; exact hc) hph.2.1 i, hph.2.2⟩
      | unwinding => rw [hm] at hph; exact ⟨hempty hph.1, hph.2⟩
      | gone => rw [hm] at hph; exact ⟨hph.1, hempty hph.2.1, hph.2.2⟩

theorem lifeInv_init (threads : Nat) (script : List LifeOp) : LifeInv (NoFailure script) (lifeInit threads script) where
  exit := by
    intro w hw
    have hw : w ∈ List.replicate (threads - 1) LifeWorker.new := by simpa [lifeInit] using hw
    rw [List.eq_of_mem_replicate hw]; exact exitOk_new
  fresh := by simp [lifeInit]
  phase := ⟨rfl, rfl, fun _ w hw => by
    have hw : w ∈ List.replicate (threads - 1) LifeWorker.new := by simpa [lifeInit] using hw
    rw [List.eq_of_mem_replicate hw]; rfl⟩
  script := fun h => h
  accepted := fun _ => rfl

theorem lifeRun_snoc (threads : Nat) (script : List LifeOp) (es : List LifeEvent) (e : LifeEvent) :
    lifeRun threads script (es ++ [e]) = lifeStep (lifeRun threads script es) e := by
  unfold lifeRun; rw [List.foldl_append]; rfl

theorem lifeInv_run (threads : Nat) (script : List LifeOp) (es : List LifeEvent) : LifeInv (NoFailure script) (lifeRun threads script es) := by
  induction es using Gapp.ListAux.snoc_induction with
  | nil => exact lifeInv_init threads script
  | append_singleton es e ih => rw [lifeRun_snoc]; exact lifeInv_step ih e

/-! ## No task is lost -/

/-- Where the occurrences of the task `x` are. -/
def lifeCount (x : Nat) (s : LifeState) : Nat :=
  s.done.count x + s.rejected.count x + (pendCount x s.workers + pendCount x s.fresh + pendCount x s.old) + (tasksOf s.script).count x

theorem pendCount_exited (x : Nat) (w : LifeWorker) (h : ExitOk w) (he : w.pc = .exited) (rest : List LifeWorker) : pendCount x (w :: rest) = pendCount x rest := by
  unfold pendCount
  rw [List.map_cons, List.sum_cons]
  have : LifeWorker.pending w = [] := by
    unfold LifeWorker.pending; rw [he, (h he).1]; rfl
  rw [this]; simp

theorem lifeCount_submit (x y : Nat) (s : LifeState) : lifeCount x (lifeSubmit s y) = lifeCount x s + [y].count x := by
  unfold lifeSubmit
  split
  · unfold lifeCount; simp only [List.count_cons, List.count_nil]; omega
  · rename_i hne
    dsimp only
    cases hw : s.workers[s.turn % s.workers.length]? with
    | none =>
      have := List.getElem?_eq_none_iff.mp hw
      have := Nat.mod_lt s.turn (Nat.pos_of_ne_zero hne)
      omega
    | some w =>
      dsimp only
      split
      · unfold lifeCount; simp only [List.count_cons, List.count_nil]; omega
      · have h1 := workerSum_set (fun w => (LifeWorker.pending w).count x) s.workers _ w { w with queue := w.queue ++ [y] } hw
        have h2 : (LifeWorker.pending { w with queue := w.queue ++ [y] }).count x = (LifeWorker.pending w).count x + [y].count x := by
          unfold LifeWorker.pending; simp only [List.count_append]; omega
        rw [h2] at h1
        unfold lifeCount pendCount
        dsimp only
        omega

theorem lifeCount_master {P : Prop} (x : Nat) {s : LifeState} (h : LifeInv P s) : lifeCount x (lifeMaster s) = lifeCount x s := by
  have hph := h.phase
  unfold LifePhase at hph
  unfold lifeMaster
  cases hm : s.master with
  | ready =>
    rw [hm] at hph
    dsimp only
    cases hs : s.script with
    | nil => rfl
    | cons op rest =>
      cases op with
      | submit y =>
        dsimp only
        rw [lifeCount_submit]
        unfold lifeCount
        dsimp only
        rw [hs]
        simp only [tasksOf, List.filterMap_cons, List.count_cons, List.count_nil]; omega
      | resize count fails =>
        dsimp only
        split <;> (unfold lifeCount; dsimp only; rw [hs]; simp only [tasksOf, List.filterMap_cons])
      | destroy => unfold lifeCount; dsimp only; rw [hs]; simp only [tasksOf, List.filterMap_cons]
  | closing next i =>
    rw [hm] at hph
    obtain ⟨p1, p2, -⟩ := hph
    dsimp only
    cases hw : s.workers[i]? with
    | some w =>
      have h1 := workerSum_set (fun w => (LifeWorker.pending w).count x) s.workers _ w w.close hw
      have h2 : LifeWorker.pending w.close = LifeWorker.pending w := rfl
      rw [h2] at h1
      unfold lifeCount pendCount
      dsimp only
      omega
    | none =>
      cases next with
      | none =>
        unfold lifeCount
        dsimp only
        rw [p2]
        simp [pendCount]; omega
      | some nf => rfl
  | starting count fails =>
    rw [hm] at hph
    obtain ⟨p1, -⟩ := hph
    dsimp only
    split
    · unfold lifeCount
      dsimp only
      rw [p1]
      simp [pendCount]; omega
    · split
      · rfl
      · unfold lifeCount
        dsimp only
        rw [pendCount_append]
        simp [pendCount, LifeWorker.new, LifeWorker.pending]
  | joining ends =>
    dsimp only
    cases ho : s.old with
    | nil => unfold lifeCount; dsimp only; rw [ho]
    | cons w rest =>
      dsimp only
      split
      · rename_i he
        unfold lifeCount
        dsimp only
        rw [ho, pendCount_exited x w (h.exit w (by simp [ho])) he]
      · rfl
  | unwinding =>
    dsimp only
    cases hf : s.fresh with
    | nil => unfold lifeCount; dsimp only; rw [hf]
    | cons w rest =>
      dsimp only
      split
      · rename_i he
        unfold lifeCount
        dsimp only
        rw [hf, pendCount_exited x w (h.exit w (by simp [hf])) he]
      · rfl
  | gone => rfl

theorem lifeCount_step {P : Prop} (x : Nat) {s : LifeState} (h : LifeInv P s) (e : LifeEvent) : lifeCount x (lifeStep s e) = lifeCount x s := by
  cases e with
  | master => exact lifeCount_master x h
  | worker i =>
    have := stepAt_pending x s.workers i
    unfold lifeCount lifeStep
    simp only [List.count_append]; omega
  | fresh i =>
    have := stepAt_pending x s.fresh i
    unfold lifeCount lifeStep
    simp only [List.count_append]; omega
  | old i =>
    have := stepAt_pending x s.old i
    unfold lifeCount lifeStep
    simp only [List.count_append]; omega

theorem lifeCount_run (x threads : Nat) (script : List LifeOp) (es : List LifeEvent) : lifeCount x (lifeRun threads script es) = (tasksOf script).count x := by
  induction es using Gapp.ListAux.snoc_induction with
  | nil =>
    have : ∀ n, pendCount x (List.replicate n LifeWorker.new) = 0 := by
      intro n; unfold pendCount; rw [List.map_replicate, List.sum_replicate]; simp [LifeWorker.new, LifeWorker.pending]
    unfold lifeRun lifeCount lifeInit
    simp only [List.foldl_nil, this]
    simp [pendCount]
  | append_singleton es e ih => rw [lifeRun_snoc, lifeCount_step x (lifeInv_run threads script es), ih]

/-! ## Progress -/

/-- The number of steps that the rest of the script takes, for `W` workers. -/
def scriptWeight : Nat → List LifeOp → Nat
  | _, [] => 0
  | W, .submit _ :: rest => 5 + scriptWeight W rest
  | W, .resize count _ :: rest =>
    if max count 1 = W + 1 then 1 + scriptWeight W rest
    else 2 + (W + 1) + (2 * (max count 1 - 1) + 1) + (W + 1) + scriptWeight (max count 1 - 1) rest
  | W, .destroy :: _ => 2 + (W + 1) + (W + 1)

/-- The number of steps that the master still has to take. -/
def masterWeight (s : LifeState) : Nat :=
  match s.master with
  | .ready => scriptWeight s.workers.length s.script
  | .closing (some (count, _)) i => 1 + (s.workers.length - i) + (2 * (count - 1) + 1) + (s.workers.length + 1) + scriptWeight (count - 1) s.script
  | .closing none i => 1 + (s.workers.length - i) + (s.workers.length + 1)
  | .starting count _ => 2 * (count - 1 - s.fresh.length) + 1 + (s.workers.length + 1) + scriptWeight (count - 1) s.script
  | .joining ends => s.old.length + 1 + (if ends then 0 else scriptWeight s.workers.length s.script)
  | .unwinding => 0
  | .gone => 0

def lifeWeight (s : LifeState) : Nat := masterWeight s + (weightSum s.workers + weightSum s.fresh + weightSum s.old)

theorem lifeWeight_submit (s : LifeState) (x : Nat) (hm : s.master = .ready) : lifeWeight (lifeSubmit s x) ≤ lifeWeight s + 3 := by
  unfold lifeSubmit
  split
  · unfold lifeWeight masterWeight; simp only [hm]; omega
  · dsimp only
    split
    · omega
    · rename_i w hw
      split
      · unfold lifeWeight masterWeight; simp only [hm]; omega
      · have h1 := workerSum_set workerWeight s.workers _ w { w with queue := w.queue ++ [x] } hw
        have h2 : workerWeight { w with queue := w.queue ++ [x] } = workerWeight w + 3 := by
          unfold workerWeight; simp only [List.length_append, List.length_singleton]; ring
        rw [h2] at h1
        unfold lifeWeight masterWeight weightSum
        simp only [hm, List.length_set]
        omega

/-- A step of the master changes nothing, or makes progress. -/
theorem lifeWeight_master {s : LifeState} (h : LifeInv True s) : lifeMaster s = s ∨ lifeWeight (lifeMaster s) < lifeWeight s := by
  have hph := h.phase
  unfold LifePhase at hph
  unfold lifeMaster
  cases hm : s.master with
  | ready =>
    rw [hm] at hph
    dsimp only
    cases hs : s.script with
    | nil => left; rfl
    | cons op rest =>
      right
      cases op with
      | submit y =>
        dsimp only
        have h1 := lifeWeight_submit { s with script := rest, master := .ready } y rfl
        refine lt_of_le_of_lt h1 ?_
        unfold lifeWeight masterWeight
        simp only [hm, hs, scriptWeight]
        omega
      | resize count fails =>
        dsimp only
        split
        · rename_i hc
          unfold lifeWeight masterWeight
          simp only [hm, hs, scriptWeight, if_pos hc]
          omega
        · rename_i hc
          unfold lifeWeight masterWeight
          simp only [hm, hs, scriptWeight, if_neg hc]
          omega
      | destroy =>
        unfold lifeWeight masterWeight
        simp only [hm, hs, scriptWeight]
        omega
  | closing next i =>
    rw [hm] at hph
    obtain ⟨p1, p2, p3, p4, p5⟩ := hph
    dsimp only
    right
    cases hw : s.workers[i]? with
    | some w =>
      have hi := (List.getElem?_eq_some_iff.mp hw).1
      have h1 := workerSum_set workerWeight s.workers _ w w.close hw
      have h2 : workerWeight w.close = workerWeight w := rfl
      rw [h2] at h1
      unfold lifeWeight masterWeight weightSum
      cases next with
      | none => simp only [hm, List.length_set]; omega
      | some nf => simp only [hm, List.length_set]; omega
    | none =>
      have hge : s.workers.length ≤ i := List.getElem?_eq_none_iff.mp hw
      cases next with
      | none =>
        unfold lifeWeight masterWeight
        simp only [hm, p2]
        simp [weightSum]
        omega
      | some nf =>
        unfold lifeWeight masterWeight
        simp only [hm, p1, List.length_nil]
        omega
  | starting count fails =>
    rw [hm] at hph
    obtain ⟨p1, p2, p3, p4⟩ := hph
    right
    dsimp only
    split
    · rename_i hc
      unfold lifeWeight masterWeight
      simp only [hm, p1, hc]
      simp [weightSum]
      omega
    · rename_i hc
      rw [if_neg (by rw [p4 trivial]; simp)]
      unfold lifeWeight masterWeight
      simp only [hm, weightSum_append, List.length_append, List.length_singleton]
      have : weightSum [LifeWorker.new] = 1 := rfl
      omega
  | joining ends =>
    dsimp only
    cases ho : s.old with
    | nil =>
      right
      unfold lifeWeight masterWeight
      cases ends <;> simp only [hm, ho] <;> simp
    | cons w rest =>
      dsimp only
      split
      · right
        unfold lifeWeight masterWeight
        simp only [hm, ho, List.length_cons]
        simp only [weightSum, List.map_cons, List.sum_cons]
        omega
      · left; rfl
  | unwinding => rw [hm] at hph; exact absurd trivial hph.2
  | gone => left; rfl

theorem lifeWeight_step {s : LifeState} (h : LifeInv True s) (e : LifeEvent) : lifeStep s e = s ∨ lifeWeight (lifeStep s e) < lifeWeight s := by
  cases e with
  | master => exact lifeWeight_master h
  | worker i =>
    rcases stepAt_weight s.workers i with h1 | h1
    · left; unfold lifeStep; dsimp only; rw [h1]; rfl
    · right
      have h2 : masterWeight (lifeStep s (.worker i)) = masterWeight s := by
        unfold masterWeight lifeStep
        simp only [stepAt_length]
      unfold lifeWeight
      rw [h2]
      show masterWeight s + (weightSum (stepAt s.workers i).1 + _ + _) < _
      have : (lifeStep s (.worker i)).fresh = s.fresh := rfl
      rw [this]
      have : (lifeStep s (.worker i)).old = s.old := rfl
      rw [this]
      omega
  | fresh i =>
    left; unfold lifeStep; dsimp only; rw [stepAt_new s.fresh i h.fresh]; rfl
  | old i =>
    rcases stepAt_weight s.old i with h1 | h1
    · left; unfold lifeStep; dsimp only; rw [h1]; rfl
    · right
      have h2 : masterWeight (lifeStep s (.old i)) = masterWeight s := by
        unfold masterWeight lifeStep
        simp only [stepAt_length]
      unfold lifeWeight
      rw [h2]
      show masterWeight s + (_ + _ + weightSum (stepAt s.old i).1) < _
      have : (lifeStep s (.old i)).fresh = s.fresh := rfl
      rw [this]
      have : (lifeStep s (.old i)).workers = s.workers := rfl
      rw [this]
      omega

/-- A worker with something left to do is not blocked. -/
theorem step_ne_of_pending (w : LifeWorker) (h : ExitOk w) (hp : LifeWorker.pending w ≠ []) : w.step ≠ (w, none) := by
  obtain ⟨q, c, pc⟩ := w
  cases pc with
  | taking =>
    cases q with
    | nil => exact absurd rfl hp
    | cons y q => intro he; simp [LifeWorker.step] at he
  | running y => intro he; simp [LifeWorker.step] at he
  | exited =>
    have := (h rfl).1
    dsimp only at this
    subst this
    exact absurd rfl hp

/-- A worker that is told to stop is not blocked. -/
theorem step_ne_of_closed (w : LifeWorker) (hc : w.closed = true) (hp : w.pc ≠ .exited) : w.step ≠ (w, none) := by
  obtain ⟨q, c, pc⟩ := w
  dsimp only at hc hp
  subst hc
  cases pc with
  | taking =>
    cases q with
    | nil => intro he; simp [LifeWorker.step] at he
    | cons y q => intro he; simp [LifeWorker.step] at he
  | running y => intro he; simp [LifeWorker.step] at he
  | exited => exact absurd rfl hp

theorem stepAt_ne (ws : List LifeWorker) (i : Nat) (w : LifeWorker) (hi : ws[i]? = some w) (h : w.step ≠ (w, none)) : weightSum (stepAt ws i).1 < weightSum ws := by
  have h1 := workerSum_set workerWeight ws i w w.step.1 hi
  have h2 := (step_weight w).resolve_left h
  unfold stepAt
  rw [hi]
  dsimp only at h1 ⊢
  unfold weightSum
  omega

/-- As long as something is left to do, some thread can make progress. -/
theorem lifeStep_progress {s : LifeState} (h : LifeInv True s) (hf : ¬ LifeFinished s) : ∃ e, lifeStep s e ≠ s := by
  have hph := h.phase
  unfold LifePhase at hph
  by_cases hp : ∃ w ∈ s.workers, LifeWorker.pending w ≠ []
  · obtain ⟨w, hw, hp⟩ := hp
    obtain ⟨i, hi⟩ := List.getElem?_of_mem hw
    refine ⟨.worker i, fun he => ?_⟩
    have h1 := stepAt_ne s.workers i w hi (step_ne_of_pending w (h.exit w (by simp [hw])) hp)
    have h2 : (stepAt s.workers i).1 = s.workers := congrArg LifeState.workers he
    rw [h2] at h1; omega
  have hp' : ∀ w ∈ s.workers, LifeWorker.pending w = [] := by
    intro w hw
    by_contra hc
    exact hp ⟨w, hw, hc⟩
  have key : ∀ (m : LifeMaster), s.master = m → (lifeMaster s).master ≠ m → lifeStep s .master ≠ s := by
    intro m hm hne he
    have : (lifeMaster s).master = s.master := congrArg LifeState.master he
    exact hne (this.trans hm)
  cases hm : s.master with
  | ready =>
    rw [hm] at hph
    obtain ⟨p1, p2, p3⟩ := hph
    refine ⟨.master, fun he => ?_⟩
    cases hs : s.script with
    | nil =>
      refine hf ⟨Or.inr ⟨hm, hs⟩, ?_⟩
      intro w hw
      rw [p1, p2] at hw
      exact hp' w (by simpa using hw)
    | cons op rest =>
      have he : (lifeMaster s).script = s.script := congrArg LifeState.script he
      have hlen : (lifeMaster s).script = rest := by
        unfold lifeMaster
        rw [hm]
        dsimp only
        rw [hs]
        cases op with
        | submit x =>
          dsimp only
          unfold lifeSubmit
          split
          · rfl
          · dsimp only
            split
            · rfl
            · split <;> rfl
        | resize c f => dsimp only; split <;> rfl
        | destroy => rfl
      rw [hlen, hs] at he
      have := congrArg List.length he
      simp at this
  | closing next i =>
    refine ⟨.master, key _ hm ?_⟩
    unfold lifeMaster
    rw [hm]
    dsimp only
    cases s.workers[i]? with
    | some w =>
      intro he
      have : LifeMaster.closing next (i + 1) = LifeMaster.closing next i := he
      simp at this
    | none =>
      cases next with
      | none => intro he; cases he
      | some nf => intro he; cases he
  | starting c f =>
    rw [hm] at hph
    obtain ⟨p1, p2, p3, p4⟩ := hph
    refine ⟨.master, fun he => ?_⟩
    have hwt := (lifeWeight_master h)
    have he : lifeMaster s = s := he
    unfold lifeMaster at he
    rw [hm] at he
    dsimp only at he
    split at he
    · have := congrArg LifeState.master he
      rw [hm] at this; cases this
    · rw [if_neg (by rw [p4 trivial]; simp)] at he
      have := congrArg (fun s => s.fresh.length) he
      simp at this
  | joining b =>
    rw [hm] at hph
    obtain ⟨p1, p2, p3, p4⟩ := hph
    cases ho : s.old with
    | nil =>
      refine ⟨.master, key _ hm ?_⟩
      unfold lifeMaster
      rw [hm]
      dsimp only
      rw [ho]
      cases b <;> (intro he; cases he)
    | cons w rest =>
      by_cases hx : w.pc = .exited
      · refine ⟨.master, fun he => ?_⟩
        have he : lifeMaster s = s := he
        unfold lifeMaster at he
        rw [hm] at he
        dsimp only at he
        rw [ho] at he
        dsimp only at he
        rw [if_pos hx] at he
        have := congrArg (fun s => s.old.length) he
        simp [ho] at this
      · refine ⟨.old 0, fun he => ?_⟩
        have h1 := stepAt_ne s.old 0 w (by rw [ho]; rfl) (step_ne_of_closed w (p2 w (by rw [ho]; exact List.mem_cons_self)) hx)
        have h2 : (stepAt s.old 0).1 = s.old := congrArg LifeState.old he
        rw [h2] at h1; omega
  | unwinding => rw [hm] at hph; exact absurd trivial hph.2
  | gone =>
    rw [hm] at hph
    refine absurd ⟨Or.inl hm, ?_⟩ hf
    intro w hw
    rw [hph.1, hph.2.1, hph.2.2] at hw
    simp at hw

/-- When everything is done, nothing changes for the user any more. -/
theorem finished_step {s : LifeState} (hf : LifeFinished s) (e : LifeEvent) : LifeFinished (lifeStep s e) ∧ (lifeStep s e).done = s.done := by
  obtain ⟨hm, hp⟩ := hf
  have hst : ∀ (ws : List LifeWorker) (i : Nat), (∀ w ∈ ws, LifeWorker.pending w = []) → (∀ w ∈ (stepAt ws i).1, LifeWorker.pending w = []) ∧ (stepAt ws i).2 = none := by
    intro ws i h
    have hone : ∀ w, LifeWorker.pending w = [] → LifeWorker.pending w.step.1 = [] ∧ w.step.2 = none := by
      intro w hw
      obtain ⟨q, c, pc⟩ := w
      cases pc with
      | taking =>
        obtain rfl : q = [] := by simpa [LifeWorker.pending] using hw
        cases c <;> exact ⟨rfl, rfl⟩
      | running y => simp [LifeWorker.pending] at hw
      | exited => exact ⟨hw, rfl⟩
    refine ⟨stepAt_forall (p := fun w => LifeWorker.pending w = []) (fun w hw => (hone w hw).1) h i, ?_⟩
    unfold stepAt
    cases hi : ws[i]? with
    | none => rfl
    | some w => exact (hone w (h w (List.mem_of_getElem? hi))).2
  have hw : ∀ w ∈ s.workers, LifeWorker.pending w = [] := fun w h => hp w (by simp [h])
  have hfr : ∀ w ∈ s.fresh, LifeWorker.pending w = [] := fun w h => hp w (by simp [h])
  have ho : ∀ w ∈ s.old, LifeWorker.pending w = [] := fun w h => hp w (by simp [h])
  cases e with
  | master =>
    have : lifeStep s .master = s := by
      show lifeMaster s = s
      unfold lifeMaster
      rcases hm with hm | ⟨hm, hs⟩
      · rw [hm]
      · rw [hm]; dsimp only; rw [hs]
    rw [this]; exact ⟨⟨hm, hp⟩, rfl⟩
  | worker i =>
    obtain ⟨h1, h2⟩ := hst s.workers i hw
    refine ⟨⟨hm, ?_⟩, ?_⟩
    · intro w hwm
      have hwm : w ∈ (stepAt s.workers i).1 ++ s.fresh ++ s.old := hwm
      simp only [List.mem_append] at hwm
      rcases hwm with (h | h) | h
      · exact h1 w h
      · exact hfr w h
      · exact ho w h
    · show (stepAt s.workers i).2.toList ++ s.done = s.done
      rw [h2]; rfl
  | fresh i =>
    obtain ⟨h1, h2⟩ := hst s.fresh i hfr
    refine ⟨⟨hm, ?_⟩, ?_⟩
    · intro w hwm
      have hwm : w ∈ s.workers ++ (stepAt s.fresh i).1 ++ s.old := hwm
      simp only [List.mem_append] at hwm
      rcases hwm with (h | h) | h
      · exact hw w h
      · exact h1 w h
      · exact ho w h
    · show (stepAt s.fresh i).2.toList ++ s.done = s.done
      rw [h2]; rfl
  | old i =>
    obtain ⟨h1, h2⟩ := hst s.old i ho
    refine ⟨⟨hm, ?_⟩, ?_⟩
    · intro w hwm
      have hwm : w ∈ s.workers ++ s.fresh ++ (stepAt s.old i).1 := hwm
      simp only [List.mem_append] at hwm
      rcases hwm with (h | h) | h
      · exact hw w h
      · exact hfr w h
      · exact h1 w h
    · show (stepAt s.old i).2.toList ++ s.done = s.done
      rw [h2]; rfl

end Gapp.Model
