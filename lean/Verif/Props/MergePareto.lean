import Verif.Proofs.MergePareto
import Verif.Spec.ParetoFront
import Mathlib.Algebra.Order.Ring.Int
/-!
# C09: merging two Pareto sets, on every schedule
-/

namespace Gapp.Props
open Gapp.Model Gapp.Spec Flt
open scoped Classical in
/-- The elements of `xs` that no element of `ys` dominates, in the order of `xs`. -/
noncomputable def survivors {K α : Type} [LinearOrder K] (fitness : α → FVec K) (xs ys : List α) : List α :=
  xs.filter (fun x => decide (¬ ∃ y ∈ ys, ExactDominates (fitness y) (fitness x)))

variable {K : Type} [CommRing K] [LinearOrder K] [IsStrictOrderedRing K] {α : Type}

theorem merge_core (fitness : α → FVec K) (m : Nat) (lhs rhs : List α)
    (hl : ∀ x ∈ lhs, (fitness x).length = m) (hr : ∀ x ∈ rhs, (fitness x).length = m)
    (al : ∀ x ∈ lhs, ∀ y ∈ lhs, ¬ ExactDominates (fitness x) (fitness y))
    (ar : ∀ x ∈ rhs, ∀ y ∈ rhs, ¬ ExactDominates (fitness x) (fitness y)) (sched : List Nat)
    (less : Bool → Nat → Nat → Bool)
    (hless : less = fun b x y => if b then paretoCompareLess (⟨0, 0⟩ : Tol K) ((rhs.map fitness).getD x [])
      ((lhs.map fitness).getD y []) else paretoCompareLess (⟨0, 0⟩ : Tol K) ((lhs.map fitness).getD x [])
      ((rhs.map fitness).getD y [])) (comp : Nat → Nat → Int)
    (hcomp : comp = fun i j => paretoCompare (⟨0, 0⟩ : Tol K) ((lhs.map fitness).getD i [])
      ((rhs.map fitness).getD j []))
    (hd : ∀ i, i < (lhs.map fitness).length →
      (mergeRun (lhs.map fitness).length (rhs.map fitness).length less comp sched).pc i
        = (rhs.map fitness).length) :
    (lhs.zipIdx.filter (fun x => (mergeRun (lhs.map fitness).length (rhs.map fitness).length less comp
      sched).lhs x.2 != .dominated)).map (·.1) = survivors fitness lhs rhs ∧
    (rhs.zipIdx.filter (fun x => (mergeRun (lhs.map fitness).length (rhs.map fitness).length less comp
      sched).rhs x.2 != .dominated)).map (·.1) = survivors fitness rhs lhs := by
  classical
  have gl : ∀ i (hi : i < lhs.length), (lhs.map fitness).getD i [] = fitness lhs[i] := by
    intro i hi; simp [List.getD, hi]
  have gr : ∀ i (hi : i < rhs.length), (rhs.map fitness).getD i [] = fitness rhs[i] := by
    intro i hi; simp [List.getD, hi]
  have hlr : ∀ i j (hi : i < lhs.length) (hj : j < rhs.length),
      less false i j = true ↔ ExactDominates (fitness rhs[j]) (fitness lhs[i]) := by
    intro i j hi hj
    rw [hless]; simp only [Bool.false_eq_true, if_false]
    rw [gl i hi, gr j hj, paretoCompareLess_zero]
  have hrl : ∀ i j (hi : i < lhs.length) (hj : j < rhs.length),
      less true j i = true ↔ ExactDominates (fitness lhs[i]) (fitness rhs[j]) := by
    intro i j hi hj
    rw [hless]; simp only [if_true]
    rw [gl i hi, gr j hj, paretoCompareLess_zero]
  simp only [List.length_map] at hd ⊢
  have hyp : MergeHyp lhs.length rhs.length less comp := by
    refine ⟨?_, ?_, ?_, ?_⟩
    · intro i j k hi hj hk h1 h2
      rw [hlr i j hi hj] at h1
      rw [hrl k j hk hj] at h2
      exact al _ (List.getElem_mem hk) _ (List.getElem_mem hi)
        (exactDominates_trans (by rw [hl _ (List.getElem_mem hi), hr _ (List.getElem_mem hj)])
          (by rw [hl _ (List.getElem_mem hk), hr _ (List.getElem_mem hj)]) h1 h2)
    · intro j i k hj hi hk h1 h2
      rw [hrl i j hi hj] at h1
      rw [hlr i k hi hk] at h2
      exact ar _ (List.getElem_mem hk) _ (List.getElem_mem hj)
        (exactDominates_trans (by rw [hr _ (List.getElem_mem hj), hl _ (List.getElem_mem hi)])
          (by rw [hr _ (List.getElem_mem hk), hl _ (List.getElem_mem hi)]) h1 h2)
    · intro i j hi hj
      rw [hcomp, hlr i j hi hj, ← dominates_zero]; dsimp only
      rw [gl i hi, gr j hj]
      exact (paretoCompare_spec ⟨le_rfl, le_rfl⟩ _ _).1
    · intro i j hi hj
      rw [hcomp, hrl i j hi hj, ← dominates_zero]; dsimp only
      rw [gl i hi, gr j hj]
      exact (paretoCompare_spec ⟨le_rfl, le_rfl⟩ _ _).2.1
  obtain ⟨f1, f2⟩ := merge_final hyp sched hd
  refine ⟨?_, ?_⟩
  · refine filter_zipIdx lhs (fun i => (mergeRun lhs.length rhs.length less comp sched).lhs i != .dominated) _ ?_
    intro i hi
    rw [Bool.eq_iff_iff, bne_iff_ne, ne_eq, f1 i hi, decide_eq_true_eq, not_iff_not]
    constructor
    · rintro ⟨j, hj, h⟩; exact ⟨rhs[j], List.getElem_mem hj, (hlr i j hi hj).1 h⟩
    · rintro ⟨y, hy, h⟩
      obtain ⟨j, hj, rfl⟩ := List.getElem_of_mem hy
      exact ⟨j, hj, (hlr i j hi hj).2 h⟩
  · refine filter_zipIdx rhs (fun i => (mergeRun lhs.length rhs.length less comp sched).rhs i != .dominated) _ ?_
    intro j hj
    rw [Bool.eq_iff_iff, bne_iff_ne, ne_eq, f2 j hj, decide_eq_true_eq, not_iff_not]
    constructor
    · rintro ⟨i, hi, h⟩; exact ⟨lhs[i], List.getElem_mem hi, (hrl i j hi hj).1 h⟩
    · rintro ⟨y, hy, h⟩
      obtain ⟨i, hi, rfl⟩ := List.getElem_of_mem hy
      exact ⟨i, hi, (hrl i j hi hj).2 h⟩

/-- **C09.** For any two sets of candidates that are each mutually non-dominated (exact comparison, `m`
objectives, duplicates allowed), and for every schedule of the parallel loop that completes: the merged
set consists of the candidates of each set that no candidate of the other set dominates, with the original
multiplicity and relative order – the larger set first. In particular it does not depend on the schedule. -/
theorem C09_merge_pareto_sets (fitness : α → FVec K) (m : Nat) (lhs rhs : List α)
    (hl : ∀ x ∈ lhs, (fitness x).length = m) (hr : ∀ x ∈ rhs, (fitness x).length = m)
    (al : ∀ x ∈ lhs, ∀ y ∈ lhs, ¬ ExactDominates (fitness x) (fitness y))
    (ar : ∀ x ∈ rhs, ∀ y ∈ rhs, ¬ ExactDominates (fitness x) (fitness y))
    (sched : List Nat) (res : List α)
    (hres : mergeParetoSets (⟨0, 0⟩ : Tol K) fitness lhs rhs sched = some res) :
    res = if rhs.length > lhs.length then survivors fitness rhs lhs ++ survivors fitness lhs rhs
      else survivors fitness lhs rhs ++ survivors fitness rhs lhs := by
  classical
  unfold mergeParetoSets at hres
  split at hres
  · rename_i h0
    have : lhs = [] := by simpa using h0
    subst this
    cases hres
    simp [survivors]
    exact (List.filter_eq_self.2 (by simp)).symm
  · split at hres
    · rename_i h0
      have : rhs = [] := by simpa using h0
      subst this
      cases hres
      simp [survivors]
      exact (List.filter_eq_self.2 (by simp)).symm
    · by_cases hlen : rhs.length > lhs.length
      · simp only [hlen, if_true] at hres ⊢
        split at hres
        · rename_i hd
          cases hres
          obtain ⟨e1, e2⟩ := merge_core fitness m rhs lhs hr hl ar al sched _ rfl _ rfl hd
          rw [e1, e2]
        · cases hres
      · simp only [hlen, if_false] at hres ⊢
        split at hres
        · rename_i hd
          cases hres
          obtain ⟨e1, e2⟩ := merge_core fitness m lhs rhs hl hr al ar sched _ rfl _ rfl hd
          rw [e1, e2]
        · cases hres

/-- **C09 (consequence).** The merged set is again mutually non-dominated. -/
theorem C09_merged_set_is_pareto (fitness : α → FVec K) (m : Nat) (lhs rhs : List α)
    (hl : ∀ x ∈ lhs, (fitness x).length = m) (hr : ∀ x ∈ rhs, (fitness x).length = m)
    (al : ∀ x ∈ lhs, ∀ y ∈ lhs, ¬ ExactDominates (fitness x) (fitness y))
    (ar : ∀ x ∈ rhs, ∀ y ∈ rhs, ¬ ExactDominates (fitness x) (fitness y))
    (sched : List Nat) (res : List α)
    (hres : mergeParetoSets (⟨0, 0⟩ : Tol K) fitness lhs rhs sched = some res) :
    (∀ x ∈ res, ∀ y ∈ res, ¬ ExactDominates (fitness x) (fitness y)) ∧
    (∀ x, x ∈ lhs ∨ x ∈ rhs → x ∉ res → ∃ y, (y ∈ lhs ∨ y ∈ rhs) ∧ ExactDominates (fitness y) (fitness x)) := by
  classical
  have h := C09_merge_pareto_sets fitness m lhs rhs hl hr al ar sched res hres
  have hmem : ∀ x, x ∈ res ↔ (x ∈ lhs ∧ ¬ ∃ y ∈ rhs, ExactDominates (fitness y) (fitness x)) ∨
      (x ∈ rhs ∧ ¬ ∃ y ∈ lhs, ExactDominates (fitness y) (fitness x)) := by
    intro x
    rw [h]
    split <;> simp only [List.mem_append, survivors, List.mem_filter, decide_eq_true_eq]
    exact or_comm
  refine ⟨?_, ?_⟩
  · intro x hx y hy hd
    rcases (hmem x).1 hx with ⟨hx1, hx2⟩ | ⟨hx1, hx2⟩ <;> rcases (hmem y).1 hy with ⟨hy1, hy2⟩ | ⟨hy1, hy2⟩
    · exact al x hx1 y hy1 hd
    · exact hy2 ⟨x, hx1, hd⟩
    · exact hy2 ⟨x, hx1, hd⟩
    · exact ar x hx1 y hy1 hd
  · intro x hx hnx
    rw [hmem] at hnx
    push Not at hnx
    rcases hx with hx | hx
    · obtain ⟨y, hy, hd⟩ := hnx.1 hx; exact ⟨y, Or.inr hy, hd⟩
    · obtain ⟨y, hy, hd⟩ := hnx.2 hx; exact ⟨y, Or.inl hy, hd⟩

/-- **C09 (termination).** Each candidate of the larger set takes two atomic steps per candidate of the other
set: every schedule that lets each of them run that often completes. -/
theorem C09_merge_completes (fitness : α → FVec K) (t : Tol K) (lhs rhs : List α) (sched : List Nat)
    (hs : ∀ i, i < max lhs.length rhs.length → 2 * min lhs.length rhs.length ≤ sched.count i) :
    ∃ res, mergeParetoSets t fitness lhs rhs sched = some res := by
  unfold mergeParetoSets
  split
  · exact ⟨_, rfl⟩
  · split
    · exact ⟨_, rfl⟩
    · dsimp only
      rw [if_pos]
      · exact ⟨_, rfl⟩
      · intro i hi
        have hc : 2 * ((if rhs.length > lhs.length then (rhs, lhs) else (lhs, rhs)).2.map fitness).length
            ≤ sched.count i := by
          refine le_trans ?_ (hs i ?_)
          · split <;> simp <;> omega
          · revert hi; split <;> simp <;> omega
        rw [mergeRun_pc sched i hi, min_eq_right hc]
        omega

/-- Non-vacuity: two Pareto sets with a duplicate, merged on two different complete schedules: sequentially,
and with all the tasks in lock step (so that every flag is loaded before any is written). -/
example : let f : FVec ℤ → FVec ℤ := id
    let l := [[fin 3, fin 0], [fin 0, fin 3], [fin 3, fin 0]]
    let r := [[fin 4, fin 0], [fin 0, fin 2]]
    mergeParetoSets (⟨0, 0⟩ : Tol ℤ) f l r [0, 0, 0, 0, 1, 1, 1, 1, 2, 2, 2, 2] = some [[fin 0, fin 3], [fin 4, fin 0]] ∧
    mergeParetoSets (⟨0, 0⟩ : Tol ℤ) f l r [0, 1, 2, 0, 1, 2, 0, 1, 2, 0, 1, 2] = some [[fin 0, fin 3], [fin 4, fin 0]] := by
  decide +kernel

end Gapp.Props
