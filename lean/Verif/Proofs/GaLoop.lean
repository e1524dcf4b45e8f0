import Mathlib.Data.List.Nodup
import Mathlib.Data.List.Perm.Basic
import Verif.Model.GaLoop
import Verif.Proofs.FifoCache
import Verif.Props.Operators
import Verif.Props.Algorithm
import Verif.Props.Replacement
import Verif.Props.MergePareto
import Verif.Props.ParetoFront
import Verif.Proofs.ListAux
/-! # Proofs about the generational loop -/

namespace Gapp.Model
open Gapp.Spec Gapp.Props

section
variable {G K A S V : Type} [DecidableEq G] [CommRing K] [LinearOrder K]

/-! ## Evaluation -/

/-- A candidate for which the fitness function has to be called. -/
def needsEval (env : GaEnv G K A S V) (cache : FifoCache (List G) (FVec K)) (c : Cand G (FVec K)) : Bool :=
  !(!env.dynamic && c.evaluated) && (decide (env.cachedGens = 0) || (cache.get c.chrom).isNone)

/-- The result of evaluating a candidate. -/
def evalOne (env : GaEnv G K A S V) (cache : FifoCache (List G) (FVec K)) (c : Cand G (FVec K)) : Cand G (FVec K) :=
  if !env.dynamic && c.evaluated then c
  else if needsEval env cache c then { c with fitness := env.fitness c.chrom, evaluated := true }
  else { c with fitness := (cache.get c.chrom).getD [], evaluated := true }

theorem filter_flip_perm (n i : Nat) (hi : i < n) (p q : Nat → Bool) (hp : p i = false) (hq : q i = true) (h : ∀ j, j ≠ i → q j = p j) :
    ((List.range n).filter q).Perm (i :: (List.range n).filter p) := by
  rw [List.perm_ext_iff_of_nodup (List.nodup_range.filter _)]
  · intro j
    simp only [List.mem_filter, List.mem_range, List.mem_cons]
    by_cases hj : j = i
    · subst hj; simp [hi, hq]
    · simp [hj, h j hj]
  · rw [List.nodup_cons]
    exact ⟨by simp [hp], List.nodup_range.filter _⟩

theorem filter_range_congr (n : Nat) (p q : Nat → Bool) (h : ∀ j, j < n → q j = p j) : (List.range n).filter q = (List.range n).filter p :=
  List.filter_congr (fun j hj => h j (List.mem_range.mp hj))

/-- What holds during the parallel loop. -/
structure EvalInv (env : GaEnv G K A S V) (cache : FifoCache (List G) (FVec K)) (n : Nat) (c0 : Nat → Cand G (FVec K)) (evals0 : Nat) (calls0 : List (List G))
    (st : EvalState G (FVec K)) : Prop where
  ok : st.failed = false
  le3 : ∀ i, st.pc i ≤ 3
  start : ∀ i, st.pc i = 0 → st.cands i = c0 i
  mid : ∀ i, st.pc i = 1 ∨ st.pc i = 2 → st.cands i = c0 i ∧ needsEval env cache (c0 i) = true
  done : ∀ i, st.pc i = 3 → st.cands i = evalOne env cache (c0 i)
  evals : st.evals = evals0 + ((List.range n).filter (fun i => decide (2 ≤ st.pc i) && needsEval env cache (c0 i))).length
  calls : ∃ l, st.calls = calls0 ++ l ∧ l.Perm (((List.range n).filter (fun i => decide (3 ≤ st.pc i) && needsEval env cache (c0 i))).map (fun i => (c0 i).chrom))

theorem evalInv_step (env : GaEnv G K A S V) (hdyn : env.dynamic = true → env.cachedGens = 0) (cache : FifoCache (List G) (FVec K)) (n : Nat) (c0 : Nat → Cand G (FVec K)) (evals0 : Nat)
    (calls0 : List (List G)) (st : EvalState G (FVec K)) (h : EvalInv env cache n c0 evals0 calls0 st) (i : Nat) :
    EvalInv env cache n c0 evals0 calls0 (evalStep env cache n st i) := by
  unfold evalStep
  split
  swap
  · exact h
  rename_i hi
  -- a step that changes the program counter of `i` between 0 and 1, or to 3 without an evaluation
  have hkeep : ∀ (v : Nat) (cands' : Nat → Cand G (FVec K)), v ≤ 3 → (∀ j, j ≠ i → cands' j = st.cands j) → (v = 0 → cands' i = c0 i) →
      (v = 1 ∨ v = 2 → cands' i = c0 i ∧ needsEval env cache (c0 i) = true) → (v = 3 → cands' i = evalOne env cache (c0 i)) →
      ((decide (2 ≤ v) && needsEval env cache (c0 i)) = (decide (2 ≤ st.pc i) && needsEval env cache (c0 i))) →
      ((decide (3 ≤ v) && needsEval env cache (c0 i)) = (decide (3 ≤ st.pc i) && needsEval env cache (c0 i))) →
      EvalInv env cache n c0 evals0 calls0 { st with cands := cands', pc := upd st.pc i v } := by
    intro v cands' hv hc h0 h12 h3 he hcl
    have key : ∀ j, j ≠ i → upd st.pc i v j = st.pc j := fun j hj => by simp [upd, hj]
    have keyi : upd st.pc i v i = v := by simp [upd]
    refine ⟨h.ok, ?_, ?_, ?_, ?_, ?_, ?_⟩
    · intro j; by_cases hj : j = i
      · subst hj; simpa [upd] using hv
      · simpa [upd, hj] using h.le3 j
    · intro j hp; by_cases hj : j = i
      · subst hj; exact h0 (keyi.symm.trans hp)
      · refine (hc j hj).trans ?_; exact h.start j ((key j hj).symm.trans hp)
    · intro j hp; by_cases hj : j = i
      · subst hj; exact h12 (by simpa [upd] using hp)
      · show cands' j = _ ∧ _; rw [hc j hj]; exact h.mid j (by simpa [upd, hj] using hp)
    · intro j hp; by_cases hj : j = i
      · subst hj; exact h3 (keyi.symm.trans hp)
      · refine (hc j hj).trans ?_; exact h.done j ((key j hj).symm.trans hp)
    · rw [show (List.range n).filter (fun j => decide (2 ≤ upd st.pc i v j) && needsEval env cache (c0 j)) =
          (List.range n).filter (fun j => decide (2 ≤ st.pc j) && needsEval env cache (c0 j)) from filter_range_congr _ _ _ (fun j _ => by
            by_cases hj : j = i
            · subst hj; simpa [upd] using he
            · simp only [key j hj])]
      exact h.evals
    · obtain ⟨l, hl1, hl2⟩ := h.calls
      refine ⟨l, hl1, ?_⟩
      rw [show (List.range n).filter (fun j => decide (3 ≤ upd st.pc i v j) && needsEval env cache (c0 j)) =
          (List.range n).filter (fun j => decide (3 ≤ st.pc j) && needsEval env cache (c0 j)) from filter_range_congr _ _ _ (fun j _ => by
            by_cases hj : j = i
            · subst hj; simpa [upd] using hcl
            · simp only [key j hj])]
      exact hl2
  dsimp only
  split
  · -- step 0
    rename_i hpc
    have hci := h.start i hpc
    have hne : ∀ v j, j ≠ i → upd st.cands i v j = st.cands j := fun v j hj => by simp [upd, hj]
    split
    · rename_i hev
      rw [hci] at hev
      have := hkeep 3 st.cands (Nat.le_refl _) (fun _ _ => rfl) (by omega) (by omega) (fun _ => by rw [hci, evalOne, if_pos hev]) (by simp [needsEval, hev]) (by simp [needsEval, hev])
      exact this
    · rename_i hev
      rw [hci] at hev
      split
      · rename_i hcg
        have hd : env.dynamic = false := by
          cases hd : env.dynamic with
          | false => rfl
          | true => exact absurd (hdyn hd) hcg
        rw [hd]
        simp only [Bool.false_eq_true, if_false]
        rw [hci]
        split
        · rename_i v hv
          have hn : needsEval env cache (c0 i) = false := by simp [needsEval, hcg, hv]
          refine hkeep 3 _ (Nat.le_refl _) (hne _) (by omega) (by omega) (fun _ => ?_) (by simp [hn]) (by simp [hn])
          simp [upd, evalOne, hn, hv, hev]
        · rename_i hv
          have hn : needsEval env cache (c0 i) = true := by
            simp only [needsEval, hev, hv, Option.isNone_none, Bool.or_true, Bool.and_true, Bool.not_false]
          exact hkeep 1 st.cands (by omega) (fun _ _ => rfl) (by omega) (fun _ => ⟨hci, hn⟩) (by omega) (by simp [hpc]) (by simp [hpc])
      · rename_i hcg
        have hn : needsEval env cache (c0 i) = true := by
          have : env.cachedGens = 0 := not_not.mp hcg
          simp [needsEval, hev, this]
        exact hkeep 1 st.cands (by omega) (fun _ _ => rfl) (by omega) (fun _ => ⟨hci, hn⟩) (by omega) (by simp [hpc]) (by simp [hpc])
  · -- step 1
    rename_i hpc
    obtain ⟨hci, hn⟩ := h.mid i (Or.inl hpc)
    have key : ∀ j, j ≠ i → upd st.pc i 2 j = st.pc j := fun j hj => by simp [upd, hj]
    refine ⟨h.ok, ?_, ?_, ?_, ?_, ?_, ?_⟩
    · intro j; by_cases hj : j = i
      · subst hj; simp [upd]
      · simpa [upd, hj] using h.le3 j
    · intro j hp; by_cases hj : j = i
      · subst hj; simp [upd] at hp
      · exact h.start j (by simpa [upd, hj] using hp)
    · intro j hp; by_cases hj : j = i
      · subst hj; exact ⟨hci, hn⟩
      · exact h.mid j (by simpa [upd, hj] using hp)
    · intro j hp; by_cases hj : j = i
      · subst hj; simp [upd] at hp
      · exact h.done j (by simpa [upd, hj] using hp)
    · have := (filter_flip_perm n i hi (fun j => decide (2 ≤ st.pc j) && needsEval env cache (c0 j)) (fun j => decide (2 ≤ upd st.pc i 2 j) && needsEval env cache (c0 j))
        (by simp [hpc]) (by simp [upd, hn]) (fun j hj => by simp only [key j hj])).length_eq
      simp only [this, List.length_cons, h.evals]
      omega
    · obtain ⟨l, hl1, hl2⟩ := h.calls
      refine ⟨l, hl1, ?_⟩
      rw [show (List.range n).filter (fun j => decide (3 ≤ upd st.pc i 2 j) && needsEval env cache (c0 j)) =
          (List.range n).filter (fun j => decide (3 ≤ st.pc j) && needsEval env cache (c0 j)) from filter_range_congr _ _ _ (fun j _ => by
            by_cases hj : j = i
            · subst hj; simp [upd, hpc]
            · simp only [key j hj])]
      exact hl2
  · -- step 2
    rename_i hpc
    obtain ⟨hci, hn⟩ := h.mid i (Or.inr hpc)
    have key : ∀ j, j ≠ i → upd st.pc i 3 j = st.pc j := fun j hj => by simp [upd, hj]
    refine ⟨h.ok, ?_, ?_, ?_, ?_, ?_, ?_⟩
    · intro j; by_cases hj : j = i
      · subst hj; simp [upd]
      · simpa [upd, hj] using h.le3 j
    · intro j hp; by_cases hj : j = i
      · subst hj; simp [upd] at hp
      · simp only [upd, hj, if_false]; exact h.start j (by simpa [upd, hj] using hp)
    · intro j hp; by_cases hj : j = i
      · subst hj; simp [upd] at hp
      · simp only [upd, hj, if_false]; exact h.mid j (by simpa [upd, hj] using hp)
    · intro j hp; by_cases hj : j = i
      · subst hj
        have hev : (!env.dynamic && (c0 j).evaluated) = false := by
          cases hx : (!env.dynamic && (c0 j).evaluated) with
          | false => rfl
          | true => simp [needsEval, hx] at hn
        simp only [upd, if_true, hci, evalOne, hn, hev, if_true, Bool.false_eq_true, if_false]
      · simp only [upd, hj, if_false]; exact h.done j (by simpa [upd, hj] using hp)
    · rw [show (List.range n).filter (fun j => decide (2 ≤ upd st.pc i 3 j) && needsEval env cache (c0 j)) =
          (List.range n).filter (fun j => decide (2 ≤ st.pc j) && needsEval env cache (c0 j)) from filter_range_congr _ _ _ (fun j _ => by
            by_cases hj : j = i
            · subst hj; simp [upd, hpc]
            · simp only [key j hj])]
      exact h.evals
    · obtain ⟨l, hl1, hl2⟩ := h.calls
      refine ⟨l ++ [(st.cands i).chrom], by rw [← List.append_assoc, ← hl1], ?_⟩
      have := (filter_flip_perm n i hi (fun j => decide (3 ≤ st.pc j) && needsEval env cache (c0 j)) (fun j => decide (3 ≤ upd st.pc i 3 j) && needsEval env cache (c0 j))
        (by simp [hpc]) (by simp [upd, hn]) (fun j hj => by simp only [key j hj])).map (fun j => (c0 j).chrom)
      refine List.Perm.trans ?_ this.symm
      rw [List.map_cons, hci]
      exact (List.perm_append_singleton _ _).trans (hl2.cons _)
  · exact h

theorem range_map_getD {α β : Type} (l : List α) (d : α) (g : α → β) : (List.range l.length).map (fun i => g (l.getD i d)) = l.map g := by
  apply List.ext_getElem (by simp)
  intro i h1 h2
  simp only [List.length_map, List.length_range] at h1
  simp [h1]

theorem range_filter_map_getD {α β : Type} (l : List α) (d : α) (p : α → Bool) (g : α → β) :
    ((List.range l.length).filter (fun i => p (l.getD i d))).map (fun i => g (l.getD i d)) = (l.filter p).map g := by
  have h := range_map_getD l d id
  rw [List.map_id] at h
  conv_rhs => rw [← h, List.filter_map, List.map_map]
  rfl

/-- The parallel evaluation, for every schedule that finishes: every candidate is evaluated, the counter has increased by the number of the calls of the fitness function, and there was one
call for each candidate that needed it. -/
theorem evalAll_spec (env : GaEnv G K A S V) (hdyn : env.dynamic = true → env.cachedGens = 0) (cache : FifoCache (List G) (FVec K)) (cands : List (Cand G (FVec K))) (evals : Nat)
    (calls : List (List G)) (sched : List Nat) (res) (h : evalAll env cache cands evals calls sched = some res) :
    res.1 = cands.map (evalOne env cache) ∧ res.2.1 = evals + (cands.filter (needsEval env cache)).length ∧
      ∃ l, res.2.2 = calls ++ l ∧ l.Perm ((cands.filter (needsEval env cache)).map (·.chrom)) := by
  have inv : EvalInv env cache cands.length (fun i => cands.getD i emptyCand) evals calls
      (sched.foldl (evalStep env cache cands.length) ⟨fun i => cands.getD i emptyCand, fun _ => 0, evals, calls, false⟩) := by
    have h0 : EvalInv env cache cands.length (fun i => cands.getD i emptyCand) evals calls ⟨fun i => cands.getD i emptyCand, fun _ => 0, evals, calls, false⟩ :=
      ⟨rfl, fun _ => Nat.zero_le _, fun _ _ => rfl, fun _ h => by simp at h, fun _ h => by simp at h, by simp, ⟨[], by simp, by simp⟩⟩
    generalize (⟨fun i => cands.getD i emptyCand, fun _ => 0, evals, calls, false⟩ : EvalState G (FVec K)) = st0 at h0 ⊢
    clear h
    induction sched generalizing st0 with
    | nil => exact h0
    | cons i sched ih => exact ih _ (evalInv_step env hdyn cache _ _ _ _ _ h0 i)
  unfold evalAll at h
  dsimp only at h
  split at h
  swap
  · cases h
  rename_i hd
  obtain rfl := Option.some.inj h
  refine ⟨?_, ?_, ?_⟩
  · rw [← range_map_getD cands emptyCand (evalOne env cache)]
    exact List.map_congr_left (fun i hi => inv.done i (hd.1 i (List.mem_range.mp hi)))
  · have := inv.evals
    rw [filter_range_congr _ (fun i => needsEval env cache (cands.getD i emptyCand)) _ (fun i hi => by rw [hd.1 i hi]; rfl)] at this
    refine this.trans ?_
    have h2 := congrArg List.length (range_filter_map_getD cands emptyCand (needsEval env cache) (·.chrom))
    simp only [List.length_map] at h2
    rw [h2]
  · obtain ⟨l, hl1, hl2⟩ := inv.calls
    refine ⟨l, hl1, ?_⟩
    rw [filter_range_congr _ (fun i => needsEval env cache (cands.getD i emptyCand)) _ (fun i hi => by rw [hd.1 i hi]; rfl)] at hl2
    rwa [range_filter_map_getD cands emptyCand (needsEval env cache) (·.chrom)] at hl2

/-- A schedule with three steps for every task finishes the loop. -/
theorem evalAll_completes (env : GaEnv G K A S V) (hdyn : env.dynamic = true → env.cachedGens = 0) (cache : FifoCache (List G) (FVec K)) (cands : List (Cand G (FVec K))) (evals : Nat)
    (calls : List (List G)) (sched : List Nat) (hs : ∀ i, i < cands.length → 3 ≤ sched.count i) : ∃ res, evalAll env cache cands evals calls sched = some res := by
  have key : ∀ (sched : List Nat) (st : EvalState G (FVec K)), st.failed = false →
      (sched.foldl (evalStep env cache cands.length) st).failed = false ∧
      ((∀ i, st.pc i ≤ 3) → (∀ i, (sched.foldl (evalStep env cache cands.length) st).pc i ≤ 3) ∧
        ∀ i, i < cands.length → min 3 (st.pc i + sched.count i) ≤ (sched.foldl (evalStep env cache cands.length) st).pc i) := by
    intro sched
    induction sched with
    | nil => intro st h; exact ⟨h, fun h3 => ⟨h3, fun i hi => by simp⟩⟩
    | cons j sched ih =>
      intro st h
      have hstep : (evalStep env cache cands.length st j).failed = false ∧ (∀ i, i ≠ j → (evalStep env cache cands.length st j).pc i = st.pc i) ∧
          (st.pc j ≤ 3 → (evalStep env cache cands.length st j).pc j ≤ 3) ∧ (j < cands.length → st.pc j ≤ 3 → min 3 (st.pc j + 1) ≤ (evalStep env cache cands.length st j).pc j) := by
        have hu : ∀ v i, i ≠ j → upd st.pc j v i = st.pc i := fun v i hi => by simp [upd, hi]
        have hv : ∀ v, upd st.pc j v j = v := fun v => by simp [upd]
        unfold evalStep
        split
        swap
        · rename_i hj; exact ⟨h, fun _ _ => rfl, id, fun h => absurd h hj⟩
        dsimp only
        split
        · rename_i hpc
          split
          · exact ⟨h, hu _, fun _ => by simp only [hv]; omega, fun _ _ => by simp only [hv]; omega⟩
          · split
            · rename_i hcg
              split
              · rename_i hd; exact absurd (hdyn hd) hcg
              · split
                · exact ⟨h, hu _, fun _ => by simp only [hv]; omega, fun _ _ => by simp only [hv]; omega⟩
                · exact ⟨h, hu _, fun _ => by simp only [hv]; omega, fun _ _ => by simp only [hv]; omega⟩
            · exact ⟨h, hu _, fun _ => by simp only [hv]; omega, fun _ _ => by simp only [hv]; omega⟩
        · exact ⟨h, hu _, fun _ => by simp only [hv]; omega, fun _ _ => by simp only [hv]; omega⟩
        · exact ⟨h, hu _, fun _ => by simp only [hv]; omega, fun _ _ => by simp only [hv]; omega⟩
        · rename_i h0 h1 h2
          exact ⟨h, fun _ _ => rfl, id, fun _ h3 => by
            have : st.pc j ≠ 0 := fun hx => h0 hx
            have : st.pc j ≠ 1 := fun hx => h1 hx
            have : st.pc j ≠ 2 := fun hx => h2 hx
            omega⟩
      obtain ⟨s1, s2, s3, s4⟩ := hstep
      obtain ⟨h1, h2⟩ := ih _ s1
      refine ⟨h1, fun h3 => ?_⟩
      have h3' : ∀ i, (evalStep env cache cands.length st j).pc i ≤ 3 := by
        intro i; by_cases hi : i = j
        · subst hi; exact s3 (h3 i)
        · rw [s2 i hi]; exact h3 i
      obtain ⟨h4, h5⟩ := h2 h3'
      refine ⟨h4, fun i hi => ?_⟩
      have := h5 i hi
      rw [List.count_cons]
      by_cases hij : j = i
      · subst hij
        have := s4 hi (h3 j)
        simp only [List.foldl_cons, beq_self_eq_true, if_true]
        omega
      · rw [s2 i (Ne.symm hij)] at this
        simpa [hij] using this
  obtain ⟨h1, h2⟩ := key sched ⟨fun i => cands.getD i emptyCand, fun _ => 0, evals, calls, false⟩ rfl
  obtain ⟨h3, h4⟩ := h2 (fun _ => Nat.zero_le _)
  have hp : ∀ i, i < cands.length → (sched.foldl (evalStep env cache cands.length) ⟨fun i => cands.getD i emptyCand, fun _ => 0, evals, calls, false⟩).pc i = 3 := by
    intro i hi
    have e1 := h4 i hi
    have e2 := h3 i
    have e3 := hs i hi
    simp only [Nat.zero_add] at e1
    omega
  unfold evalAll
  dsimp only
  rw [if_pos ⟨hp, h1⟩]
  exact ⟨_, rfl⟩

/-! ## The initial population -/

theorem fillPopulation_eq (env : GaEnv G K A S V) : ∀ (m k : Nat) (pop : List (Cand G (FVec K))),
    fillPopulation env m k pop = pop ++ (List.range m).map (fun j => ⟨env.generate (k + j), [], false⟩)
  | 0, k, pop => by simp [fillPopulation]
  | m + 1, k, pop => by
      rw [fillPopulation, fillPopulation_eq env m (k + 1), List.append_assoc, List.range_succ_eq_map, List.map_cons, List.map_map]
      congr 1
      simp only [List.singleton_append, Nat.add_zero, List.cons.injEq, true_and]
      apply List.map_congr_left
      intro j _
      simp [Nat.add_comm, Nat.add_left_comm]

theorem generatePopulation_eq (env : GaEnv G K A S V) (initial : List (Cand G (FVec K))) :
    generatePopulation env initial = initial.take env.popSize ++ (List.range (env.popSize - initial.length)).map (fun j => ⟨env.generate (1 + j), [], false⟩) := by
  unfold generatePopulation
  dsimp only
  rw [fillPopulation_eq]
  have h1 : initial.take (min env.popSize initial.length) = initial.take env.popSize := by
    rcases Nat.le_total env.popSize initial.length with h | h
    · rw [Nat.min_eq_left h]
    · rw [Nat.min_eq_right h, List.take_of_length_le (Nat.le_refl _), List.take_of_length_le h]
  have h2 : env.popSize - min env.popSize initial.length = env.popSize - initial.length := by omega
  rw [h1, h2]

/-! ## Children -/

theorem assignAt_eq {α : Type} (v : List α) (i : Nat) (x : α) (h : i < v.length) : assignAt v i x = some (v.set i x) := by
  simp [assignAt, h]

/-- The children number `2i` and `2i + 1` are the children of the pair number `i`. -/
theorem makeChildren_spec (env : GaEnv G K A S V) (st : GaState G (FVec K) A V) (alg : A) (hsel : ∀ k, env.algSelect alg st.fmat (st.gen + 1) k < st.pop.length) :
    ∃ pair : Nat → Cand G (FVec K) × Cand G (FVec K), (∀ k, makePair env st alg k = some (pair k)) ∧
      ∃ children, makeChildren env st alg = some children ∧ children.length = env.popSize ∧
        ∀ j, j < env.popSize → children[j]? = some (if j % 2 = 0 then (pair (j / 2)).1 else (pair (j / 2)).2) := by
  have hp : ∀ k, ∃ x, makePair env st alg k = some x := by
    intro k
    unfold makePair
    rw [List.getElem?_eq_getElem (hsel (2 * k)), List.getElem?_eq_getElem (hsel (2 * k + 1))]
    exact ⟨_, rfl⟩
  choose pair hpair using hp
  refine ⟨pair, hpair, ?_⟩
  have hloop : ∀ h, 2 * h ≤ env.popSize → ∃ ch, (List.range h).foldlM (fun children i => do
      let pair ← makePair env st alg i
      let children ← assignAt children (2 * i) pair.1
      assignAt children (2 * i + 1) pair.2) (List.replicate env.popSize emptyCand) = some ch ∧ ch.length = env.popSize ∧
      ∀ j, j < 2 * h → ch[j]? = some (if j % 2 = 0 then (pair (j / 2)).1 else (pair (j / 2)).2) := by
    intro h
    induction h with
    | zero => intro _; exact ⟨_, rfl, by simp, fun j hj => by omega⟩
    | succ h ih =>
      intro hle
      obtain ⟨ch, h1, h2, h3⟩ := ih (by omega)
      refine ⟨(ch.set (2 * h) (pair h).1).set (2 * h + 1) (pair h).2, ?_, by simp [h2], ?_⟩
      · rw [List.range_succ, List.foldlM_append, h1]
        simp only [Option.bind_eq_bind, Option.bind_some, List.foldlM_cons, List.foldlM_nil, hpair]
        rw [assignAt_eq _ _ _ (by omega)]
        simp only [Option.bind_some]
        rw [assignAt_eq _ _ _ (by simp; omega)]
        rfl
      · intro j hj
        by_cases hj1 : j = 2 * h + 1
        · subst hj1
          rw [List.getElem?_set_self (by simp; omega)]
          have e1 : (2 * h + 1) % 2 = 1 := by omega
          have e2 : (2 * h + 1) / 2 = h := by omega
          rw [e1, e2]; rfl
        · rw [List.getElem?_set_ne (Ne.symm hj1)]
          by_cases hj0 : j = 2 * h
          · subst hj0
            rw [List.getElem?_set_self (by omega)]
            have e1 : (2 * h) % 2 = 0 := by omega
            have e2 : (2 * h) / 2 = h := by omega
            rw [e1, e2]; rfl
          · rw [List.getElem?_set_ne (Ne.symm hj0)]
            exact h3 j (by omega)
  obtain ⟨ch, h1, h2, h3⟩ := hloop (env.popSize / 2) (by omega)
  unfold makeChildren
  simp only [Option.bind_eq_bind] at h1 ⊢
  rw [h1]
  simp only [Option.bind_some]
  by_cases hodd : env.popSize % 2 = 0
  · rw [if_neg (by simp [hodd])]
    exact ⟨ch, rfl, h2, fun j hj => h3 j (by omega)⟩
  · rw [if_pos hodd, hpair]
    simp only [Option.bind_some]
    rw [assignAt_eq _ _ _ (by omega)]
    refine ⟨_, rfl, by simp [h2], ?_⟩
    intro j hj
    rw [h2]
    by_cases hl : j = env.popSize - 1
    · subst hl
      rw [List.getElem?_set_self (by omega), if_pos (by omega)]
      rw [show (env.popSize - 1) / 2 = env.popSize / 2 by omega]
    · rw [List.getElem?_set_ne (Ne.symm hl)]
      exact h3 j (by omega)

/-! ## The invariant -/

/-- A matrix of fitness values: every row is a value of the fitness function and has the right length. -/
def FitMatrix (env : GaEnv G K A S V) (fmat : List (FVec K)) : Prop := IsMatrix env.numObj fmat ∧ ∀ r ∈ fmat, ∃ x, r = env.fitness x

/-- What an algorithm must guarantee. `I` and `J` are the states of the algorithm before and after `prepareSelections` that are consistent with the fitness matrix of the population. -/
structure AlgContract (env : GaEnv G K A S V) (I J : A → List (FVec K) → Prop) : Prop where
  init : ∀ fmat, fmat.length = env.popSize → FitMatrix env fmat → I (env.algInit fmat) fmat
  prepare : ∀ a fmat, fmat.length = env.popSize → FitMatrix env fmat → I a fmat → J (env.algPrepare a fmat) fmat
  select : ∀ a fmat g k, fmat.length = env.popSize → FitMatrix env fmat → J a fmat → env.algSelect a fmat g k < env.popSize
  next : ∀ a all g, all.length = 2 * env.popSize → FitMatrix env all → J a (all.take env.popSize) →
    LegalSelection env.popSize (2 * env.popSize) (env.algNext a all g).1 ∧ ∀ fmat', AtPositions all (env.algNext a all g).1 fmat' → I (env.algNext a all g).2 fmat'

/-- The assumptions on a run. `P x v`: `v` is acceptable as the fitness of a candidate with the chromosome `x`. -/
structure RunOk (env : GaEnv G K A S V) (prev : GaState G (FVec K) A V) (initial : List (Cand G (FVec K))) (P : List G → FVec K → Prop) (I J : A → List (FVec K) → Prop) : Prop where
  alg : AlgContract env I J
  eqOk : ∀ a b v, env.eq a b = true → P b v → P a v
  fitOk : ∀ x, P x (env.fitness x)
  lenOk : ∀ x v, P x v → v.length = env.numObj ∧ ∃ y, v = env.fitness y
  dynCache : env.dynamic = true → env.cachedGens = 0
  initialOk : ∀ c ∈ initial, c.evaluated = true → P c.chrom c.fitness
  prevCache : ∃ d, prev.cache.Repr d

/-- If the candidate is marked as evaluated then its fitness is acceptable. -/
def Trusted {F : Type} (P : List G → F → Prop) (c : Cand G F) : Prop := c.evaluated = true → P c.chrom c.fitness

/-- An evaluated candidate with an acceptable fitness. -/
def Evaluated {F : Type} (P : List G → F → Prop) (c : Cand G F) : Prop := c.evaluated = true ∧ P c.chrom c.fitness

/-- The cache only has acceptable values. -/
def CacheTrue (P : List G → FVec K → Prop) (cache : FifoCache (List G) (FVec K)) : Prop := ∃ d, cache.Repr d ∧ ∀ p ∈ d.entries, P p.1 p.2

/-- The state at the end of a generation. -/
structure GaInv (env : GaEnv G K A S V) (P : List G → FVec K → Prop) (I : A → List (FVec K) → Prop) (st : GaState G (FVec K) A V) : Prop where
  size : st.pop.length = env.popSize
  evaluated : ∀ c ∈ st.pop, Evaluated P c
  fmat : st.fmat = st.pop.map (·.fitness)
  cache : CacheTrue P st.cache
  alg : I st.alg st.fmat

theorem lookup_mem {κ ν : Type} [DecidableEq κ] (l : List (κ × ν)) (k : κ) (v : ν) (h : l.lookup k = some v) : (k, v) ∈ l := by
  induction l with
  | nil => simp at h
  | cons p l ih =>
    rw [List.lookup] at h
    split at h
    · rename_i he
      have : k = p.1 := by simpa using he
      cases h; subst this; exact List.mem_cons_self
    · exact List.mem_cons_of_mem _ (ih h)

theorem CacheTrue.get {P : List G → FVec K → Prop} {cache : FifoCache (List G) (FVec K)} (h : CacheTrue P cache) (k : List G) (v : FVec K) (hv : cache.get k = some v) : P k v := by
  obtain ⟨d, h1, h2⟩ := h
  rw [h1.get] at hv
  exact h2 _ (lookup_mem _ _ _ hv)

theorem spec_insert_mem {κ ν : Type} [DecidableEq κ] (d : Spec.FifoMap κ ν) (k : κ) (v : ν) (p : κ × ν) (h : p ∈ (d.insert k v).entries) : p = (k, v) ∨ p ∈ d.entries := by
  unfold Spec.FifoMap.insert at h
  split at h
  · exact Or.inr h
  split at h
  · simp only [List.mem_map] at h
    obtain ⟨q, hq, he⟩ := h
    split at he
    · exact Or.inl he.symm
    · subst he; exact Or.inr hq
  split at h
  · simp only [List.mem_append, List.mem_singleton] at h
    rcases h with h | h
    · exact Or.inr (List.mem_of_mem_tail h)
    · exact Or.inl h
  · simp only [List.mem_append, List.mem_singleton] at h
    exact h.symm

theorem spec_insertFold_mem {κ ν : Type} [DecidableEq κ] : ∀ (xs : List (κ × ν)) (d : Spec.FifoMap κ ν) (p : κ × ν), p ∈ (xs.foldl (fun d p => d.insert p.1 p.2) d).entries →
    p ∈ xs ∨ p ∈ d.entries
  | [], d, p, h => Or.inr h
  | x :: xs, d, p, h => by
      rcases spec_insertFold_mem xs _ p h with h | h
      · exact Or.inl (List.mem_cons_of_mem _ h)
      · rcases spec_insert_mem _ _ _ _ h with h | h
        · subst h; exact Or.inl List.mem_cons_self
        · exact Or.inr h

theorem CacheTrue.insertRange {P : List G → FVec K → Prop} {cache : FifoCache (List G) (FVec K)} (h : CacheTrue P cache) (xs : List (List G × FVec K)) (hx : ∀ p ∈ xs, P p.1 p.2) :
    ∃ c', cache.insertRange xs = some c' ∧ CacheTrue P c' := by
  obtain ⟨d, h1, h2⟩ := h
  obtain ⟨c', h3, h4⟩ := h1.insertRange xs
  refine ⟨c', h3, _, h4, ?_⟩
  intro p hp
  rcases spec_insertFold_mem _ _ _ hp with hp | hp
  · exact hx p (List.mem_of_mem_drop hp)
  · exact h2 p hp

theorem evalOne_evaluated (env : GaEnv G K A S V) (P : List G → FVec K → Prop) (hfit : ∀ x, P x (env.fitness x)) (hdyn : env.dynamic = true → env.cachedGens = 0) (cache : FifoCache (List G) (FVec K)) (hc : CacheTrue P cache)
    (c : Cand G (FVec K)) (ht : Trusted P c) : Evaluated P (evalOne env cache c) ∧ (evalOne env cache c).chrom = c.chrom := by
  unfold evalOne
  split
  · rename_i h
    have he : c.evaluated = true := by
      cases h2 : c.evaluated with
      | true => rfl
      | false => simp [h2] at h
    exact ⟨⟨he, ht he⟩, rfl⟩
  · rename_i h
    split
    · exact ⟨⟨rfl, hfit _⟩, rfl⟩
    · rename_i hn
      simp only [needsEval, Bool.not_eq_true, Bool.and_eq_false_iff, Bool.or_eq_false_iff, decide_eq_false_iff_not, Bool.not_eq_false'] at hn
      rcases hn with hn | hn
      · exact absurd hn h
      · obtain ⟨-, hn⟩ := hn
        cases hg : cache.get c.chrom with
        | none => simp [hg] at hn
        | some v => exact ⟨⟨rfl, by rw [Option.getD_some]; exact hc.get _ _ hg⟩, rfl⟩

theorem crossover_trusted (P : List G → FVec K → Prop) (eq : List G → List G → Bool) (heq : ∀ a b v, eq a b = true → P b v → P a v) (pc r : K)
    (cross : Cand G (FVec K) → Cand G (FVec K) → Cand G (FVec K) × Cand G (FVec K)) (p1 p2 : Cand G (FVec K)) (h1 : Trusted P p1) (h2 : Trusted P p2) :
    Trusted P (crossoverOp eq pc r cross p1 p2).1 ∧ Trusted P (crossoverOp eq pc r cross p1 p2).2 := by
  obtain ⟨c1, c2⟩ := C18_children_flags eq pc r cross p1 p2
  have key : ∀ c, ChildOk eq p1 p2 c → Trusted P c := by
    intro c hc he
    obtain ⟨p, hp, hpe, hpc, hpf⟩ := hc.inherited he
    have hP : P p.chrom p.fitness := by
      rcases hp with rfl | rfl
      · exact h1 hpe
      · exact h2 hpe
    rw [hpf]
    rcases hpc with hpc | hpc
    · rw [hpc]; exact hP
    · exact heq _ _ _ hpc hP
  exact ⟨key _ c1, key _ c2⟩

theorem mutation_trusted (P : List G → FVec K → Prop) (eq : List G → List G → Bool) (heq : ∀ a b v, eq a b = true → P b v → P a v) (mutate : Cand G (FVec K) → List G) (c : Cand G (FVec K))
    (h : Trusted P c) : Trusted P (mutationOp eq mutate c) := by
  obtain ⟨h1, h2, h3⟩ := C21_mutation_flags eq mutate c
  intro he
  obtain ⟨h4, h5⟩ := h3.mp he
  rw [h1, h2]
  exact heq _ _ _ h5 (h h4)

theorem repair_trusted (P : List G → FVec K → Prop) (repair : Option (List G → List G)) (c : Cand G (FVec K)) (h : Trusted P c) : Trusted P (repairOp repair c) := by
  cases repair with
  | none => exact h
  | some r =>
    obtain ⟨h1, h2, h3⟩ := C21_repair r c
    intro he
    obtain ⟨h4, h5⟩ := h3.mp he
    rw [h1, h2, h5]
    exact h h4

theorem makePair_trusted (env : GaEnv G K A S V) (P : List G → FVec K → Prop) (heq : ∀ a b v, env.eq a b = true → P b v → P a v) (st : GaState G (FVec K) A V) (alg : A)
    (ht : ∀ c ∈ st.pop, Trusted P c) (k : Nat) (pair : Cand G (FVec K) × Cand G (FVec K)) (h : makePair env st alg k = some pair) : Trusted P pair.1 ∧ Trusted P pair.2 := by
  unfold makePair at h
  simp only [Option.bind_eq_bind, Option.pure_def] at h
  rw [Option.bind_eq_some_iff] at h
  obtain ⟨p1, h1, h⟩ := h
  rw [Option.bind_eq_some_iff] at h
  obtain ⟨p2, h2, h⟩ := h
  cases h
  exact crossover_trusted P _ heq _ _ _ _ _ (ht _ (List.mem_of_getElem? h1)) (ht _ (List.mem_of_getElem? h2))

theorem isMatrix_fitness (env : GaEnv G K A S V) (P : List G → FVec K → Prop) (hlen : ∀ x v, P x v → v.length = env.numObj ∧ ∃ y, v = env.fitness y) (cands : List (Cand G (FVec K))) (h : ∀ c ∈ cands, Evaluated P c) :
    FitMatrix env (cands.map (·.fitness)) := by
  refine ⟨?_, ?_⟩
  · intro r hr
    obtain ⟨c, hc, rfl⟩ := List.mem_map.mp hr
    exact (hlen _ _ (h c hc).2).1
  · intro r hr
    obtain ⟨c, hc, rfl⟩ := List.mem_map.mp hr
    exact (hlen _ _ (h c hc).2).2

theorem mapM_id_some {α : Type} (l : List α) : (l.map some).mapM id = some l := by
  induction l with
  | nil => rfl
  | cons x l ih => simp [List.mapM_cons, ih]

theorem nextPopulation_spec (env : GaEnv G K A S V) (P : List G → FVec K → Prop) (I J : A → List (FVec K) → Prop) (hA : AlgContract env I J) (hlen : ∀ x v, P x v → v.length = env.numObj ∧ ∃ y, v = env.fitness y) (alg : A) (g : Nat)
    (parents children : List (Cand G (FVec K))) (hp : parents.length = env.popSize) (hc : children.length = env.popSize) (ep : ∀ c ∈ parents, Evaluated P c)
    (ec : ∀ c ∈ children, Evaluated P c) (hJ : J alg (parents.map (·.fitness))) :
    ∃ r, nextPopulation env alg g parents children = some r ∧ r.1.length = env.popSize ∧
      (∃ idx, idx = (env.algNext alg ((parents ++ children).map (·.fitness)) g).1 ∧ idx.Nodup ∧ AtPositions (parents ++ children) idx r.1) ∧ (∀ c ∈ r.1, c ∈ parents ∨ c ∈ children) ∧ I r.2 (r.1.map (·.fitness)) := by
  have hm : FitMatrix env ((parents ++ children).map (·.fitness)) := isMatrix_fitness env P hlen _ (by
    intro c h; rcases List.mem_append.mp h with h | h
    · exact ep c h
    · exact ec c h)
  have hl : ((parents ++ children).map (·.fitness)).length = 2 * env.popSize := by simp [hp, hc]; omega
  have htake : ((parents ++ children).map (·.fitness)).take env.popSize = parents.map (·.fitness) := by
    rw [List.map_append, List.take_left' (by simpa using hp)]
  obtain ⟨⟨l1, l2, l3⟩, hI⟩ := hA.next alg _ g hl hm (by rw [htake]; exact hJ)
  obtain ⟨vals, h1, h2⟩ := C48_select_move (parents ++ children) (env.algNext alg ((parents ++ children).map (·.fitness)) g).1
    (by intro i hi; have := l3 i hi; simp [hp, hc]; omega) l2
  unfold nextPopulation
  dsimp only
  rw [h1]
  simp only [Option.bind_eq_bind, Option.bind_some, mapM_id_some]
  refine ⟨_, rfl, by rw [← l1]; exact (atPositions_length h2).symm, ⟨_, rfl, l2, h2⟩, ?_, hI _ ?_⟩
  · intro c hc
    obtain ⟨j, hj⟩ := List.getElem?_of_mem hc
    have := congrArg (fun l : List (Option (Cand G (FVec K))) => l[j]?) h2
    simp only [List.getElem?_map, hj, Option.map_some] at this
    rw [Option.map_eq_some_iff] at this
    obtain ⟨i, -, hi⟩ := this
    exact List.mem_append.mp (List.mem_of_getElem? hi)
  · have := congrArg (fun l : List (Option (Cand G (FVec K))) => l.map (fun o => o.map (·.fitness))) h2
    simp only [List.map_map] at this
    unfold AtPositions
    rw [List.map_map]
    refine Eq.trans ?_ (this.trans ?_)
    · apply List.map_congr_left; intro i _; rw [List.getElem?_map]; rfl
    · rfl

/-- What a successful initialization does. -/
theorem gaInit_spec (env : GaEnv G K A S V) (prev : GaState G (FVec K) A V) (initial : List (Cand G (FVec K))) (P : List G → FVec K → Prop) (I J : A → List (FVec K) → Prop) (h : RunOk env prev initial P I J)
    (st : GaState G (FVec K) A V) (hst : gaInit env prev initial = some st) :
    CacheTrue P st.cache ∧ (∃ d, st.cache.Repr d ∧ d.entries = []) ∧
      evalAll env st.cache (generatePopulation env initial) 0 [env.generate 0] (env.evalSched 0) = some (st.pop, st.evals, st.calls) ∧
      st.fmat = st.pop.map (·.fitness) ∧ initialSols env st.pop = some st.sols ∧ st.alg = env.algInit st.fmat ∧ st.gen = 0 ∧
      st.stats = prev.stats.map (fun m => m.init.update st.fmat) ∧ st.evalsMon = prev.evalsMon.init.update st.evals := by
  obtain ⟨d, hd⟩ := h.prevCache
  obtain ⟨c', hc1, hc2⟩ := hd.reset ((if env.dynamic then 0 else 1) * env.cachedGens * env.popSize) env.cacheExtra
  have hct : CacheTrue P c' := ⟨_, hc2, by simp⟩
  unfold gaInit at hst
  simp only [Option.bind_eq_bind, hc1, Option.bind_some] at hst
  rw [Option.bind_eq_some_iff] at hst
  obtain ⟨⟨pop, evals, calls⟩, he, hst⟩ := hst
  dsimp only at hst
  rw [Option.bind_eq_some_iff] at hst
  obtain ⟨sols, hs, hst⟩ := hst
  obtain rfl := Option.some.inj hst
  refine ⟨hct, ⟨_, hc2, rfl⟩, he, rfl, hs, rfl, rfl, ?_, rfl⟩
  show (prev.stats.map Monitor.init).map _ = _
  rw [List.map_map]; rfl

theorem generatePopulation_trusted (env : GaEnv G K A S V) (P : List G → FVec K → Prop) (initial : List (Cand G (FVec K))) (h : ∀ c ∈ initial, Trusted P c) :
    ∀ c ∈ generatePopulation env initial, Trusted P c := by
  intro c hc
  rw [generatePopulation_eq, List.mem_append] at hc
  rcases hc with hc | hc
  · exact h c (List.mem_of_mem_take hc)
  · simp only [List.mem_map] at hc
    obtain ⟨j, -, rfl⟩ := hc
    intro h; cases h

theorem generatePopulation_length (env : GaEnv G K A S V) (initial : List (Cand G (FVec K))) : (generatePopulation env initial).length = env.popSize := by
  rw [generatePopulation_eq]; simp; omega

theorem gaInit_inv (env : GaEnv G K A S V) (prev : GaState G (FVec K) A V) (initial : List (Cand G (FVec K))) (P : List G → FVec K → Prop) (I J : A → List (FVec K) → Prop) (h : RunOk env prev initial P I J)
    (st : GaState G (FVec K) A V) (hst : gaInit env prev initial = some st) : GaInv env P I st := by
  obtain ⟨hct, -, he, hf, -, ha, -⟩ := gaInit_spec env prev initial P I J h st hst
  obtain ⟨e1, -, -⟩ := evalAll_spec env h.dynCache st.cache _ _ _ _ _ he
  dsimp only at e1
  have hev : ∀ c ∈ st.pop, Evaluated P c := by
    intro c hc
    rw [e1] at hc
    simp only [List.mem_map] at hc
    obtain ⟨c0, h0, rfl⟩ := hc
    exact (evalOne_evaluated env P h.fitOk h.dynCache _ hct c0 (generatePopulation_trusted env P initial h.initialOk c0 h0)).1
  have hsz : st.pop.length = env.popSize := by
    rw [e1, List.length_map, generatePopulation_length]
  refine ⟨hsz, hev, hf, hct, ?_⟩
  rw [ha, hf]
  exact h.alg.init _ (by simpa using hsz) (isMatrix_fitness env P h.lenOk st.pop hev)

/-- The steps of `advance` when it succeeds, up to the new population. -/
theorem advance_steps (env : GaEnv G K A S V) (P : List G → FVec K → Prop) (I J : A → List (FVec K) → Prop) (hA : AlgContract env I J) (heq : ∀ a b v, env.eq a b = true → P b v → P a v) (hfit : ∀ x, P x (env.fitness x))
    (hdyn : env.dynamic = true → env.cachedGens = 0) (hlen : ∀ x v, P x v → v.length = env.numObj ∧ ∃ y, v = env.fitness y) (st : GaState G (FVec K) A V) (inv : GaInv env P I st) :
    ∃ children, makeChildren env { st with alg := env.algPrepare st.alg st.fmat } (env.algPrepare st.alg st.fmat) = some children ∧ children.length = env.popSize ∧
      (∀ c ∈ children, Trusted P c) ∧
      ∀ sched, ∀ r, evalAll env st.cache (children.zipIdx.map (fun p => repairOp env.repair (mutationOp env.eq (env.mutate (st.gen + 1) p.2) p.1))) st.evals st.calls sched = some r →
        r.1.length = env.popSize ∧ (∀ c ∈ r.1, Evaluated P c) ∧
        ∃ st', updatePopulation env { st with alg := env.algPrepare st.alg st.fmat, evals := r.2.1, calls := r.2.2 } r.1 = some st' ∧ GaInv env P I st' ∧
          (∃ idx, idx = (env.algNext (env.algPrepare st.alg st.fmat) ((st.pop ++ r.1).map (·.fitness)) (st.gen + 1)).1 ∧ idx.Nodup ∧ AtPositions (st.pop ++ r.1) idx st'.pop) ∧
          st'.sols = st.sols ∧ st'.evals = r.2.1 ∧ st'.calls = r.2.2 ∧ st'.gen = st.gen ∧ st'.stats = st.stats ∧ st'.evalsMon = st.evalsMon := by
  have hflen : st.fmat.length = env.popSize := by rw [inv.fmat]; simpa using inv.size
  have hmat : FitMatrix env st.fmat := by rw [inv.fmat]; exact isMatrix_fitness env P hlen _ inv.evaluated
  have hJ := hA.prepare st.alg st.fmat hflen hmat inv.alg
  obtain ⟨pair, hpair, children, hch, hcl, hcj⟩ := makeChildren_spec env { st with alg := env.algPrepare st.alg st.fmat } (env.algPrepare st.alg st.fmat)
    (fun k => by rw [show ({ st with alg := env.algPrepare st.alg st.fmat } : GaState G (FVec K) A V).pop.length = env.popSize from inv.size]
                 exact hA.select _ _ _ _ hflen hmat hJ)
  have hpt : ∀ k, Trusted P (pair k).1 ∧ Trusted P (pair k).2 := fun k =>
    makePair_trusted env P heq _ _ (fun c hc _ => (inv.evaluated c hc).2) k _ (hpair k)
  have hct : ∀ c ∈ children, Trusted P c := by
    intro c hc
    obtain ⟨j, hj⟩ := List.getElem?_of_mem hc
    have hjl : j < env.popSize := by
      rw [← hcl]; exact (List.getElem?_eq_some_iff.mp hj).1
    have := hcj j hjl
    rw [hj] at this
    have := Option.some.inj this
    rw [this]
    split
    · exact (hpt _).1
    · exact (hpt _).2
  refine ⟨children, hch, hcl, hct, ?_⟩
  intro sched r hr
  obtain ⟨e1, -, -⟩ := evalAll_spec env hdyn st.cache _ _ _ _ _ hr
  have hl : r.1.length = env.popSize := by rw [e1]; simp [hcl]
  have hev : ∀ c ∈ r.1, Evaluated P c := by
    intro c hc
    rw [e1] at hc
    simp only [List.mem_map] at hc
    obtain ⟨c0, ⟨p, hp, rfl⟩, rfl⟩ := hc
    refine (evalOne_evaluated env P hfit hdyn st.cache inv.cache _ ?_).1
    apply repair_trusted
    apply mutation_trusted _ _ heq
    exact hct _ (List.fst_mem_of_mem_zipIdx hp)
  refine ⟨hl, hev, ?_⟩
  obtain ⟨cache', hc1, hc2⟩ := inv.cache.insertRange (st.pop.map (fun c => (c.chrom, c.fitness))) (by
    intro p hp
    simp only [List.mem_map] at hp
    obtain ⟨c, hc, rfl⟩ := hp
    exact (inv.evaluated c hc).2)
  obtain ⟨np, hn1, hn2, hn3, hn4, hn5⟩ := nextPopulation_spec env P I J hA hlen (env.algPrepare st.alg st.fmat) (st.gen + 1) st.pop r.1 inv.size hl inv.evaluated hev (by rw [← inv.fmat]; exact hJ)
  unfold updatePopulation
  simp only [Option.bind_eq_bind, hc1, Option.bind_some, hn1]
  refine ⟨_, rfl, ⟨hn2, ?_, rfl, hc2, hn5⟩, hn3, rfl, rfl, rfl, rfl, rfl, rfl⟩
  intro c hc
  rcases hn4 c hc with h | h
  · exact inv.evaluated c h
  · exact hev c h

theorem GaInv.of_eq {env : GaEnv G K A S V} {P : List G → FVec K → Prop} {I : A → List (FVec K) → Prop} {st st' : GaState G (FVec K) A V} (h : GaInv env P I st) (hp : st'.pop = st.pop) (hf : st'.fmat = st.fmat)
    (hc : st'.cache = st.cache) (ha : st'.alg = st.alg) : GaInv env P I st' :=
  ⟨by rw [hp]; exact h.size, by rw [hp]; exact h.evaluated, by rw [hp, hf]; exact h.fmat, by rw [hc]; exact h.cache, by rw [ha, hf]; exact h.alg⟩

theorem updateOptimal_same (env : GaEnv G K A S V) (st st' : GaState G (FVec K) A V) (h : updateOptimal env st = some st') : ∃ sols, st' = { st with sols := sols } := by
  unfold updateOptimal at h
  simp only [Option.bind_eq_bind] at h
  rw [Option.bind_eq_some_iff] at h
  obtain ⟨o, -, h⟩ := h
  rw [Option.bind_eq_some_iff] at h
  obtain ⟨m, -, h⟩ := h
  exact ⟨_, (Option.some.inj h).symm⟩

/-- What a successful `advance` does. -/
theorem advance_spec (env : GaEnv G K A S V) (P : List G → FVec K → Prop) (I J : A → List (FVec K) → Prop) (hA : AlgContract env I J) (heq : ∀ a b v, env.eq a b = true → P b v → P a v) (hfit : ∀ x, P x (env.fitness x))
    (hdyn : env.dynamic = true → env.cachedGens = 0) (hlen : ∀ x v, P x v → v.length = env.numObj ∧ ∃ y, v = env.fitness y) (st st' : GaState G (FVec K) A V) (inv : GaInv env P I st)
    (h : advance env st = some st') :
    GaInv env P I st' ∧ ∃ children evaluatedChildren, makeChildren env { st with alg := env.algPrepare st.alg st.fmat } (env.algPrepare st.alg st.fmat) = some children ∧
      children.length = env.popSize ∧
      evalAll env st.cache (children.zipIdx.map (fun p => repairOp env.repair (mutationOp env.eq (env.mutate (st.gen + 1) p.2) p.1))) st.evals st.calls (env.evalSched (st.gen + 1)) =
        some (evaluatedChildren, st'.evals, st'.calls) ∧
      (∃ idx, idx = (env.algNext (env.algPrepare st.alg st.fmat) ((st.pop ++ evaluatedChildren).map (·.fitness)) (st.gen + 1)).1 ∧ idx.Nodup ∧ AtPositions (st.pop ++ evaluatedChildren) idx st'.pop) ∧
      st'.gen = st.gen + 1 ∧ st'.stats = st.stats.map (fun m => m.update st'.fmat) ∧ st'.evalsMon = st.evalsMon.update st'.evals ∧
      (env.keepAll = false → st'.sols = st.sols) ∧
      (env.keepAll = true → ∃ st1 st2, st1.sols = st.sols ∧ st1.pop = st'.pop ∧ st1.fmat = st'.fmat ∧ st1.alg = st'.alg ∧ GaInv env P I st1 ∧ updateOptimal env st1 = some st2 ∧ st2.sols = st'.sols) := by
  obtain ⟨children, hch, hcl, hct, hrest⟩ := advance_steps env P I J hA heq hfit hdyn hlen st inv
  unfold advance at h
  rw [if_pos inv.size] at h
  dsimp only at h
  simp only [Option.bind_eq_bind, hch, Option.bind_some] at h
  rw [Option.bind_eq_some_iff] at h
  obtain ⟨r, hr, h⟩ := h
  obtain ⟨-, -, st1, hu, hinv, hidx, s1, s2, s3, s4, s5, s6⟩ := hrest _ r hr
  rw [hu] at h
  simp only [Option.bind_some] at h
  rw [Option.bind_eq_some_iff] at h
  obtain ⟨st2, h2, h⟩ := h
  obtain rfl := Option.some.inj h
  unfold collectOptimal at h2
  cases hk : env.keepAll with
  | false =>
    rw [hk] at h2
    obtain rfl := Option.some.inj h2
    refine ⟨hinv.of_eq rfl rfl rfl rfl, children, r.1, hch, hcl, ?_, hidx, congrArg (· + 1) s4, by rw [← s5]; rfl, by rw [← s6]; rfl, fun _ => s1, fun h => by cases h⟩
    rw [hr]; exact congrArg some (Prod.ext rfl (Prod.ext s2.symm s3.symm))
  | true =>
    rw [hk] at h2
    simp only [if_true] at h2
    obtain ⟨sols, rfl⟩ := updateOptimal_same env _ _ h2
    refine ⟨hinv.of_eq rfl rfl rfl rfl, children, r.1, hch, hcl, ?_, hidx, congrArg (· + 1) s4, by rw [← s5]; rfl, by rw [← s6]; rfl, fun h => (by cases h),
      fun _ => ⟨st1, _, s1, rfl, rfl, rfl, hinv, h2, rfl⟩⟩
    rw [hr]; exact congrArg some (Prod.ext rfl (Prod.ext s2.symm s3.symm))

theorem gaGens_inv (env : GaEnv G K A S V) (prev : GaState G (FVec K) A V) (initial : List (Cand G (FVec K))) (P : List G → FVec K → Prop) (I J : A → List (FVec K) → Prop) (h : RunOk env prev initial P I J) :
    ∀ (n : Nat) (st : GaState G (FVec K) A V), gaGens env prev initial n = some st → GaInv env P I st ∧ st.gen = n
  | 0, st, hst => by
      obtain ⟨_, _, _, _, _, _, hg, _⟩ := gaInit_spec env prev initial P I J h st hst
      exact ⟨gaInit_inv env prev initial P I J h st hst, hg⟩
  | n + 1, st, hst => by
      rw [gaGens] at hst
      simp only [Option.bind_eq_bind] at hst
      rw [Option.bind_eq_some_iff] at hst
      obtain ⟨st0, h0, hst⟩ := hst
      obtain ⟨i0, g0⟩ := gaGens_inv env prev initial P I J h n st0 h0
      obtain ⟨i1, _, _, _, _, _, _, hg, _⟩ := advance_spec env P I J h.alg h.eqOk h.fitOk h.dynCache h.lenOk st0 st i0 hst
      exact ⟨i1, by rw [hg, g0]⟩
end

end Gapp.Model
