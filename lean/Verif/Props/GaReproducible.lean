import Verif.Proofs.GaReproducible
import Verif.Proofs.Nsga3Fresh
import Verif.Props.GaLoop
import Verif.Props.StopCondition
/-!
# C65, C66: runs do not depend on the schedule or on earlier runs
-/

namespace Gapp.Props
open Gapp.Model Gapp.Spec

/-! ## C65: the schedules of the parallel loops -/

section
variable {G K A S V : Type} [DecidableEq G] [CommRing K] [LinearOrder K]

/-- **C65**, for runs that do not keep all optimal solutions. Two runs with the same settings and the same random outcomes end in the same state, whatever the schedules of the parallel loops are:
the same population, solutions, counters, cache and metrics, and calls of the fitness function with the same chromosomes. No assumption is made about the operators, the algorithm, the tolerances,
the comparison of the candidates or the user-supplied candidates. -/
theorem C65_schedule_independent_partial (env : GaEnv G K A S V) (hdyn : env.dynamic = true → env.cachedGens = 0) (hstop : StopIgnoresCalls env) (hkeep : env.keepAll = false)
    (evalSched : Nat → List Nat) (mergeSched : Nat → Nat → Nat → List Nat) (prev : GaState G (FVec K) A V) (initial : List (Cand G (FVec K))) (final final' : GaState G (FVec K) A V)
    (h : gaSolve env prev initial = some final) (h' : gaSolve (withSchedules env evalSched mergeSched) prev initial = some final') : SameOutcome final final' :=
  gaSolve_sched env hdyn hstop evalSched mergeSched prev initial
    (fun _ st st' r r' _ hs hr hr' => advance_sched env hdyn evalSched mergeSched st st' r r' hs (fun hk => by rw [hkeep] at hk; cases hk) hr hr')
    (fun hk n st hst => gaGens_sols_empty env hk prev initial n st hst) final final' h h'

/-- C65: also every generation is the same. -/
theorem C65_every_generation_partial (env : GaEnv G K A S V) (hdyn : env.dynamic = true → env.cachedGens = 0) (hkeep : env.keepAll = false)
    (evalSched : Nat → List Nat) (mergeSched : Nat → Nat → Nat → List Nat) (prev : GaState G (FVec K) A V) (initial : List (Cand G (FVec K))) (n : Nat) (st st' : GaState G (FVec K) A V)
    (h : gaGens env prev initial n = some st) (h' : gaGens (withSchedules env evalSched mergeSched) prev initial n = some st') : SameOutcome st st' :=
  gaGens_sched env hdyn evalSched mergeSched prev initial
    (fun _ st st' r r' _ hs hr hr' => advance_sched env hdyn evalSched mergeSched st st' r r' hs (fun hk => by rw [hkeep] at hk; cases hk) hr hr') n st st' h h'
end

section
variable {G K A S V : Type} [LinearOrder G] [CommRing K] [LinearOrder K] [IsStrictOrderedRing K]

/-- C65 for runs that keep all optimal solutions, with tolerances of zero: everything, including the set of all optimal solutions and its order, is independent of the schedules. -/
theorem C65_keep_all_partial {env : GaEnv G K A S V} {prev : GaState G (FVec K) A V} {initial : List (Cand G (FVec K))} {I J : A → List (FVec K) → Prop} (hrun : ExactRun env prev initial I J)
    (htol : env.tol = ⟨0, 0⟩) (hopt : OptimalContract env I) (hsort : SortSolsOk env) (hstop : StopIgnoresCalls env)
    (evalSched : Nat → List Nat) (mergeSched : Nat → Nat → Nat → List Nat) (final final' : GaState G (FVec K) A V)
    (h : gaSolve env prev initial = some final) (h' : gaSolve (withSchedules env evalSched mergeSched) prev initial = some final') : SameOutcome final final' :=
  gaSolve_sched env hrun.dynCache hstop evalSched mergeSched prev initial
    (fun n st st' r r' hst hs hr hr' => advance_sched_exact env prev initial _ I J hrun.runOk (fun x v w hv hw => by rw [hv, hw]) htol hopt hsort evalSched mergeSched n st st' r r' hst hs hr hr')
    (fun hk n st hst => gaGens_sols_empty env hk prev initial n st hst) final final' h h'
end

/-- Schedules of the demo that are the reverse of the ones it uses. -/
def demoEvalSched : Nat → List Nat := fun _ => [1, 1, 1, 0, 0, 0]
/-- See `demoEvalSched`. -/
def demoMergeSched : Nat → Nat → Nat → List Nat := fun _ l r => (List.range (max l r)).reverse.flatMap (fun i => List.replicate (2 * min l r) i)

/-- Non-vacuity: a run with other schedules. The calls are really in another order, and the outcome is not empty. -/
example : StopIgnoresCalls (demoInt false 1 4) ∧
    (gaSolve (withSchedules (demoInt false 1 4) demoEvalSched demoMergeSched) (demoPrev ℤ) []).map (fun st => (st.pop.map (·.chrom), st.calls, st.evals)) =
      some ([[7, 1], [2, 0]], [[0, 0], [2, 0], [1, 1], [2, 1], [4, 1], [7, 1]], 5) ∧
    (gaSolve (demoInt false 1 4) (demoPrev ℤ) []).map (fun st => (st.pop.map (·.chrom), st.calls, st.evals)) =
      some ([[7, 1], [2, 0]], [[0, 0], [1, 1], [2, 0], [2, 1], [4, 1], [7, 1]], 5) :=
  ⟨⟨fun _ _ => rfl, fun _ _ _ => rfl⟩, by decide +kernel, by decide +kernel⟩

/-- Non-vacuity of the theorem for runs that keep all the solutions. -/
example : ExactRun (demoInt true 0 3) (demoPrev ℤ) [] (fun _ _ => True) (fun _ _ => True) ∧ (demoInt true 0 3).tol = ⟨0, 0⟩ ∧ OptimalContract (demoInt true 0 3) (fun _ _ => True) ∧
    SortSolsOk (demoInt true 0 3) ∧ StopIgnoresCalls (demoInt true 0 3) ∧
    (gaSolve (withSchedules (demoInt true 0 3) demoEvalSched demoMergeSched) (demoPrev ℤ) []).map (fun st => st.sols.map (·.chrom)) = some [[2, 0], [4, 1]] :=
  ⟨demo_exact true 0 3 [] (by simp), rfl, (demo_complete true 0 3).optimal, (demo_complete true 0 3).sort, ⟨fun _ _ => rfl, fun _ _ _ => rfl⟩, by decide +kernel⟩

/-- A run of two generations that keeps all the optimal solutions, with an absolute tolerance of 10. The two candidates of the second generation replace those of the first one. -/
def demoTolerant : GaEnv ℤ ℤ Unit Unit (FVec ℤ) :=
  { demoInt true 0 2 with
    tol := ⟨10, 0⟩
    fitness := fun x => [.fin (x.getD 0 0), .fin (x.getD 1 0)]
    mutate := fun _ k _ => if k = 0 then [-20, 9] else [20, -9]
    mergeSched := fun _ l r => (List.range (max l r)).flatMap (fun i => List.replicate (2 * min l r) i) }

/-- The two candidates of the first generation. -/
def demoTolerantInitial : List (Cand ℤ (FVec ℤ)) := [⟨[0, 0], [], false⟩, ⟨[0, 5], [], false⟩]

theorem demoTolerant_run : ExactRun demoTolerant (demoPrev ℤ) demoTolerantInitial (fun _ _ => True) (fun _ _ => True) where
  alg := ⟨fun _ _ _ => trivial, fun _ _ _ _ _ => trivial, fun _ _ _ k _ _ _ => Nat.mod_lt _ (by decide),
    fun _ _ _ _ _ _ => ⟨⟨rfl, (by decide : [2, 3].Nodup), (by decide : ∀ i ∈ [2, 3], i < 4)⟩, fun _ _ => trivial⟩⟩
  exact := rfl
  lengths := fun _ => rfl
  dynCache := fun h => by cases h
  initial := by
    intro c hc he
    simp only [demoTolerantInitial, List.mem_cons, List.not_mem_nil, or_false] at hc
    rcases hc with rfl | rfl <;> cases he
  prevCache := ⟨_, FifoCache.repr_init 0 0⟩

/-- C65 does not hold for runs that keep all the optimal solutions if the tolerances are not zero: with two schedules of the merge of the solutions, both of which are complete, the same run
returns two solutions in one case and three in the other one. -/
theorem C65_violated : ∃ (env : GaEnv ℤ ℤ Unit Unit (FVec ℤ)) (prev final final' : GaState ℤ (FVec ℤ) Unit (FVec ℤ)) (initial : List (Cand ℤ (FVec ℤ))) (I J : Unit → List (FVec ℤ) → Prop)
    (mergeSched : Nat → Nat → Nat → List Nat), ExactRun env prev initial I J ∧ StopIgnoresCalls env ∧ OptimalContract env I ∧ SortSolsOk env ∧
      (∀ g l r i, i < max l r → 2 * min l r ≤ (env.mergeSched g l r).count i ∧ 2 * min l r ≤ (mergeSched g l r).count i) ∧
      gaSolve env prev initial = some final ∧ gaSolve (withSchedules env env.evalSched mergeSched) prev initial = some final' ∧
      final.sols.map (·.chrom) = [[0, 0], [0, 5], [20, -9]] ∧ final'.sols.map (·.chrom) = [[0, 5], [20, -9]] := by
  have e1 : (gaSolve demoTolerant (demoPrev ℤ) demoTolerantInitial).map (fun st => st.sols.map (·.chrom)) = some [[0, 0], [0, 5], [20, -9]] := by decide +kernel
  have e2 : (gaSolve (withSchedules demoTolerant demoTolerant.evalSched demoMergeSched) (demoPrev ℤ) demoTolerantInitial).map (fun st => st.sols.map (·.chrom)) = some [[0, 5], [20, -9]] := by
    decide +kernel
  rw [Option.map_eq_some_iff] at e1 e2
  obtain ⟨f, hf, hs⟩ := e1
  obtain ⟨f', hf', hs'⟩ := e2
  have hcount : ∀ (n : Nat) (l : List Nat) (i : Nat), l.Nodup → i ∈ l → (l.flatMap (fun i => List.replicate n i)).count i = n := by
    intro n l
    induction l with
    | nil => intro i _ h; cases h
    | cons x l ih =>
      intro i hnd hi
      rw [List.nodup_cons] at hnd
      rw [List.flatMap_cons, List.count_append]
      rcases List.mem_cons.mp hi with rfl | hi
      · rw [List.count_replicate_self, List.count_eq_zero_of_not_mem]
        · rfl
        · simp only [List.mem_flatMap, List.mem_replicate, not_exists, not_and]
          rintro y hy - rfl
          exact hnd.1 hy
      · rw [ih i hnd.2 hi, List.count_replicate, if_neg (by rintro h; simp only [beq_iff_eq] at h; subst h; exact hnd.1 hi)]
        omega
  refine ⟨demoTolerant, demoPrev ℤ, f, f', demoTolerantInitial, _, _, demoMergeSched, demoTolerant_run, ⟨fun _ _ => rfl, fun _ _ _ => rfl⟩, fun _ _ _ _ _ => Or.inl rfl,
    (demo_complete true 0 2).sort, ?_, hf, hf', hs, hs'⟩
  intro g l r i hi
  exact ⟨(hcount _ _ i List.nodup_range (List.mem_range.mpr hi)).ge, (hcount _ _ i (List.nodup_reverse.mpr List.nodup_range) (List.mem_reverse.mpr (List.mem_range.mpr hi))).ge⟩

/-! ## C66: earlier runs -/

section
variable {G K A S V : Type} [DecidableEq G] [CommRing K] [LinearOrder K]

/-- **C66.** What a GA object was used for before makes no difference: after any history of runs, which may be with other settings and may have been left early, `solve` does what it does for a
new object with the same metrics: it has the same outcome, and if it fails, it also fails for a new object. -/
theorem C66_independent_of_history (fresh st : GaState G (FVec K) A V) (hnew : ∃ cap extra, fresh.cache = FifoCache.init cap extra) (hused : UsedBefore fresh st) (env : GaEnv G K A S V)
    (initial : List (Cand G (FVec K))) : gaSolve env st initial = gaSolve env fresh initial := by
  obtain ⟨cap, extra, hc⟩ := hnew
  have hr : ∃ d, fresh.cache.Repr d := ⟨_, by rw [hc]; exact FifoCache.repr_init cap extra⟩
  obtain ⟨h1, h2⟩ := usedBefore_kept fresh st hr hused
  exact gaSolve_prev env fresh st initial hr h1 h2

/-- C66: the same for every generation. -/
theorem C66_every_generation (fresh st : GaState G (FVec K) A V) (hnew : ∃ cap extra, fresh.cache = FifoCache.init cap extra) (hused : UsedBefore fresh st) (env : GaEnv G K A S V)
    (initial : List (Cand G (FVec K))) (n : Nat) : gaGens env st initial n = gaGens env fresh initial n := by
  obtain ⟨cap, extra, hc⟩ := hnew
  have hr : ∃ d, fresh.cache.Repr d := ⟨_, by rw [hc]; exact FifoCache.repr_init cap extra⟩
  obtain ⟨h1, h2⟩ := usedBefore_kept fresh st hr hused
  induction n with
  | zero => exact gaInit_prev env fresh st initial hr h1 h2
  | succ n ih => rw [gaGens_succ, gaGens_succ, ih]
end

/-- Non-vacuity: a run with one seed after a complete run with other settings. The first run leaves a filled cache, solutions and metrics. -/
example : ∃ st, UsedBefore (demoPrev ℤ) st ∧ st.sols.isEmpty = false ∧ st.cache.map.isEmpty = false ∧ st.evalsMon.data = [2, 1, 1, 1] ∧
    (gaSolve (demoInt true 0 3) st []).map (fun st => st.sols.map (·.chrom)) = some [[2, 0], [4, 1]] := by
  have e : (gaSolve (demoInt false 1 4) (demoPrev ℤ) []).map (fun st => (st.sols.isEmpty, st.cache.map.isEmpty, st.evalsMon.data)) = some (false, false, [2, 1, 1, 1]) := by decide +kernel
  have e' : (gaSolve (demoInt true 0 3) (demoPrev ℤ) []).map (fun st => st.sols.map (·.chrom)) = some [[2, 0], [4, 1]] := by decide +kernel
  rw [Option.map_eq_some_iff] at e
  obtain ⟨st, hst, he⟩ := e
  simp only [Prod.mk.injEq] at he
  have hu : UsedBefore (demoPrev ℤ) st := .solved (demoInt false 1 4) [] _ st .fresh hst
  exact ⟨st, hu, he.1, he.2.1, he.2.2, by rw [C66_independent_of_history (demoPrev ℤ) st ⟨0, 0, rfl⟩ hu]; exact e'⟩

/-! ### The objects that are used in the runs -/

section
variable {L I : Type}

/-- The state of a stop condition after it was consulted for the members of `gas`. -/
def StopTree.afterCalls (step : L → I → L × Bool) : List (I × Bool) → StopTree L → StopTree L
  | [], t => t
  | ga :: gas, t => StopTree.afterCalls step gas (t.call step ga.1 ga.2).1

theorem stopTree_init_call (step : L → I → L × Bool) (init0 : L → I → L) (h : ∀ l i j, init0 (step l i).1 j = init0 l j) (ga ga' : I) (b : Bool) (t : StopTree L) :
    ((t.call step ga b).1).init init0 ga' = t.init init0 ga' := by
  induction t with
  | leaf l => simp only [StopTree.call, StopTree.init, h]
  | or left right ih1 ih2 =>
    simp only [StopTree.call]
    split
    · simp only [StopTree.init, ih1]
    · simp only [StopTree.init, ih1, ih2]
  | and left right ih1 ih2 => simp only [StopTree.call, StopTree.init, ih1, ih2]
  | not base ih => simp only [StopTree.call, StopTree.init, ih]

/-- C66 (composite stop conditions): if initializing forgets what the elementary conditions have stored, then it also does for a composite one, however often it was consulted before. -/
theorem C66_composite_stop_conditions (step : L → I → L × Bool) (init0 : L → I → L) (h : ∀ l i j, init0 (step l i).1 j = init0 l j) (gas : List (I × Bool)) (t : StopTree L) (ga : I) :
    (StopTree.afterCalls step gas t).init init0 ga = t.init init0 ga := by
  induction gas generalizing t with
  | nil => rfl
  | cons x gas ih => exact (ih _).trans (stopTree_init_call step init0 h x.1 ga x.2 t)
end

section
variable {K : Type} [CommRing K] [LinearOrder K]

/-- C66 (stall conditions): initializing forgets what was stored in earlier runs. -/
theorem C66_stall_conditions (s : Stall K) (current : FVec K) (m : Nat) : ((s.step current).1).init m = s.init m := by
  unfold Stall.step Stall.init Stall.reset
  dsimp only
  split <;> rfl
end

/-- Non-vacuity: a composite of two stall conditions that has been consulted twice is not as it was, but it is after the initialization. -/
example : let step : Stall ℤ → FVec ℤ → Stall ℤ × Bool := fun s v => s.step v
    let init0 : Stall ℤ → FVec ℤ → Stall ℤ := fun s v => s.init v.length
    let t : StopTree (Stall ℤ) := .or (.leaf ⟨[.ninf], 0, 1, 1⟩) (.not (.leaf ⟨[.ninf], 3, 2, 4⟩))
    let leaf : StopTree (Stall ℤ) → Nat := fun t => match t with | .or (.leaf l) _ => l.cntr | _ => 0
    (∀ l i j, init0 (step l i).1 j = init0 l j) ∧ leaf (StopTree.afterCalls step [([.fin 5], false), ([.fin 4], false)] t) = 0 ∧ leaf t = 1 ∧
      leaf ((StopTree.afterCalls step [([.fin 5], false), ([.fin 4], false)] t).init init0 [.fin 7]) = 1 :=
  ⟨fun l i j => C66_stall_conditions l i j.length, by decide +kernel, by decide +kernel, by decide +kernel⟩

section
variable {K : Type} [Field K] [LinearOrder K] [IsStrictOrderedRing K]

/-- C66 (NSGA-III): the state after the initialization does not depend on the nadir point, the associations and the niche counts of an earlier run. -/
theorem C66_nsga3 (m : Nat) (hm0 : 0 < m) (refLines : List (List K)) (hl : IsMatrix m refLines) (hne : refLines ≠ []) (nadir nadir' : List K) (info info' : List (CandInfo K))
    (niche niche' : List Nat) (fmat : List (List K)) (hm : IsMatrix m fmat) (hf : fmat ≠ []) (els : List (Nat × Nat)) (hels : IsNdSort (RowDominates (finRows fmat)) fmat.length els) :
    nsga3Init refLines nadir info niche fmat els = nsga3Init refLines nadir' info' niche' fmat els :=
  nsga3Init_prev m hm0 refLines hl hne nadir nadir' info info' niche niche' fmat hm hf els hels.1
end

/-- Non-vacuity: the state left by another run is forgotten. -/
example : nsga3Init nsga3Lines [9, 9] [⟨3, 1, 7⟩, ⟨2, 0, 1⟩] [4, 4, 4] nsga3Pool nsga3PoolEls = nsga3Init nsga3Lines [] [] [] nsga3Pool nsga3PoolEls :=
  C66_nsga3 2 (by omega) nsga3Lines (by unfold IsMatrix; decide +kernel) (by decide +kernel) _ _ _ _ _ _ nsga3Pool (by unfold IsMatrix; decide +kernel) (by decide +kernel) nsga3PoolEls
    nsga3PoolEls_isNdSort

end Gapp.Props
