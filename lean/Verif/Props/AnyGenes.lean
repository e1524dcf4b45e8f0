import Verif.Props.Tolerant
import Verif.Props.EvalBudget
/-!
# Runs whose genes are compared in any way

The theorems C24, C25 and C55 are about runs whose genes are compared exactly. The real-encoded algorithm compares its genes with tolerances. Here are the same statements for every comparison of the
genes, in particular for comparisons that are not transitive.
-/

namespace Gapp.Props
open Gapp.Model Gapp.Spec

section
variable {G K A S V : Type} [DecidableEq G] [CommRing K] [LinearOrder K]

/-- The assumptions on a run, without any on the comparison of the genes. -/
structure AnyRun (env : GaEnv G K A S V) (prev : GaState G (FVec K) A V) (initial : List (Cand G (FVec K))) (I J : A → List (FVec K) → Prop) : Prop where
  alg : AlgContract env I J
  lengths : ∀ x, (env.fitness x).length = env.numObj
  dynCache : env.dynamic = true → env.cachedGens = 0
  initial : ∀ c ∈ initial, Truthful env.fitness c
  prevCache : ∃ d, prev.cache.Repr d

/-- `v` is the fitness of a chromosome that is connected with `x` by chromosomes of which each compares equal to the next one. -/
def Linked (env : GaEnv G K A S V) (x : List G) (v : FVec K) : Prop := ∃ y, Relation.ReflTransGen (fun a b => env.eq a b = true) x y ∧ v = env.fitness y

theorem AnyRun.runOk {env : GaEnv G K A S V} {prev : GaState G (FVec K) A V} {initial : List (Cand G (FVec K))} {I J : A → List (FVec K) → Prop} (h : AnyRun env prev initial I J) :
    RunOk env prev initial (Linked env) I J where
  alg := h.alg
  eqOk := fun a b v hab ⟨y, h1, h2⟩ => ⟨y, Relation.ReflTransGen.head hab h1, h2⟩
  fitOk := fun x => ⟨x, Relation.ReflTransGen.refl, rfl⟩
  lenOk := by rintro x v ⟨y, -, rfl⟩; exact ⟨h.lengths y, y, rfl⟩
  dynCache := h.dynCache
  initialOk := fun c hc he => ⟨c.chrom, Relation.ReflTransGen.refl, h.initial c hc he⟩
  prevCache := h.prevCache

/-- C24 for every comparison of the genes: `solve` consults the stop condition once in each generation, beginning with the initial one, and ends with the first generation in which the condition holds
or whose number is `max_gen - 1`. -/
theorem C24_stops_any_genes {env : GaEnv G K A S V} {prev : GaState G (FVec K) A V} {initial : List (Cand G (FVec K))} {I J : A → List (FVec K) → Prop} (h : AnyRun env prev initial I J)
    (final : GaState G (FVec K) A V) (hf : gaSolve env prev initial = some final) :
    ∃ (k : Nat) (ss : Nat → S) (sts : Nat → GaState G (FVec K) A V), (∀ i, i ≤ k → gaGens env prev initial i = some (sts i)) ∧ ss 0 = env.stopInit (sts 0) ∧
      (∀ i, i < k → env.stop (ss i) (sts i) = (ss (i + 1), false)) ∧ ((env.stop (ss k) (sts k)).2 = true ∨ env.maxGen ≤ k + 1) ∧ (1 ≤ env.maxGen → k ≤ env.maxGen - 1) ∧
      final.gen = k ∧ final.pop = (sts k).pop ∧ final.fmat = (sts k).fmat ∧ final.evals = (sts k).evals ∧ final.stats = (sts k).stats ∧ final.evalsMon = (sts k).evalsMon ∧
      final.calls = (sts k).calls ∧
      (if env.keepAll then final.sols = (sts k).sols else ∃ st', updateOptimal env (sts k) = some st' ∧ final.sols = st'.sols) := by
  unfold gaSolve at hf
  simp only [Option.bind_eq_bind] at hf
  rw [Option.bind_eq_some_iff] at hf
  obtain ⟨st0, h0, hf⟩ := hf
  rw [Option.bind_eq_some_iff] at hf
  obtain ⟨st1, h1, hf⟩ := hf
  obtain ⟨k, ss, sts, t1, t2, t3, t4, t5⟩ := solveLoop_trace env _ (gaGens_succ env prev initial) _ 0 _ st0 st1 h0 h1
  simp only [Nat.zero_add] at t2
  have hgen : ∀ i, i ≤ k → (sts i).gen = i := fun i hi => (gaGens_inv env prev initial (Linked env) I J h.runOk i _ (t2 i hi)).2
  have hst0 : sts 0 = st0 := by
    have := t2 0 (Nat.zero_le _)
    rw [show gaGens env prev initial 0 = some st0 from h0] at this
    exact (Option.some.inj this).symm
  have hk : final = st1 ∨ ∃ st', updateOptimal env st1 = some st' ∧ final = st' := by
    split at hf
    · exact Or.inl (Option.some.inj hf).symm
    · exact Or.inr ⟨_, hf, rfl⟩
  have hsame : final.gen = st1.gen ∧ final.pop = st1.pop ∧ final.fmat = st1.fmat ∧ final.evals = st1.evals ∧ final.stats = st1.stats ∧ final.evalsMon = st1.evalsMon ∧ final.calls = st1.calls := by
    rcases hk with rfl | ⟨st', hu, rfl⟩
    · exact ⟨rfl, rfl, rfl, rfl, rfl, rfl, rfl⟩
    · obtain ⟨sols, rfl⟩ := updateOptimal_same env _ _ hu
      exact ⟨rfl, rfl, rfl, rfl, rfl, rfl, rfl⟩
  obtain ⟨e1, e2, e3, e4, e5, e6, e7⟩ := hsame
  rw [t3] at e1 e2 e3 e4 e5 e6 e7
  refine ⟨k, ss, sts, t2, by rw [t1, hst0], fun i hi => (t4 i hi).1, by have := hgen k (Nat.le_refl _); rw [this] at t5; exact t5, ?_, by rw [e1]; exact hgen k (Nat.le_refl _), e2, e3, e4, e5, e6, e7, ?_⟩
  · intro hm
    cases k with
    | zero => omega
    | succ k =>
      have := (t4 k (by omega)).2
      rw [hgen k (by omega)] at this
      omega
  · split at hf
    · rename_i hkeep
      rw [if_pos hkeep, ← t3]
      exact congrArg _ (Option.some.inj hf).symm
    · rename_i hkeep
      rw [if_neg hkeep, ← t3]
      exact ⟨_, hf, rfl⟩

/-- **C25** for every comparison of the genes, except for the one call that is not counted. -/
theorem C25_evaluation_count_any_genes_partial {env : GaEnv G K A S V} {prev : GaState G (FVec K) A V} {initial : List (Cand G (FVec K))} {I J : A → List (FVec K) → Prop}
    (h : AnyRun env prev initial I J) (n : Nat) (st : GaState G (FVec K) A V) (hst : gaGens env prev initial n = some st) : st.calls.length = st.evals + 1 :=
  gaGens_calls env prev initial (Linked env) I J h.runOk n st hst

/-- C55 for every comparison of the genes. -/
theorem C55_metrics_any_genes {env : GaEnv G K A S V} {prev : GaState G (FVec K) A V} {initial : List (Cand G (FVec K))} {I J : A → List (FVec K) → Prop}
    (h : AnyRun env prev initial I J) (n : Nat) (st : GaState G (FVec K) A V) (hst : gaGens env prev initial n = some st) :
    ∃ sts : Nat → GaState G (FVec K) A V, (∀ i, i ≤ n → gaGens env prev initial i = some (sts i)) ∧
      st.stats.length = prev.stats.length ∧
      (∀ (j : Nat) (m m0 : Monitor (FVec K) V), st.stats[j]? = some m → prev.stats[j]? = some m0 →
        m.data.length = n + 1 ∧ ∀ i, i ≤ n → m.data[i]? = some (m0.compute (sts i).fmat)) ∧
      st.evalsMon.data.length = n + 1 ∧ ∀ i, i ≤ n → (st.evalsMon.data.take (i + 1)).sum = (sts i).evals := by
  obtain ⟨sts, h1, h2, h3, -, h5⟩ := gaGens_stats env prev initial (Linked env) I J h.runOk n st hst
  refine ⟨sts, h1, by rw [h2, List.length_map], ?_, h3, h5⟩
  intro j m m0 hm hm0
  rw [h2, List.getElem?_map, hm0] at hm
  obtain rfl := Option.some.inj hm
  refine ⟨by simp, fun i hi => ?_⟩
  have : i < n + 1 := by omega
  simp [this]

/-- **C97** for `solve` and every comparison of the genes. -/
theorem C97_solve_bounded_any_genes_partial {env : GaEnv G K A S V} {prev : GaState G (FVec K) A V} {initial : List (Cand G (FVec K))} {I J : A → List (FVec K) → Prop}
    (h : AnyRun env prev initial I J) (hmax : 1 ≤ env.maxGen) (final : GaState G (FVec K) A V) (hf : gaSolve env prev initial = some final) :
    final.evals ≤ env.popSize * (final.gen + 1) ∧ final.evals ≤ env.popSize * env.maxGen ∧ final.calls.length ≤ env.popSize * env.maxGen + 1 := by
  obtain ⟨k, ss, sts, h1, -, -, -, h2, h3, -, -, h4, -, -, h5, -⟩ := C24_stops_any_genes h final hf
  have h6 := evals_bound h.runOk k (sts k) (h1 k (le_refl _))
  have h7 := C25_evaluation_count_any_genes_partial h k (sts k) (h1 k (le_refl _))
  have h8 : env.popSize * (k + 1) ≤ env.popSize * env.maxGen := Nat.mul_le_mul_left _ (by have := h2 hmax; omega)
  rw [h3, h4, h5, h7]
  exact ⟨h6, h6.trans h8, Nat.add_le_add_right (h6.trans h8) 1⟩
end

section
variable {G K A S V : Type} [LinearOrder G] [CommRing K] [LinearOrder K] [IsStrictOrderedRing K]

/-- C22 for every comparison of the genes and of the fitness values: no generation fails. -/
theorem C22_progress_any_genes {env : GaEnv G K A S V} {prev : GaState G (FVec K) A V} {initial : List (Cand G (FVec K))} {I J : A → List (FVec K) → Prop}
    (h : AnyRun env prev initial I J) (hc : TolerantRun env I) (n : Nat) : ∃ st, gaGens env prev initial n = some st :=
  gaGens_ok_tol env prev initial (Linked env) I J h.runOk hc.evalSched (fun _ => ⟨⟨hc.valid, hc.rel⟩, hc.optimal, hc.mergeSched⟩) n

/-- C24 for every comparison of the genes and of the fitness values: `solve` always ends, whatever the stop condition does. -/
theorem C24_ends_any_genes {env : GaEnv G K A S V} {prev : GaState G (FVec K) A V} {initial : List (Cand G (FVec K))} {I J : A → List (FVec K) → Prop}
    (h : AnyRun env prev initial I J) (hc : TolerantRun env I) : ∃ final, gaSolve env prev initial = some final := by
  obtain ⟨st0, h0⟩ := C22_progress_any_genes h hc 0
  obtain ⟨st1, h1⟩ := solveLoop_ends env _ (gaGens_succ env prev initial) (fun n st hn => (gaGens_inv env prev initial (Linked env) I J h.runOk n st hn).2) (C22_progress_any_genes h hc) (env.maxGen + 1) 0
    (env.stopInit st0) st0 h0 (by omega) (by omega)
  have h0' : gaInit env prev initial = some st0 := h0
  unfold gaSolve
  simp only [Option.bind_eq_bind, h0', Option.bind_some, h1]
  split
  · exact ⟨_, rfl⟩
  · obtain ⟨k, ss, sts, -, t2, t3, -⟩ := solveLoop_trace env _ (gaGens_succ env prev initial) _ 0 _ st0 st1 h0 h1
    have := t2 k (Nat.le_refl _)
    rw [← t3] at this
    exact updateOptimal_ok_tol env hc.valid hc.rel _ I hc.optimal h.runOk.lenOk hc.mergeSched st1 (gaGens_inv env prev initial (Linked env) I J h.runOk _ _ this).1

/-- **C23** for every comparison of the genes, without `keep_all_optimal_solutions` and with exact comparisons of the fitness values: the returned solutions have different chromosomes and are
candidates of the last population. Their stored fitness is that of a chromosome linked to their own by comparisons, no stored fitness in the population dominates it, and every candidate whose stored
fitness is not dominated has the chromosome of a solution. (With real genes the stored fitness may not be that of the chromosome, `C22_real_genes_stale`, so that this is all that can be said of the
fitness of the solutions.) -/
theorem C23_solutions_any_genes_partial {env : GaEnv G K A S V} {prev : GaState G (FVec K) A V} {initial : List (Cand G (FVec K))} {I J : A → List (FVec K) → Prop}
    (h : AnyRun env prev initial I J) (hc : CompleteRun env I) (hk : env.keepAll = false) (final : GaState G (FVec K) A V) (hf : gaSolve env prev initial = some final) :
    (final.sols.map (·.chrom)).Nodup ∧ (∀ c ∈ final.sols, c ∈ final.pop ∧ c.evaluated = true ∧ Linked env c.chrom c.fitness) ∧
      (∀ c ∈ final.sols, ∀ x ∈ final.pop, ¬ ExactDominates x.fitness c.fitness) ∧
      ∀ x ∈ final.pop, (∀ y ∈ final.pop, ¬ ExactDominates y.fitness x.fitness) → ∃ c ∈ final.sols, c.chrom = x.chrom := by
  obtain ⟨k, ss, sts, t1, -, -, -, -, -, e2, -, -, -, -, -, e7⟩ := C24_stops_any_genes h final hf
  rw [if_neg (by simp [hk])] at e7
  obtain ⟨st', hu, e8⟩ := e7
  have inv := (gaGens_inv env prev initial _ I J h.runOk k _ (t1 k (Nat.le_refl _))).1
  have hempty : ∀ n st, gaGens env prev initial n = some st → st.sols = [] := by
    intro n
    induction n with
    | zero =>
      intro st hst
      obtain ⟨_, _, _, _, hs, _⟩ := gaInit_spec env prev initial _ I J h.runOk st hst
      unfold initialSols at hs
      rw [if_neg (by simp [hk])] at hs
      exact (Option.some.inj hs).symm
    | succ n ih =>
      intro st hst
      rw [gaGens_succ, Option.bind_eq_some_iff] at hst
      obtain ⟨st0, h0, hadv⟩ := hst
      obtain ⟨i0, -⟩ := gaGens_inv env prev initial _ I J h.runOk n st0 h0
      obtain ⟨_, _, _, _, _, _, _, _, _, _, hs, _⟩ := advance_spec env _ I J h.alg h.runOk.eqOk h.runOk.fitOk h.dynCache h.runOk.lenOk st0 st i0 hadv
      rw [hs hk]; exact ih st0 h0
  have hs0 := hempty k _ (t1 k (Nat.le_refl _))
  obtain ⟨u1, u2, u3⟩ := updateOptimal_spec env hc.tol _ I hc.optimal h.runOk.lenOk hc.sort (sts k) st' inv (by rw [hs0]; simp) (by rw [hs0]; simp) hu
  rw [← e8] at u1 u2 u3
  rw [← e2] at u2 u3
  simp only [hs0, List.not_mem_nil, false_or, false_imp_iff, implies_true, and_true] at u2 u3
  refine ⟨u1, fun c hc => ⟨(u2 c hc).1, ?_⟩, fun c hc => (u2 c hc).2, fun x hx hn => u3 x hx hn trivial⟩
  have := (u2 c hc).1
  rw [e2] at this
  exact inv.evaluated c this
end

/-- A run with real genes that are compared with a tolerance of one: 3 and 4 compare equal, 4 and 5 too, but not 3 and 5. -/
def demoReal (maxGen : Nat) : GaEnv (Flt ℤ) ℤ Unit Unit (FVec ℤ) :=
  demoEnv (Flt ℤ) (floatVecIsEqual ⟨1, 0⟩) (fun x => [x.getD 0 .ninf, x.getD 1 .ninf]) (fun _ => [.fin 3, .fin 5]) (fun g _ _ => [.fin (3 + (g : ℤ)), .fin 5])
    (List.insertionSort (fun a b => a.chrom ≤ b.chrom)) false 0 maxGen

theorem demoReal_run (maxGen : Nat) : AnyRun (demoReal maxGen) (demoPrev (Flt ℤ)) [] (fun _ _ => True) (fun _ _ => True) where
  alg := demo_alg _ _ _ _ _ _ _ _ _
  lengths := fun _ => rfl
  dynCache := fun h => by cases h
  initial := by simp
  prevCache := ⟨_, FifoCache.repr_init 0 0⟩

theorem demoReal_tolerant (maxGen : Nat) : TolerantRun (demoReal maxGen) (fun _ _ => True) where
  evalSched := (demo_complete false 0 maxGen).evalSched
  mergeSched := (demo_complete false 0 maxGen).mergeSched
  valid := ⟨le_refl _, le_refl _⟩
  rel := (by decide : (0 : ℤ) ≤ 1)
  optimal := fun _ _ _ _ _ => Or.inl rfl
  sort := fun l => by
    refine ⟨List.perm_insertionSort _ l, ?_⟩
    have ht : IsTrans (Cand (Flt ℤ) (FVec ℤ)) (fun a b => a.chrom ≤ b.chrom) := ⟨fun _ _ _ h1 h2 => le_trans h1 h2⟩
    have htot : Std.Total (fun a b : Cand (Flt ℤ) (FVec ℤ) => a.chrom ≤ b.chrom) := ⟨fun a b => le_total _ _⟩
    exact (List.pairwise_insertionSort (fun a b : Cand (Flt ℤ) (FVec ℤ) => a.chrom ≤ b.chrom) l).imp (fun h => not_lt.mpr h)

-- the genes drift away from the initial ones; not every child is evaluated
example : (gaSolve (demoReal 4) (demoPrev (Flt ℤ)) []).map (fun st => (st.gen, st.evals, st.calls.length, st.evalsMon.data)) = some (3, 2, 3, [2, 0, 0, 0]) := by decide +kernel
theorem demoReal_complete (maxGen : Nat) : CompleteRun (demoReal maxGen) (fun _ _ => True) where
  evalSched := (demo_complete false 0 maxGen).evalSched
  mergeSched := (demo_complete false 0 maxGen).mergeSched
  tol := rfl
  optimal := fun _ _ _ _ _ => Or.inl rfl
  sort := (demoReal_tolerant maxGen).sort

example (final) := C23_solutions_any_genes_partial (demoReal_run 4) (demoReal_complete 4) rfl final
-- the solution has the chromosome (6, 5) and the fitness of (3, 5)
example : (gaSolve (demoReal 4) (demoPrev (Flt ℤ)) []).map (fun st => st.sols.map (fun c => (c.chrom, c.fitness))) = some [([.fin 6, .fin 5], [.fin 3, .fin 5])] := by decide +kernel
example := C24_ends_any_genes (demoReal_run 4) (demoReal_tolerant 4)
example (final) (hf : gaSolve (demoReal 4) (demoPrev (Flt ℤ)) [] = some final) : final.evals ≤ 2 * 4 :=
  (C97_solve_bounded_any_genes_partial (demoReal_run 4) (by show 1 ≤ 4; decide) final hf).2.1

/-- C22: the tolerances add up. After three mutations that each compare equal to their parent a solution has a fitness that no chromosome has which compares equal to its own. -/
theorem C22_real_genes_drift : ∃ (env : GaEnv (Flt ℤ) ℤ Unit Unit (FVec ℤ)) (t : Tol ℤ) (prev final : GaState (Flt ℤ) (FVec ℤ) Unit (FVec ℤ)) (I J : Unit → List (FVec ℤ) → Prop),
    env.eq = floatVecIsEqual t ∧ AnyRun env prev [] I J ∧ gaSolve env prev [] = some final ∧
      ∃ c ∈ final.sols, c.evaluated = true ∧ ∀ y, env.eq c.chrom y = true → env.fitness y ≠ c.fitness := by
  have : (gaSolve (demoReal 4) (demoPrev (Flt ℤ)) []).map (fun st => decide (∃ c ∈ st.sols, c.evaluated = true ∧ c.chrom = [.fin 6, .fin 5] ∧ c.fitness = [.fin 3, .fin 5])) = some true := by
    decide +kernel
  obtain ⟨final, h1, h2⟩ := Option.map_eq_some_iff.mp this
  obtain ⟨c, hc, he, h3, h4⟩ := of_decide_eq_true h2
  refine ⟨demoReal 4, ⟨1, 0⟩, demoPrev (Flt ℤ), final, _, _, rfl, demoReal_run 4, h1, c, hc, he, ?_⟩
  rw [h3, h4]
  intro y hy hf
  change floatVecIsEqual ⟨1, 0⟩ [.fin 6, .fin 5] y = true at hy
  change [y.getD 0 .ninf, y.getD 1 .ninf] = [Flt.fin 3, .fin 5] at hf
  match y with
  | [] => simp at hf
  | [a] => simp at hf
  | [a, b] =>
    simp only [List.getD_cons_zero, List.getD_cons_succ, List.cons.injEq, and_true] at hf
    obtain ⟨rfl, rfl⟩ := hf
    revert hy
    decide +kernel
  | a :: b :: d :: l => simp [floatVecIsEqual] at hy

/-- The candidates of the run `demoReal` after `n` generations: the chromosome has changed `n` times, the fitness never. -/
def drifted (n : Nat) : Cand (Flt ℤ) (FVec ℤ) := ⟨[.fin (3 + (n : ℤ)), .fin 5], [.fin 3, .fin 5], true⟩

theorem drift_eq (n : Nat) : floatVecIsEqual (⟨1, 0⟩ : Tol ℤ) [.fin (3 + ((n + 1 : Nat) : ℤ)), .fin 5] [.fin (3 + (n : ℤ)), .fin 5] = true := by
  have h1 : |(3 + ((n + 1 : Nat) : ℤ)) - (3 + (n : ℤ))| ≤ 1 := by push_cast; rw [show (3 + ((n : ℤ) + 1) - (3 + (n : ℤ))) = 1 by ring]; simp
  simp [floatVecIsEqual, floatIsEqual, Tol.at]

theorem drift_same (n : Nat) : floatVecIsEqual (⟨1, 0⟩ : Tol ℤ) (drifted n).chrom (drifted n).chrom = true := by
  simp [drifted, floatVecIsEqual, floatIsEqual, Tol.at]

theorem drift_pop (m n : Nat) : ∀ (st : GaState (Flt ℤ) (FVec ℤ) Unit (FVec ℤ)), gaGens (demoReal m) (demoPrev (Flt ℤ)) [] n = some st → st.pop = [drifted n, drifted n] := by
  induction n with
  | zero =>
      intro st h
      have hr := (demoReal_run m).runOk
      obtain ⟨-, -, he, -⟩ := gaInit_spec _ _ _ _ _ _ hr st h
      obtain ⟨h1, -⟩ := evalAll_spec _ hr.dynCache _ _ _ _ _ _ he
      change st.pop = _ at h1
      rw [h1]
      simp [generatePopulation, fillPopulation, evalOne, needsEval, demoReal, demoEnv, drifted]
  | succ n ih =>
      intro st h
      have h' := h
      rw [gaGens_succ, Option.bind_eq_some_iff] at h'
      obtain ⟨st0, h0, hadv⟩ := h'
      replace ih := ih st0 h0
      have hr := (demoReal_run m).runOk
      obtain ⟨i0, hg⟩ := gaGens_inv _ _ _ _ _ _ hr n st0 h0
      obtain ⟨-, children, ec, hch, -, hev, ⟨idx, hidx, -, hat⟩, -⟩ := advance_spec _ _ _ _ hr.alg hr.eqOk hr.fitOk hr.dynCache hr.lenOk st0 st i0 hadv
      have hc : children = [drifted n, drifted n] := by
        have : makeChildren (demoReal m) { st0 with alg := (demoReal m).algPrepare st0.alg st0.fmat } ((demoReal m).algPrepare st0.alg st0.fmat) = some [drifted n, drifted n] := by
          unfold makeChildren makePair
          simp [ih, demoReal, demoEnv, crossoverOp, assignAt, List.range_succ, drift_same]
        rw [this] at hch
        exact (Option.some.inj hch).symm
      subst hc
      obtain ⟨he, -⟩ := evalAll_spec _ hr.dynCache _ _ _ _ _ _ hev
      have hm : mutationOp (demoReal m).eq ((demoReal m).mutate (st0.gen + 1) 0) (drifted n) = drifted (n + 1) := by
        rw [hg]
        have := drift_eq n
        push_cast at this
        simp only [mutationOp, demoReal, demoEnv, drifted] at this ⊢
        simp [this]
      have hm1 : mutationOp (demoReal m).eq ((demoReal m).mutate (st0.gen + 1) 1) (drifted n) = drifted (n + 1) := hm
      have hec : ec = [drifted (n + 1), drifted (n + 1)] := by
        change ec = _ at he
        rw [he]
        have e : ∀ c : Cand (Flt ℤ) (FVec ℤ), repairOp (demoReal m).repair c = c := fun _ => rfl
        have e2 : evalOne (demoReal m) st0.cache (drifted (n + 1)) = drifted (n + 1) := by
          unfold evalOne
          rw [if_pos (by rfl)]
        simp only [List.zipIdx_cons, List.zipIdx_nil, List.map_cons, List.map_nil, e, hm, hm1, e2]
      rw [ih, hec] at hat
      have hi : idx = [2, 3] := hidx
      rw [hi] at hat
      unfold AtPositions at hat
      have : st.pop.map some = [drifted (n + 1), drifted (n + 1)].map some := hat.symm
      exact List.map_injective_iff.mpr (Option.some_injective _) this

/-- C22: with one tolerance for the comparisons of the genes, the distance between the chromosome of an evaluated candidate and all the chromosomes that have the fitness stored in it can become larger
than any number. -/
theorem C22_real_genes_drift_unbounded (d : ℤ) : ∃ (env : GaEnv (Flt ℤ) ℤ Unit Unit (FVec ℤ)) (prev st : GaState (Flt ℤ) (FVec ℤ) Unit (FVec ℤ)) (I J : Unit → List (FVec ℤ) → Prop) (n : Nat),
    env.eq = floatVecIsEqual ⟨1, 0⟩ ∧ AnyRun env prev [] I J ∧ n < env.maxGen ∧ gaGens env prev [] n = some st ∧
      ∃ c ∈ st.pop, c.evaluated = true ∧ ∃ a, c.chrom[0]? = some (.fin a) ∧ ∀ y, env.fitness y = c.fitness → ∃ b, y[0]? = some (.fin b) ∧ d < |a - b| := by
  obtain ⟨st, hst⟩ := C22_progress_any_genes (demoReal_run (d.natAbs + 2)) (demoReal_tolerant _) (d.natAbs + 1)
  have hst' : gaGens (demoReal (d.natAbs + 2)) (demoPrev (Flt ℤ)) [] (d.natAbs + 1) = some st := by convert hst
  refine ⟨demoReal (d.natAbs + 2), _, st, _, _, d.natAbs + 1, rfl, demoReal_run _, Nat.lt_succ_self _, hst', drifted (d.natAbs + 1), ?_, rfl, _, rfl, ?_⟩
  · rw [drift_pop _ _ st hst']; simp
  · intro y hy
    change [y.getD 0 .ninf, y.getD 1 .ninf] = [Flt.fin 3, .fin 5] at hy
    match y with
    | [] => simp at hy
    | a :: y =>
      simp only [List.getD_cons_zero, List.cons.injEq] at hy
      obtain ⟨rfl, -⟩ := hy
      refine ⟨3, rfl, ?_⟩
      have h1 := le_abs_self (3 + ((d.natAbs + 1 : Nat) : ℤ) - 3)
      omega
end Gapp.Props
