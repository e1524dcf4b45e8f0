import Mathlib.Data.List.Sort
import Verif.Proofs.GaSolve
import Verif.Props.Scope
/-!
# C22–C25, C55: whole runs of the genetic algorithm
-/

namespace Gapp.Props
open Gapp.Model Gapp.Spec

section
variable {G K A S V : Type} [DecidableEq G] [CommRing K] [LinearOrder K]

/-- `v` is the fitness of the chromosome `x`. -/
abbrev TrueFitness (env : GaEnv G K A S V) (x : List G) (v : FVec K) : Prop := v = env.fitness x

/-- The assumptions on a run with genes that are compared exactly. The algorithm fulfils its contract, the fitness function returns vectors of one length, and user-supplied candidates that are
marked as evaluated have the right fitness. A dynamic fitness function is only used with the cache turned off. The cache is any one that earlier runs may have left. -/
structure ExactRun (env : GaEnv G K A S V) (prev : GaState G (FVec K) A V) (initial : List (Cand G (FVec K))) (I J : A → List (FVec K) → Prop) : Prop where
  alg : AlgContract env I J
  exact : env.eq = exactEq
  lengths : ∀ x, (env.fitness x).length = env.numObj
  dynCache : env.dynamic = true → env.cachedGens = 0
  initial : ∀ c ∈ initial, Truthful env.fitness c
  prevCache : ∃ d, prev.cache.Repr d

theorem ExactRun.runOk {env : GaEnv G K A S V} {prev : GaState G (FVec K) A V} {initial : List (Cand G (FVec K))} {I J : A → List (FVec K) → Prop} (h : ExactRun env prev initial I J) :
    RunOk env prev initial (TrueFitness env) I J where
  alg := h.alg
  eqOk := by
    intro a b v hab hb
    rw [h.exact] at hab
    have : a = b := of_decide_eq_true hab
    rw [this]; exact hb
  fitOk := fun _ => rfl
  lenOk := by intro x v hv; exact ⟨by rw [hv]; exact h.lengths x, x, hv⟩
  dynCache := h.dynCache
  initialOk := h.initial
  prevCache := h.prevCache

/-- **C22**, for genes that are compared exactly (bits, integers, permutations). After the initialization and after every generation the population has the configured size, all the candidates
are evaluated and have their true fitness, and the rows of the fitness matrix are those of the candidates; with or without a cache, for all operators, random outcomes and schedules. -/
theorem C22_population_invariant_partial {env : GaEnv G K A S V} {prev : GaState G (FVec K) A V} {initial : List (Cand G (FVec K))} {I J : A → List (FVec K) → Prop}
    (h : ExactRun env prev initial I J) (n : Nat) (st : GaState G (FVec K) A V) (hst : gaGens env prev initial n = some st) :
    st.pop.length = env.popSize ∧ (∀ c ∈ st.pop, c.evaluated = true ∧ c.fitness = env.fitness c.chrom) ∧ st.fmat = st.pop.map (·.fitness) := by
  obtain ⟨inv, -⟩ := gaGens_inv env prev initial _ I J h.runOk n st hst
  exact ⟨inv.size, inv.evaluated, inv.fmat⟩

/-- C22 for any comparison of the candidates, in particular the approximate one of real genes: sizes, flags and the fitness matrix are as before, and the fitness of a candidate is that of a
chromosome that is connected with its own by chromosomes of which each compares equal to the next one. -/
theorem C22_population_invariant_approximate {env : GaEnv G K A S V} {prev : GaState G (FVec K) A V} {initial : List (Cand G (FVec K))} {I J : A → List (FVec K) → Prop}
    (hA : AlgContract env I J) (hlen : ∀ x, (env.fitness x).length = env.numObj) (hdyn : env.dynamic = true → env.cachedGens = 0) (hinit : ∀ c ∈ initial, Truthful env.fitness c)
    (hprev : ∃ d, prev.cache.Repr d) (n : Nat) (st : GaState G (FVec K) A V) (hst : gaGens env prev initial n = some st) :
    st.pop.length = env.popSize ∧ (∀ c ∈ st.pop, c.evaluated = true ∧ ∃ y, Relation.ReflTransGen (fun a b => env.eq a b = true) c.chrom y ∧ c.fitness = env.fitness y) ∧
      st.fmat = st.pop.map (·.fitness) := by
  have h : RunOk env prev initial (fun x v => ∃ y, Relation.ReflTransGen (fun a b => env.eq a b = true) x y ∧ v = env.fitness y) I J :=
    { alg := hA
      eqOk := fun a b v hab ⟨y, h1, h2⟩ => ⟨y, Relation.ReflTransGen.head hab h1, h2⟩
      fitOk := fun x => ⟨x, Relation.ReflTransGen.refl, rfl⟩
      lenOk := by rintro x v ⟨y, -, rfl⟩; exact ⟨hlen y, y, rfl⟩
      dynCache := hdyn
      initialOk := fun c hc he => ⟨c.chrom, Relation.ReflTransGen.refl, hinit c hc he⟩
      prevCache := hprev }
  obtain ⟨inv, -⟩ := gaGens_inv env prev initial _ I J h n st hst
  exact ⟨inv.size, inv.evaluated, inv.fmat⟩

/-- C24: `solve` consults the stop condition once in each generation, beginning with the initial one, and ends with the first generation in which the condition holds or whose number is
`max_gen - 1`; `generation_cntr()` is then the number of generations performed. -/
theorem C24_stops {env : GaEnv G K A S V} {prev : GaState G (FVec K) A V} {initial : List (Cand G (FVec K))} {I J : A → List (FVec K) → Prop} (h : ExactRun env prev initial I J)
    (final : GaState G (FVec K) A V) (hf : gaSolve env prev initial = some final) :
    ∃ (k : Nat) (ss : Nat → S) (sts : Nat → GaState G (FVec K) A V), (∀ i, i ≤ k → gaGens env prev initial i = some (sts i)) ∧ ss 0 = env.stopInit (sts 0) ∧
      (∀ i, i < k → env.stop (ss i) (sts i) = (ss (i + 1), false)) ∧ ((env.stop (ss k) (sts k)).2 = true ∨ env.maxGen ≤ k + 1) ∧ (1 ≤ env.maxGen → k ≤ env.maxGen - 1) ∧
      final.gen = k ∧ final.pop = (sts k).pop ∧ final.fmat = (sts k).fmat ∧ final.evals = (sts k).evals ∧ final.stats = (sts k).stats ∧ final.evalsMon = (sts k).evalsMon ∧
      final.calls = (sts k).calls ∧
      (if env.keepAll then final.sols = (sts k).sols else ∃ st', updateOptimal env (sts k) = some st' ∧ final.sols = st'.sols) := by
  unfold gaSolve at hf
  simp only [Option.bind_eq_bind] at hf
  rw [Option.bind_eq_some_iff] at hf
  obtain ⟨st0, h0, hf⟩ := hf
  rw [Option.bind_eq_some_iff] at hf
  obtain ⟨st1, h1, hf⟩ := hf
  obtain ⟨k, ss, sts, t1, t2, t3, t4, t5⟩ := solveLoop_trace env _ (gaGens_succ env prev initial) _ 0 _ st0 st1 h0 h1
  simp only [Nat.zero_add] at t2
  have hgen : ∀ i, i ≤ k → (sts i).gen = i := fun i hi => (gaGens_inv env prev initial _ I J h.runOk i _ (t2 i hi)).2
  have hst0 : sts 0 = st0 := by
    have := t2 0 (Nat.zero_le _)
    rw [show gaGens env prev initial 0 = some st0 from h0] at this
    exact (Option.some.inj this).symm
  have hk : final = st1 ∨ ∃ st', updateOptimal env st1 = some st' ∧ final = st' := by
    split at hf
    · exact Or.inl (Option.some.inj hf).symm
    · exact Or.inr ⟨_, hf, rfl⟩
  have hsame : final.gen = st1.gen ∧ final.pop = st1.pop ∧ final.fmat = st1.fmat ∧ final.evals = st1.evals ∧ final.stats = st1.stats ∧ final.evalsMon = st1.evalsMon ∧ final.calls = st1.calls := by
    rcases hk with rfl | ⟨st', hu, rfl⟩
    · exact ⟨rfl, rfl, rfl, rfl, rfl, rfl, rfl⟩
    · obtain ⟨sols, rfl⟩ := updateOptimal_same env _ _ hu
      exact ⟨rfl, rfl, rfl, rfl, rfl, rfl, rfl⟩
  obtain ⟨e1, e2, e3, e4, e5, e6, e7⟩ := hsame
  rw [t3] at e1 e2 e3 e4 e5 e6 e7
  refine ⟨k, ss, sts, t2, by rw [t1, hst0], fun i hi => (t4 i hi).1, by have := hgen k (Nat.le_refl _); rw [this] at t5; exact t5, ?_, by rw [e1]; exact hgen k (Nat.le_refl _), e2, e3, e4, e5, e6, e7, ?_⟩
  · intro hm
    cases k with
    | zero => omega
    | succ k =>
      have := (t4 k (by omega)).2
      rw [hgen k (by omega)] at this
      omega
  · split at hf
    · rename_i hkeep
      rw [if_pos hkeep, ← t3]
      exact congrArg _ (Option.some.inj hf).symm
    · rename_i hkeep
      rw [if_neg hkeep, ← t3]
      exact ⟨_, hf, rfl⟩

/-- **C25**, except for the one call that is not counted: at every generation the number of calls of the fitness function is one more than `num_fitness_evals()`. (The additional call is the one
that finds the number of objectives.) -/
theorem C25_evaluation_count_partial {env : GaEnv G K A S V} {prev : GaState G (FVec K) A V} {initial : List (Cand G (FVec K))} {I J : A → List (FVec K) → Prop}
    (h : ExactRun env prev initial I J) (n : Nat) (st : GaState G (FVec K) A V) (hst : gaGens env prev initial n = some st) : st.calls.length = st.evals + 1 :=
  gaGens_calls env prev initial _ I J h.runOk n st hst

/-- C25: the parallel evaluation of a list of candidates, for every schedule that completes it. The fitness function is called exactly once for each candidate that is not evaluated (or for all,
if it is dynamic) and whose chromosome is not in the cache, and the counter increases by the number of these calls. All the candidates are then evaluated and their chromosomes are unchanged. -/
theorem C25_evaluated_once (env : GaEnv G K A S V) (hdyn : env.dynamic = true → env.cachedGens = 0) (cache : FifoCache (List G) (FVec K)) (cands : List (Cand G (FVec K))) (evals : Nat)
    (calls : List (List G)) (sched : List Nat) (cands' : List (Cand G (FVec K))) (evals' : Nat) (calls' : List (List G))
    (h : evalAll env cache cands evals calls sched = some (cands', evals', calls')) :
    ∃ new : List (List G), calls' = calls ++ new ∧ evals' = evals + new.length ∧
      new.Perm ((cands.filter (fun c => (env.dynamic || !c.evaluated) && (decide (env.cachedGens = 0) || (cache.get c.chrom).isNone))).map (·.chrom)) ∧
      cands'.map (·.chrom) = cands.map (·.chrom) ∧ ∀ c ∈ cands', c.evaluated = true := by
  obtain ⟨h1, h2, l, h3, h4⟩ := evalAll_spec env hdyn cache cands evals calls sched _ h
  dsimp only at h1 h2 h3
  have hfe : (fun c : Cand G (FVec K) => (env.dynamic || !c.evaluated) && (decide (env.cachedGens = 0) || (cache.get c.chrom).isNone)) = needsEval env cache := by
    funext c
    simp only [needsEval, Bool.not_and, Bool.not_not]
  refine ⟨l, h3, by rw [h2, h4.length_eq, List.length_map], by rw [hfe]; exact h4, ?_, ?_⟩
  · rw [h1, List.map_map]
    apply List.map_congr_left
    intro c _
    simp only [Function.comp, evalOne]
    split
    · rfl
    · split <;> rfl
  · rw [h1]
    intro c hc
    obtain ⟨c0, -, rfl⟩ := List.mem_map.mp hc
    unfold evalOne
    split
    · rename_i hh
      cases he : c0.evaluated with
      | true => rfl
      | false => simp [he] at hh
    · split <;> rfl

/-- C25: a schedule in which every task gets enough steps completes the evaluation. -/
theorem C25_evaluation_completes (env : GaEnv G K A S V) (hdyn : env.dynamic = true → env.cachedGens = 0) (cache : FifoCache (List G) (FVec K)) (cands : List (Cand G (FVec K)))
    (evals : Nat) (calls : List (List G)) (sched : List Nat) (hs : ∀ i, i < cands.length → 3 ≤ sched.count i) : ∃ res, evalAll env cache cands evals calls sched = some res :=
  evalAll_completes env hdyn cache cands evals calls sched hs

/-- **C55.** After the generation `n`, every tracked metric has `n + 1` values, and the value number `i` is computed from the fitness matrix of generation `i`; those of earlier runs are gone. The
first `i + 1` values of the metric `FitnessEvaluations` add up to the number of evaluations up to generation `i`. -/
theorem C55_metrics {env : GaEnv G K A S V} {prev : GaState G (FVec K) A V} {initial : List (Cand G (FVec K))} {I J : A → List (FVec K) → Prop}
    (h : ExactRun env prev initial I J) (n : Nat) (st : GaState G (FVec K) A V) (hst : gaGens env prev initial n = some st) :
    ∃ sts : Nat → GaState G (FVec K) A V, (∀ i, i ≤ n → gaGens env prev initial i = some (sts i)) ∧
      st.stats.length = prev.stats.length ∧
      (∀ (j : Nat) (m m0 : Monitor (FVec K) V), st.stats[j]? = some m → prev.stats[j]? = some m0 →
        m.data.length = n + 1 ∧ ∀ i, i ≤ n → m.data[i]? = some (m0.compute (sts i).fmat)) ∧
      st.evalsMon.data.length = n + 1 ∧ ∀ i, i ≤ n → (st.evalsMon.data.take (i + 1)).sum = (sts i).evals := by
  obtain ⟨sts, h1, h2, h3, -, h5⟩ := gaGens_stats env prev initial _ I J h.runOk n st hst
  refine ⟨sts, h1, by rw [h2, List.length_map], ?_, h3, h5⟩
  intro j m m0 hm hm0
  rw [h2, List.getElem?_map, hm0] at hm
  obtain rfl := Option.some.inj hm
  refine ⟨by simp, fun i hi => ?_⟩
  have : i < n + 1 := by omega
  simp [this]

end

section
variable {G K A S V : Type} [LinearOrder G] [CommRing K] [LinearOrder K] [IsStrictOrderedRing K]

/-- The run can be completed: every schedule has enough steps. If all the optimal solutions are kept the comparisons are exact and the algorithm's optimal solutions are right. -/
structure CompleteRun (env : GaEnv G K A S V) (I : A → List (FVec K) → Prop) : Prop where
  evalSched : ∀ g i, i < env.popSize → 3 ≤ (env.evalSched g).count i
  mergeSched : ∀ g l r i, i < max l r → 2 * min l r ≤ (env.mergeSched g l r).count i
  tol : env.tol = ⟨0, 0⟩
  optimal : OptimalContract env I
  sort : SortSolsOk env

/-- C22: no generation fails. -/
theorem C22_progress {env : GaEnv G K A S V} {prev : GaState G (FVec K) A V} {initial : List (Cand G (FVec K))} {I J : A → List (FVec K) → Prop}
    (h : ExactRun env prev initial I J) (hc : CompleteRun env I) (n : Nat) : ∃ st, gaGens env prev initial n = some st :=
  gaGens_ok env prev initial _ I J h.runOk hc.evalSched (fun _ => ⟨hc.tol, hc.optimal, hc.mergeSched⟩) n

/-- C24: `solve` always ends, whatever the stop condition does. -/
theorem C24_ends {env : GaEnv G K A S V} {prev : GaState G (FVec K) A V} {initial : List (Cand G (FVec K))} {I J : A → List (FVec K) → Prop}
    (h : ExactRun env prev initial I J) (hc : CompleteRun env I) : ∃ final, gaSolve env prev initial = some final := by
  obtain ⟨st0, h0⟩ := C22_progress h hc 0
  obtain ⟨st1, h1⟩ := solveLoop_ends env _ (gaGens_succ env prev initial) (fun n st hn => (gaGens_inv env prev initial _ I J h.runOk n st hn).2) (C22_progress h hc) (env.maxGen + 1) 0
    (env.stopInit st0) st0 h0 (by omega) (by omega)
  have h0' : gaInit env prev initial = some st0 := h0
  unfold gaSolve
  simp only [Option.bind_eq_bind, h0', Option.bind_some, h1]
  split
  · exact ⟨_, rfl⟩
  · obtain ⟨k, ss, sts, -, t2, t3, -⟩ := solveLoop_trace env _ (gaGens_succ env prev initial) _ 0 _ st0 st1 h0 h1
    have := t2 k (Nat.le_refl _)
    rw [← t3] at this
    exact updateOptimal_ok env hc.tol _ I hc.optimal h.runOk.lenOk hc.mergeSched st1 (gaGens_inv env prev initial _ I J h.runOk _ _ this).1

/-- What a user expects of the returned solutions, when `seen` are the candidates they are chosen from. -/
structure OptimalAmong (f : List G → FVec K) (seen : Cand G (FVec K) → Prop) (sols : List (Cand G (FVec K))) : Prop where
  /-- the solutions were found in the run and have their true fitness -/
  found : ∀ c ∈ sols, seen c ∧ c.evaluated = true ∧ c.fitness = f c.chrom
  /-- nothing that was found dominates a solution -/
  optimal : ∀ c ∈ sols, ∀ x, seen x → ¬ ExactDominates x.fitness c.fitness
  /-- everything found that is not dominated is represented, by a solution with the same chromosome and fitness -/
  complete : ∀ x, seen x → (∀ y, seen y → ¬ ExactDominates y.fitness x.fitness) → ∃ c ∈ sols, c.chrom = x.chrom ∧ c.fitness = x.fitness

/-- **C23** without `keep_all_optimal_solutions`: the returned solutions have different chromosomes, and are the non-dominated ones of the last population. -/
theorem C23_solutions_last_population {env : GaEnv G K A S V} {prev : GaState G (FVec K) A V} {initial : List (Cand G (FVec K))} {I J : A → List (FVec K) → Prop}
    (h : ExactRun env prev initial I J) (hc : CompleteRun env I) (hk : env.keepAll = false) (final : GaState G (FVec K) A V) (hf : gaSolve env prev initial = some final) :
    (final.sols.map (·.chrom)).Nodup ∧ OptimalAmong env.fitness (· ∈ final.pop) final.sols := by
  obtain ⟨k, ss, sts, t1, -, -, -, -, -, e2, -, -, -, -, -, e7⟩ := C24_stops h final hf
  rw [if_neg (by simp [hk])] at e7
  obtain ⟨st', hu, e8⟩ := e7
  have inv := (gaGens_inv env prev initial _ I J h.runOk k _ (t1 k (Nat.le_refl _))).1
  have hempty : ∀ n st, gaGens env prev initial n = some st → st.sols = [] := by
    intro n
    induction n with
    | zero =>
      intro st hst
      obtain ⟨_, _, _, _, hs, _⟩ := gaInit_spec env prev initial _ I J h.runOk st hst
      unfold initialSols at hs
      rw [if_neg (by simp [hk])] at hs
      exact (Option.some.inj hs).symm
    | succ n ih =>
      intro st hst
      rw [gaGens_succ, Option.bind_eq_some_iff] at hst
      obtain ⟨st0, h0, hadv⟩ := hst
      obtain ⟨i0, -⟩ := gaGens_inv env prev initial _ I J h.runOk n st0 h0
      obtain ⟨_, _, _, _, _, _, _, _, _, _, hs, _⟩ := advance_spec env _ I J h.alg h.runOk.eqOk h.runOk.fitOk h.dynCache h.runOk.lenOk st0 st i0 hadv
      rw [hs hk]; exact ih st0 h0
  have hs0 := hempty k _ (t1 k (Nat.le_refl _))
  obtain ⟨u1, u2, u3⟩ := updateOptimal_spec env hc.tol _ I hc.optimal h.runOk.lenOk hc.sort (sts k) st' inv (by rw [hs0]; simp) (by rw [hs0]; simp) hu
  rw [← e8] at u1 u2 u3
  rw [← e2] at u2 u3
  simp only [hs0, List.not_mem_nil, false_or, false_imp_iff, implies_true, and_true] at u2 u3
  have hev : ∀ c ∈ final.pop, c.evaluated = true ∧ c.fitness = env.fitness c.chrom := by rw [e2]; exact inv.evaluated
  refine ⟨u1, ⟨fun c hc => ⟨(u2 c hc).1, hev c (u2 c hc).1⟩, fun c hc => (u2 c hc).2, ?_⟩⟩
  intro x hx hn
  obtain ⟨c, hcs, he⟩ := u3 x hx hn trivial
  exact ⟨c, hcs, he, by rw [(hev c (u2 c hcs).1).2, (hev x hx).2, he]⟩

/-- **C23** with `keep_all_optimal_solutions`: the returned solutions are the non-dominated ones of all the populations of the run. Their chromosomes are different if at least one generation was
performed after the initial one. -/
theorem C23_solutions_all_populations_partial {env : GaEnv G K A S V} {prev : GaState G (FVec K) A V} {initial : List (Cand G (FVec K))} {I J : A → List (FVec K) → Prop}
    (h : ExactRun env prev initial I J) (hc : CompleteRun env I) (hk : env.keepAll = true) (final : GaState G (FVec K) A V) (hf : gaSolve env prev initial = some final) :
    OptimalAmong env.fitness (fun c => ∃ i st, i ≤ final.gen ∧ gaGens env prev initial i = some st ∧ c ∈ st.pop) final.sols ∧
      (1 ≤ final.gen → (final.sols.map (·.chrom)).Nodup) := by
  obtain ⟨k, ss, sts, t1, -, -, -, -, e1, -, -, -, -, -, -, e7⟩ := C24_stops h final hf
  rw [if_pos hk] at e7
  obtain ⟨⟨a1, a2, a3⟩, a4⟩ := gaGens_archive env prev initial _ I J h.runOk (fun x v w hv hw => hv.trans hw.symm) hc.tol hc.optimal hc.sort hk k _ (t1 k (Nat.le_refl _))
  rw [← e7] at a1 a2 a3 a4
  rw [e1]
  have hpop : ∀ i, i ≤ k → ((gaGens env prev initial i).map (·.pop)).getD [] = (sts i).pop := fun i hi => by rw [t1 i hi]; rfl
  have hev : ∀ i, i ≤ k → ∀ c ∈ (sts i).pop, c.evaluated = true ∧ c.fitness = env.fitness c.chrom := fun i hi =>
    (gaGens_inv env prev initial _ I J h.runOk i _ (t1 i hi)).1.evaluated
  have hseen : ∀ c, (∃ i st, i ≤ k ∧ gaGens env prev initial i = some st ∧ c ∈ st.pop) ↔ ∃ i, i ≤ k ∧ c ∈ (sts i).pop := by
    intro c
    constructor
    · rintro ⟨i, st, hi, hst, hc⟩
      rw [t1 i hi] at hst
      obtain rfl := Option.some.inj hst
      exact ⟨i, hi, hc⟩
    · rintro ⟨i, hi, hc⟩
      exact ⟨i, _, hi, t1 i hi, hc⟩
  refine ⟨⟨?_, ?_, ?_⟩, a4⟩
  · intro c hc
    obtain ⟨i, hi, hci⟩ := a1 c hc
    rw [hpop i hi] at hci
    exact ⟨(hseen c).mpr ⟨i, hi, hci⟩, hev i hi c hci⟩
  · intro c hc x hx
    obtain ⟨i, hi, hxi⟩ := (hseen x).mp hx
    exact a2 c hc i hi x (by rw [hpop i hi]; exact hxi)
  · intro x hx hn
    obtain ⟨i, hi, hxi⟩ := (hseen x).mp hx
    obtain ⟨c, hcs, he⟩ := a3 i hi x (by rw [hpop i hi]; exact hxi) (by
      intro j hj y hy
      rw [hpop j hj] at hy
      exact hn y ((hseen y).mpr ⟨j, hj, hy⟩))
    refine ⟨c, hcs, he, ?_⟩
    obtain ⟨j, hj, hcj⟩ := a1 c hcs
    rw [hpop j hj] at hcj
    rw [(hev j hj c hcj).2, (hev i hi x hxi).2, he]

/-- C23: no returned solution dominates another one. -/
theorem C23_solutions_mutually_nondominated {f : List G → FVec K} {seen : Cand G (FVec K) → Prop} {sols : List (Cand G (FVec K))} (h : OptimalAmong f seen sols) :
    ∀ x ∈ sols, ∀ y ∈ sols, ¬ ExactDominates x.fitness y.fitness := fun x hx y hy => h.optimal y hy x (h.found x hx).1
end

/-! ## `max_gen` -/

/-- ga_base.impl.hpp:540-558: the body of `solve` as a program with a guard; `rest` is everything after `max_gen(generations)`, which may throw. -/
def solveProgram {N V ρ : Type} [DecidableEq N] (maxGen : N) (generations : V) (rest : GuardProg (Store N V ρ)) : GuardProg (Store N V ρ) :=
  restoreOnExit [maxGen] (.seq (.code (fun s => (s.set maxGen generations, .normal))) rest)

/-- **C24**: after `solve`, `max_gen()` has its previous value, even if an exception leaves it, whatever the rest of it does; in between it starts with the value passed to `solve`. -/
theorem C24_max_gen_restored {N V ρ : Type} [DecidableEq N] (maxGen : N) (generations : V) (rest : GuardProg (Store N V ρ)) (s : Store N V ρ) :
    ((solveProgram maxGen generations rest).exec s).1.vars maxGen = s.vars maxGen ∧
      ∃ s1, s1.vars maxGen = generations ∧ s1.rest = s.rest ∧ ((solveProgram maxGen generations rest).exec s).2 = (rest.exec s1).2 ∧
        ((solveProgram maxGen generations rest).exec s).1.rest = (rest.exec s1).1.rest := by
  obtain ⟨s3, h1, h2, -, h4⟩ := C50_restore_on_exit [maxGen] (.seq (.code (fun s => (s.set maxGen generations, .normal))) rest) s
  unfold solveProgram
  rw [h1]
  refine ⟨h2 maxGen (by simp), s.set maxGen generations, by simp [Store.set], rfl, rfl, ?_⟩
  rw [h4]; rfl

example : ((solveProgram true 100 (.code (fun s : Store Bool Nat Nat => ({ s with rest := s.vars true }, .exception)))).exec ⟨fun _ => 7, 0⟩).1.rest = 100 ∧
    ((solveProgram true 100 (.code (fun s : Store Bool Nat Nat => ({ s with rest := s.vars true }, .exception)))).exec ⟨fun _ => 7, 0⟩).1.vars true = 7 ∧
    ((solveProgram true 100 (.code (fun s : Store Bool Nat Nat => ({ s with rest := s.vars true }, .exception)))).exec ⟨fun _ => 7, 0⟩).2 = .exception := by
  decide

/-! ## Cases that meet the assumptions, and cases that show why they are needed -/

/-- A state before the first run; one metric is tracked. -/
def demoPrev (G : Type) : GaState G (FVec ℤ) Unit (FVec ℤ) :=
  ⟨[], [], [], FifoCache.init 0 0, 0, [], 0, (), [⟨fun m => m.headD [], []⟩], ⟨0, []⟩⟩

/-- A run over two genes with two objectives. The children replace the parents. The mutation adds one to the first gene of the first child of each generation. -/
def demoEnv (G : Type) (eq : List G → List G → Bool) (fitness : List G → FVec ℤ) (generate : Nat → List G) (mutate : Nat → Nat → Cand G (FVec ℤ) → List G)
    (sortSols : List (Cand G (FVec ℤ)) → List (Cand G (FVec ℤ))) (keepAll : Bool) (cachedGens : Nat) (maxGen : Nat) : GaEnv G ℤ Unit Unit (FVec ℤ) where
  popSize := 2
  cachedGens := cachedGens
  dynamic := false
  keepAll := keepAll
  maxGen := maxGen
  tol := ⟨0, 0⟩
  fitness := fitness
  numObj := 2
  eq := eq
  repair := none
  generate := generate
  crossRate := 1
  crossDraw := fun _ _ => 0
  crossMethod := fun _ _ p q => (p, q)
  mutate := mutate
  algInit := fun _ => ()
  algPrepare := fun _ _ => ()
  algSelect := fun _ _ _ k => k % 2
  algNext := fun _ _ _ => ([2, 3], ())
  algOptimal := fun _ => []
  stopInit := fun _ => ()
  stop := fun _ _ => ((), false)
  sortSols := sortSols
  evalSched := fun _ => [1, 0, 0, 1, 0, 1]
  mergeSched := fun _ l r => (List.replicate (2 * min l r) (List.range (max l r))).flatten
  cacheExtra := 0

/-- The fitness of the demo: the two genes, the second one with the opposite sign. -/
def demoFitness (x : List ℤ) : FVec ℤ := [.fin (x.getD 0 0), .fin (- x.getD 1 0)]

/-- Sorting by chromosome. -/
def demoSort (l : List (Cand ℤ (FVec ℤ))) : List (Cand ℤ (FVec ℤ)) := l.insertionSort (fun a b => a.chrom ≤ b.chrom)

/-- The demo with integer genes. -/
def demoInt (keepAll : Bool) (cachedGens maxGen : Nat) : GaEnv ℤ ℤ Unit Unit (FVec ℤ) :=
  demoEnv ℤ exactEq demoFitness (fun k => [(k : ℤ) % 3, (k : ℤ) % 2]) (fun g k c => if k = 0 then (c.chrom.getD 0 0 + (g : ℤ)) :: c.chrom.drop 1 else c.chrom) demoSort keepAll cachedGens maxGen

theorem demo_alg (G : Type) (eq : List G → List G → Bool) (fitness : List G → FVec ℤ) (generate : Nat → List G) (mutate : Nat → Nat → Cand G (FVec ℤ) → List G)
    (sortSols : List (Cand G (FVec ℤ)) → List (Cand G (FVec ℤ))) (keepAll : Bool) (cachedGens maxGen : Nat) :
    AlgContract (demoEnv G eq fitness generate mutate sortSols keepAll cachedGens maxGen) (fun _ _ => True) (fun _ _ => True) where
  init := fun _ _ _ => trivial
  prepare := fun _ _ _ _ _ => trivial
  select := fun _ _ _ k _ _ _ => Nat.mod_lt _ (by decide)
  next := fun _ _ _ _ _ _ => ⟨⟨rfl, (by decide : [2, 3].Nodup), (by decide : ∀ i ∈ [2, 3], i < 4)⟩, fun _ _ => trivial⟩

theorem demo_exact (keepAll : Bool) (cachedGens maxGen : Nat) (initial : List (Cand ℤ (FVec ℤ))) (h : ∀ c ∈ initial, c.evaluated = false) :
    ExactRun (demoInt keepAll cachedGens maxGen) (demoPrev ℤ) initial (fun _ _ => True) (fun _ _ => True) where
  alg := demo_alg _ _ _ _ _ _ _ _ _
  exact := rfl
  lengths := fun _ => rfl
  dynCache := fun h => by cases h
  initial := fun c hc he => by rw [h c hc] at he; cases he
  prevCache := ⟨_, FifoCache.repr_init 0 0⟩

theorem demo_complete (keepAll : Bool) (cachedGens maxGen : Nat) : CompleteRun (demoInt keepAll cachedGens maxGen) (fun _ _ => True) where
  evalSched := fun _ i hi => by
    have hi : i < 2 := hi
    show 3 ≤ List.count i [1, 0, 0, 1, 0, 1]
    match i, hi with
    | 0, _ => decide
    | 1, _ => decide
  mergeSched := fun _ l r i hi => by
    show _ ≤ (List.replicate (2 * min l r) (List.range (max l r))).flatten.count i
    rw [List.count_flatten, List.map_replicate, List.sum_replicate, List.count_eq_one_of_mem List.nodup_range (List.mem_range.mpr hi)]
    simp
  tol := rfl
  optimal := fun _ _ _ _ _ => Or.inl rfl
  sort := fun l => by
    refine ⟨List.perm_insertionSort _ l, ?_⟩
    have ht : IsTrans (Cand ℤ (FVec ℤ)) (fun a b => a.chrom ≤ b.chrom) := ⟨fun _ _ _ h1 h2 => le_trans h1 h2⟩
    have htot : Std.Total (fun a b : Cand ℤ (FVec ℤ) => a.chrom ≤ b.chrom) := ⟨fun a b => le_total _ _⟩
    exact (List.pairwise_insertionSort (fun a b : Cand ℤ (FVec ℤ) => a.chrom ≤ b.chrom) l).imp (fun h => not_lt.mpr h)

-- a run with three generations: 1 + 5 calls of the fitness function
example : ((gaSolve (demoInt false 1 4) (demoPrev ℤ) []).map (fun st => (st.pop.map (·.chrom), st.gen, st.evals, st.calls.length))) = some ([[7, 1], [2, 0]], 3, 5, 6) := by
  decide +kernel
example : (gaSolve (demoInt false 1 4) (demoPrev ℤ) []).map (fun st => st.evalsMon.data) = some [2, 1, 1, 1] := by decide +kernel
-- the solutions with and without `keep_all_optimal_solutions`
example : (gaSolve (demoInt false 1 4) (demoPrev ℤ) []).map (fun st => st.sols.map (·.chrom)) = some [[2, 0], [7, 1]] := by decide +kernel
example : (gaSolve (demoInt true 0 3) (demoPrev ℤ) []).map (fun st => st.sols.map (·.chrom)) = some [[2, 0], [4, 1]] := by decide +kernel

/-- C25: the counter is not equal to the number of calls of the fitness function: `solve` also calls it to find out the number of objectives. -/
theorem C25_probe_not_counted : ∃ (env : GaEnv ℤ ℤ Unit Unit (FVec ℤ)) (prev final : GaState ℤ (FVec ℤ) Unit (FVec ℤ)) (I J : Unit → List (FVec ℤ) → Prop),
    ExactRun env prev [] I J ∧ gaSolve env prev [] = some final ∧ final.calls.length ≠ final.evals := by
  obtain ⟨final, hf⟩ := C24_ends (demo_exact false 1 4 [] (by simp)) (demo_complete false 1 4)
  refine ⟨demoInt false 1 4, demoPrev ℤ, final, _, _, demo_exact false 1 4 [] (by simp), hf, ?_⟩
  have : (gaSolve (demoInt false 1 4) (demoPrev ℤ) []).map (fun st => decide (st.calls.length = st.evals)) = some false := by decide +kernel
  rw [hf] at this
  exact of_decide_eq_false (Option.some.inj this)

/-- C23: with `keep_all_optimal_solutions`, a run that ends with the initial population returns equal solutions more than once if there are equal candidates in it. -/
theorem C23_duplicates_without_generations : ∃ (env : GaEnv ℤ ℤ Unit Unit (FVec ℤ)) (prev final : GaState ℤ (FVec ℤ) Unit (FVec ℤ)) (initial : List (Cand ℤ (FVec ℤ)))
    (I J : Unit → List (FVec ℤ) → Prop), ExactRun env prev initial I J ∧ CompleteRun env I ∧ env.keepAll = true ∧ gaSolve env prev initial = some final ∧ ¬ (final.sols.map (·.chrom)).Nodup := by
  have he := demo_exact true 0 1 [⟨[1, 2], [], false⟩, ⟨[1, 2], [], false⟩] (by simp)
  obtain ⟨final, hf⟩ := C24_ends he (demo_complete true 0 1)
  refine ⟨_, demoPrev ℤ, final, _, _, _, he, demo_complete true 0 1, rfl, hf, ?_⟩
  have : (gaSolve (demoInt true 0 1) (demoPrev ℤ) [⟨[1, 2], [], false⟩, ⟨[1, 2], [], false⟩]).map (fun st => decide ((st.sols.map (·.chrom)).Nodup)) = some false := by decide +kernel
  rw [hf] at this
  exact of_decide_eq_false (Option.some.inj this)

/-- C22: an initial candidate that the user marked as evaluated is not evaluated, even if its fitness is wrong. -/
theorem C22_initial_flags_trusted : ∃ (env : GaEnv ℤ ℤ Unit Unit (FVec ℤ)) (prev st : GaState ℤ (FVec ℤ) Unit (FVec ℤ)) (initial : List (Cand ℤ (FVec ℤ))),
    gaGens env prev initial 0 = some st ∧ ∃ c ∈ st.pop, c.fitness ≠ env.fitness c.chrom := by
  have : (gaGens (demoInt false 0 4) (demoPrev ℤ) [⟨[1, 2], [.fin 100, .fin 100], true⟩] 0).map (fun st => decide (∃ c ∈ st.pop, c.fitness ≠ demoFitness c.chrom)) = some true := by
    decide +kernel
  obtain ⟨st, h1, h2⟩ := Option.map_eq_some_iff.mp this
  exact ⟨_, _, st, _, h1, of_decide_eq_true h2⟩

/-- C22: real genes are compared with a tolerance. A mutated candidate that compares equal to its parent is not evaluated again, and has the fitness of the parent. -/
theorem C22_real_genes_stale : ∃ (env : GaEnv (Flt ℤ) ℤ Unit Unit (FVec ℤ)) (t : Tol ℤ) (prev st : GaState (Flt ℤ) (FVec ℤ) Unit (FVec ℤ)),
    env.eq = floatVecIsEqual t ∧ gaGens env prev [] 1 = some st ∧ ∃ c ∈ st.pop, c.evaluated = true ∧ c.fitness ≠ env.fitness c.chrom := by
  let env : GaEnv (Flt ℤ) ℤ Unit Unit (FVec ℤ) := demoEnv (Flt ℤ) (floatVecIsEqual ⟨1, 0⟩) (fun x => [x.getD 0 .ninf, x.getD 1 .ninf]) (fun _ => [.fin 3, .fin 5])
    (fun _ _ _ => [.fin 4, .fin 5]) id false 0 4
  have : (gaGens env (demoPrev (Flt ℤ)) [] 1).map (fun st => decide (∃ c ∈ st.pop, c.evaluated = true ∧ c.fitness ≠ env.fitness c.chrom)) = some true := by
    decide +kernel
  obtain ⟨st, h1, h2⟩ := Option.map_eq_some_iff.mp this
  exact ⟨env, ⟨1, 0⟩, _, st, rfl, h1, of_decide_eq_true h2⟩

/-- C22: a dynamic fitness function in combination with a cache size that is not zero fails an assertion, although the documentation of `cache_size` says that the cache is then simply not used. -/
theorem C22_dynamic_with_cache_fails : ∃ (env : GaEnv ℤ ℤ Unit Unit (FVec ℤ)) (prev : GaState ℤ (FVec ℤ) Unit (FVec ℤ)),
    (∀ x, (env.fitness x).length = env.numObj) ∧ AlgContract env (fun _ _ => True) (fun _ _ => True) ∧ env.dynamic = true ∧ env.cachedGens ≠ 0 ∧ gaGens env prev [] 0 = none := by
  refine ⟨{ demoInt false 1 4 with dynamic := true }, demoPrev ℤ, fun _ => rfl, ⟨fun _ _ _ => trivial, fun _ _ _ _ _ => trivial, fun _ _ _ k _ _ _ => Nat.mod_lt _ (by decide),
    fun _ _ _ _ _ _ => ⟨⟨rfl, (by decide : [2, 3].Nodup), (by decide : ∀ i ∈ [2, 3], i < 4)⟩, fun _ _ => trivial⟩⟩, rfl, by decide, ?_⟩
  have : (gaGens { demoInt false 1 4 with dynamic := true } (demoPrev ℤ) [] 0).isNone = true := by decide +kernel
  simpa using this

end Gapp.Props
