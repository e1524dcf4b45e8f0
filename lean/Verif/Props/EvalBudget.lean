import Verif.Props.GaLoop
/-!
# C97: the number of fitness evaluations is at most the population size times the number of generations
-/

namespace Gapp.Props
open Gapp.Model Gapp.Spec

section
variable {G K A S V : Type} [DecidableEq G] [CommRing K] [LinearOrder K]

theorem evals_generation {env : GaEnv G K A S V} {prev : GaState G (FVec K) A V} {initial : List (Cand G (FVec K))} {P : List G → FVec K → Prop} {I J : A → List (FVec K) → Prop}
    (h : RunOk env prev initial P I J) (n : Nat) (st st' : GaState G (FVec K) A V) (h0 : gaGens env prev initial n = some st) (h1 : gaGens env prev initial (n + 1) = some st') :
    st.evals ≤ st'.evals ∧ st'.evals ≤ st.evals + env.popSize := by
  rw [gaGens_succ, h0, Option.bind_some] at h1
  obtain ⟨i0, -⟩ := gaGens_inv env prev initial P I J h n st h0
  obtain ⟨-, children, ec, -, hl, hev, -⟩ := advance_spec env P I J h.alg h.eqOk h.fitOk h.dynCache h.lenOk st st' i0 h1
  obtain ⟨-, h2, -⟩ := evalAll_spec env h.dynCache st.cache _ _ _ _ _ hev
  dsimp only at h2
  refine ⟨by omega, ?_⟩
  rw [h2]
  refine Nat.add_le_add_left (le_trans (List.length_filter_le _ _) ?_) _
  simp [hl]

theorem evals_bound {env : GaEnv G K A S V} {prev : GaState G (FVec K) A V} {initial : List (Cand G (FVec K))} {P : List G → FVec K → Prop} {I J : A → List (FVec K) → Prop}
    (h : RunOk env prev initial P I J) : ∀ (n : Nat) (st : GaState G (FVec K) A V), gaGens env prev initial n = some st → st.evals ≤ env.popSize * (n + 1)
  | 0, st, hst => by
      obtain ⟨_, _, he, _⟩ := gaInit_spec env prev initial P I J h st hst
      obtain ⟨-, h1, -⟩ := evalAll_spec env h.dynCache st.cache _ _ _ _ _ he
      dsimp only at h1
      rw [h1, Nat.zero_add, Nat.zero_add, Nat.mul_one, ← generatePopulation_length env initial]
      exact List.length_filter_le _ _
  | n + 1, st, hst => by
      have hst' := hst
      rw [gaGens_succ, Option.bind_eq_some_iff] at hst'
      obtain ⟨st0, h0, -⟩ := hst'
      have h1 := evals_bound h n st0 h0
      have h2 := (evals_generation h n st0 st h0 hst).2
      rw [Nat.mul_succ]
      omega

/-- **C97**: after `n` generations besides the initial one, `num_fitness_evals()` is at most the population size times `n + 1`, and each generation adds at most the population size. The genes may be
compared in any way, also with a tolerance; the fitness function may be dynamic if the cache is off. -/
theorem C97_evaluations_bounded {env : GaEnv G K A S V} {prev : GaState G (FVec K) A V} {initial : List (Cand G (FVec K))} {I J : A → List (FVec K) → Prop}
    (hA : AlgContract env I J) (hlen : ∀ x, (env.fitness x).length = env.numObj) (hdyn : env.dynamic = true → env.cachedGens = 0) (hinit : ∀ c ∈ initial, Truthful env.fitness c)
    (hprev : ∃ d, prev.cache.Repr d) (n : Nat) (st : GaState G (FVec K) A V) (hst : gaGens env prev initial n = some st) :
    st.evals ≤ env.popSize * (n + 1) ∧ ∀ st', gaGens env prev initial (n + 1) = some st' → st.evals ≤ st'.evals ∧ st'.evals ≤ st.evals + env.popSize := by
  have h : RunOk env prev initial (fun x v => ∃ y, Relation.ReflTransGen (fun a b => env.eq a b = true) x y ∧ v = env.fitness y) I J :=
    { alg := hA
      eqOk := fun a b v hab ⟨y, h1, h2⟩ => ⟨y, Relation.ReflTransGen.head hab h1, h2⟩
      fitOk := fun x => ⟨x, Relation.ReflTransGen.refl, rfl⟩
      lenOk := fun x v ⟨y, _, h2⟩ => ⟨by rw [h2]; exact hlen y, y, h2⟩
      dynCache := hdyn
      initialOk := fun c hc he => ⟨c.chrom, Relation.ReflTransGen.refl, hinit c hc he⟩
      prevCache := hprev }
  exact ⟨evals_bound h n st hst, fun st' hst' => evals_generation h n st st' hst hst'⟩

/-- **C97** for `solve`: the counter is at most the population size times the number of generations performed, and hence times `max_gen`; the fitness function itself is called at most once
more often. -/
theorem C97_solve_bounded_partial {env : GaEnv G K A S V} {prev : GaState G (FVec K) A V} {initial : List (Cand G (FVec K))} {I J : A → List (FVec K) → Prop} (h : ExactRun env prev initial I J)
    (hmax : 1 ≤ env.maxGen) (final : GaState G (FVec K) A V) (hf : gaSolve env prev initial = some final) :
    final.evals ≤ env.popSize * (final.gen + 1) ∧ final.evals ≤ env.popSize * env.maxGen ∧ final.calls.length ≤ env.popSize * env.maxGen + 1 := by
  obtain ⟨k, ss, sts, h1, -, -, -, h2, h3, -, -, h4, -, -, h5, -⟩ := C24_stops h final hf
  have h6 := evals_bound h.runOk k (sts k) (h1 k (le_refl _))
  have h7 := C25_evaluation_count_partial h k (sts k) (h1 k (le_refl _))
  have h8 : env.popSize * (k + 1) ≤ env.popSize * env.maxGen := Nat.mul_le_mul_left _ (by have := h2 hmax; omega)
  rw [h3, h4, h5, h7]
  exact ⟨h6, h6.trans h8, Nat.add_le_add_right (h6.trans h8) 1⟩
end

-- four generations of two candidates, five evaluations
example : ∃ final, gaSolve (demoInt false 1 4) (demoPrev ℤ) [] = some final ∧ final.evals ≤ 2 * 4 := by
  obtain ⟨final, hf⟩ := C24_ends (demo_exact false 1 4 [] (by simp)) (demo_complete false 1 4)
  exact ⟨final, hf, (C97_solve_bounded_partial (demo_exact false 1 4 [] (by simp)) (by decide) final hf).2.1⟩

/-- C97: the calls of the fitness function themselves may be more than the population size times `max_gen`, because of the call that finds the number of objectives. -/
theorem C97_calls_violated : ∃ (env : GaEnv ℤ ℤ Unit Unit (FVec ℤ)) (prev final : GaState ℤ (FVec ℤ) Unit (FVec ℤ)) (I J : Unit → List (FVec ℤ) → Prop),
    ExactRun env prev [] I J ∧ gaSolve env prev [] = some final ∧ env.popSize * env.maxGen < final.calls.length := by
  obtain ⟨final, hf⟩ := C24_ends (demo_exact false 0 1 [] (by simp)) (demo_complete false 0 1)
  refine ⟨demoInt false 0 1, demoPrev ℤ, final, _, _, demo_exact false 0 1 [] (by simp), hf, ?_⟩
  have : (gaSolve (demoInt false 0 1) (demoPrev ℤ) []).map (fun st => decide ((demoInt false 0 1).popSize * (demoInt false 0 1).maxGen < st.calls.length)) = some true := by decide +kernel
  rw [hf] at this
  exact of_decide_eq_true (Option.some.inj this)

end Gapp.Props
