import Verif.Props.GaAlgorithms
import Verif.Spec.GaBest
/-!
# C70: nothing that a run evaluated is better than what `solve` returns
-/

namespace Gapp.Props
open Gapp.Model Gapp.Spec

section
variable {G K A S V : Type} [LinearOrder G] [CommRing K] [LinearOrder K] [IsStrictOrderedRing K]

/-- The chromosomes passed to the fitness function in a run, without the one that is only used to find out the number of objectives (ga_base.impl.hpp:237-247). -/
def evaluatedChroms (st : GaState G (FVec K) A V) : List (List G) := st.calls.drop 1

/-- The replacement never loses the best of the candidates: for every candidate of a pool of parents and children it keeps one that is at least as good. -/
def KeepsBest (env : GaEnv G K A S V) : Prop :=
  ∀ a all g, all.length = 2 * env.popSize → FitMatrix env all → NothingBetterLost all (env.algNext a all g).1

/-- The replacement keeps all the children. -/
def KeepsChildren (env : GaEnv G K A S V) : Prop :=
  ∀ a all g j, all.length = 2 * env.popSize → FitMatrix env all → env.popSize ≤ j → j < 2 * env.popSize → j ∈ (env.algNext a all g).1

theorem atLeastAsGood_refl {W : Type} [LinearOrder W] (a : List W) : AtLeastAsGood a a := ⟨rfl, fun _ _ _ => le_rfl⟩

theorem atLeastAsGood_trans {W : Type} [LinearOrder W] {a b c : List W} (h1 : AtLeastAsGood c b) (h2 : AtLeastAsGood b a) : AtLeastAsGood c a :=
  ⟨h1.1.trans h2.1, fun i ha hc => (h2.2 i ha (by rw [h2.1]; exact ha)).trans (h1.2 i (by rw [h2.1]; exact ha) hc)⟩

/-- What is at least as good as a dominating vector dominates too. -/
theorem atLeastAsGood_dominates {W : Type} [LinearOrder W] {a b c : List W} (h1 : AtLeastAsGood c b) (h2 : ExactDominates b a) (hl : b.length = a.length) : ExactDominates c a := by
  obtain ⟨hall, i, ha, hb, hlt⟩ := h2
  exact ⟨fun j ja jc => (hall j ja (by rw [hl]; exact ja)).trans (h1.2 j (by rw [hl]; exact ja) jc), i, ha, by rw [h1.1]; exact hb, lt_of_lt_of_le hlt (h1.2 i hb _)⟩

theorem evalOne_chrom (env : GaEnv G K A S V) (cache : FifoCache (List G) (FVec K)) (c : Cand G (FVec K)) : (evalOne env cache c).chrom = c.chrom := by
  unfold evalOne
  split
  · rfl
  · split <;> rfl

/-- Everything passed to the fitness function is the chromosome of an evaluated candidate. -/
theorem evalAll_calls (env : GaEnv G K A S V) (hdyn : env.dynamic = true → env.cachedGens = 0) (cache : FifoCache (List G) (FVec K)) (cands : List (Cand G (FVec K))) (evals : Nat)
    (calls : List (List G)) (sched : List Nat) (pop : List (Cand G (FVec K))) (evals' : Nat) (calls' : List (List G))
    (h : evalAll env cache cands evals calls sched = some (pop, evals', calls')) :
    ∃ l, calls' = calls ++ l ∧ ∀ x ∈ l, ∃ c ∈ pop, c.chrom = x := by
  obtain ⟨h1, -, l, h2, h3⟩ := evalAll_spec env hdyn cache cands evals calls sched _ h
  refine ⟨l, h2, fun x hx => ?_⟩
  obtain ⟨c, hc, rfl⟩ := List.mem_map.mp (h3.mem_iff.mp hx)
  refine ⟨evalOne env cache c, ?_, evalOne_chrom env cache c⟩
  rw [show pop = cands.map (evalOne env cache) from h1]
  exact List.mem_map_of_mem (List.mem_filter.mp hc).1

theorem atPositions_mem {α : Type} {v : List α} {idx : List Nat} {vals : List α} (h : AtPositions v idx vals) {j : Nat} (hj : j ∈ idx) {x : α} (hx : v[j]? = some x) : x ∈ vals := by
  have h1 : some x ∈ vals.map some := by
    rw [← (show _ = vals.map some from h)]
    exact List.mem_map.mpr ⟨j, hj, hx⟩
  simpa using h1

/-- One generation, in terms of the pool of parents and children. -/
theorem advance_pool {env : GaEnv G K A S V} {prev : GaState G (FVec K) A V} {initial : List (Cand G (FVec K))} {I J : A → List (FVec K) → Prop} (h : ExactRun env prev initial I J)
    (st st' : GaState G (FVec K) A V) (inv : GaInv env (TrueFitness env) I st) (hadv : advance env st = some st') :
    ∃ children : List (Cand G (FVec K)), children.length = env.popSize ∧ (∀ c ∈ children, c.evaluated = true ∧ c.fitness = env.fitness c.chrom) ∧
      FitMatrix env ((st.pop ++ children).map (·.fitness)) ∧
      (∃ l, st'.calls = st.calls ++ l ∧ ∀ x ∈ l, ∃ c ∈ children, c.chrom = x) ∧
      AtPositions (st.pop ++ children) (env.algNext (env.algPrepare st.alg st.fmat) ((st.pop ++ children).map (·.fitness)) (st.gen + 1)).1 st'.pop := by
  have hr := h.runOk
  obtain ⟨children, hch, hcl, hct, hrest⟩ := advance_steps env _ I J hr.alg hr.eqOk hr.fitOk hr.dynCache hr.lenOk st inv
  obtain ⟨-, children', ec, hch', -, hev, ⟨idx, rfl, -, hat⟩, -⟩ := advance_spec env _ I J hr.alg hr.eqOk hr.fitOk hr.dynCache hr.lenOk st st' inv hadv
  rw [hch] at hch'
  obtain rfl := Option.some.inj hch'
  obtain ⟨hl, hevd, -⟩ := hrest _ _ hev
  refine ⟨ec, hl, hevd, ?_, evalAll_calls env hr.dynCache _ _ _ _ _ _ _ _ hev, hat⟩
  refine isMatrix_fitness env _ hr.lenOk _ ?_
  intro c hc
  rcases List.mem_append.mp hc with hc | hc
  · exact inv.evaluated c hc
  · exact hevd c hc

/-- At least the first call is always there. -/
theorem calls_ne_nil {env : GaEnv G K A S V} {prev : GaState G (FVec K) A V} {initial : List (Cand G (FVec K))} {I J : A → List (FVec K) → Prop} (h : ExactRun env prev initial I J)
    (n : Nat) (st : GaState G (FVec K) A V) (hst : gaGens env prev initial n = some st) : 1 ≤ st.calls.length := by
  induction n generalizing st with
  | zero =>
    obtain ⟨-, -, he, -⟩ := gaInit_spec env prev initial _ I J h.runOk st hst
    obtain ⟨l, hl, -⟩ := evalAll_calls env h.dynCache _ _ _ _ _ _ _ _ he
    rw [hl]; simp
  | succ n ih =>
    rw [gaGens_succ, Option.bind_eq_some_iff] at hst
    obtain ⟨s0, h0, hst⟩ := hst
    obtain ⟨children, -, -, -, ⟨l, hl, -⟩, -⟩ := advance_pool h s0 st (gaGens_inv env prev initial _ I J h.runOk n s0 h0).1 hst
    rw [hl, List.length_append]
    have := ih s0 h0
    omega

/-- C70, in every generation: if the replacement never loses the best candidates, then for every chromosome evaluated so far some candidate of the population is at least as good. -/
theorem C70_population {env : GaEnv G K A S V} {prev : GaState G (FVec K) A V} {initial : List (Cand G (FVec K))} {I J : A → List (FVec K) → Prop} (h : ExactRun env prev initial I J)
    (hk : KeepsBest env) (n : Nat) (st : GaState G (FVec K) A V) (hst : gaGens env prev initial n = some st) :
    ∀ x ∈ evaluatedChroms st, ∃ c ∈ st.pop, AtLeastAsGood c.fitness (env.fitness x) := by
  induction n generalizing st with
  | zero =>
    obtain ⟨-, -, he, -⟩ := gaInit_spec env prev initial _ I J h.runOk st hst
    obtain ⟨l, hl, hx⟩ := evalAll_calls env h.dynCache _ _ _ _ _ _ _ _ he
    intro x hxm
    unfold evaluatedChroms at hxm
    rw [hl, List.drop_append_of_le_length (by simp)] at hxm
    obtain ⟨c, hc, rfl⟩ := hx x (by simpa using hxm)
    refine ⟨c, hc, ?_⟩
    rw [((C22_population_invariant_partial h 0 st hst).2.1 c hc).2]
    exact atLeastAsGood_refl _
  | succ n ih =>
    rw [gaGens_succ, Option.bind_eq_some_iff] at hst
    obtain ⟨s0, h0, hst⟩ := hst
    have inv := (gaGens_inv env prev initial _ I J h.runOk n s0 h0).1
    obtain ⟨children, hcl, hce, hmat, ⟨l, hl, hlx⟩, hat⟩ := advance_pool h s0 st inv hst
    have habs := hk (env.algPrepare s0.alg s0.fmat) _ (s0.gen + 1) (by rw [List.length_map, List.length_append, inv.size, hcl]; omega) hmat
    have key : ∀ c ∈ s0.pop ++ children, ∃ c' ∈ st.pop, AtLeastAsGood c'.fitness c.fitness := by
      intro c hc
      obtain ⟨j, hj, r', hr', hge⟩ := habs c.fitness (List.mem_map_of_mem hc)
      rw [List.getElem?_map, Option.map_eq_some_iff] at hr'
      obtain ⟨c', hc', rfl⟩ := hr'
      exact ⟨c', atPositions_mem hat hj hc', hge⟩
    intro x hx
    unfold evaluatedChroms at hx
    rw [hl, List.drop_append_of_le_length (calls_ne_nil h n s0 h0)] at hx
    rcases List.mem_append.mp hx with hx | hx
    · obtain ⟨c, hc, hge⟩ := ih s0 h0 x hx
      obtain ⟨c', hc', hge'⟩ := key c (List.mem_append_left _ hc)
      exact ⟨c', hc', atLeastAsGood_trans hge' hge⟩
    · obtain ⟨c, hc, rfl⟩ := hlx x hx
      obtain ⟨c', hc', hge'⟩ := key c (List.mem_append_right _ hc)
      rw [(hce c hc).2] at hge'
      exact ⟨c', hc', hge'⟩

/-- The solutions represent everything that was found: for each candidate a solution is at least as good. -/
theorem optimalAmong_covers {f : List G → FVec K} {m : Nat} {l sols : List (Cand G (FVec K))} {seen : Cand G (FVec K) → Prop} (hs : ∀ c, seen c ↔ c ∈ l) (hl : ∀ c ∈ l, c.fitness.length = m)
    (h : OptimalAmong f seen sols) (x : Cand G (FVec K)) (hx : x ∈ l) : ∃ s ∈ sols, s.fitness = x.fitness ∨ ExactDominates s.fitness x.fitness := by
  obtain ⟨y, hy, hyx, hyn⟩ := exists_nondominated m l hl x hx
  obtain ⟨s, hs', -, hsf⟩ := h.complete y ((hs y).mpr hy) (fun z hz => hyn z ((hs z).mp hz))
  refine ⟨s, hs', ?_⟩
  rw [hsf]
  rcases hyx with rfl | hyx
  · exact Or.inl rfl
  · exact Or.inr hyx

/-- The candidates among which the solutions are the optimal ones. -/
theorem solutions_among {env : GaEnv G K A S V} {prev : GaState G (FVec K) A V} {initial : List (Cand G (FVec K))} {I J : A → List (FVec K) → Prop} (h : ExactRun env prev initial I J)
    (hc : CompleteRun env I) (final : GaState G (FVec K) A V) (hf : gaSolve env prev initial = some final) :
    ∃ l : List (Cand G (FVec K)), OptimalAmong env.fitness (· ∈ l) final.sols ∧ (∀ c ∈ l, c.fitness.length = env.numObj) ∧ (∀ c ∈ final.pop, c ∈ l) ∧
      (env.keepAll = true → ∀ i st, i ≤ final.gen → gaGens env prev initial i = some st → ∀ c ∈ st.pop, c ∈ l) := by
  obtain ⟨k, ss, sts, t1, -, -, -, -, e1, e2, -⟩ := C24_stops h final hf
  have hlen : ∀ i st, gaGens env prev initial i = some st → ∀ c ∈ st.pop, c.fitness.length = env.numObj := by
    intro i st hst c hc
    rw [((C22_population_invariant_partial h i st hst).2.1 c hc).2]
    exact h.lengths _
  cases hka : env.keepAll with
  | false =>
    refine ⟨final.pop, (C23_solutions_last_population h hc hka final hf).2, ?_, fun c hc => hc, fun hh => by cases hh⟩
    rw [e2]
    exact hlen k _ (t1 k (Nat.le_refl _))
  | true =>
    have ho := (C23_solutions_all_populations_partial h hc hka final hf).1
    rw [e1] at ho ⊢
    refine ⟨(List.range (k + 1)).flatMap (fun i => (sts i).pop), ?_, ?_, ?_, ?_⟩
    · have : (fun c => ∃ i st, i ≤ k ∧ gaGens env prev initial i = some st ∧ c ∈ st.pop) = (fun c => c ∈ (List.range (k + 1)).flatMap (fun i => (sts i).pop)) := by
        funext c
        rw [List.mem_flatMap, eq_iff_iff]
        constructor
        · rintro ⟨i, st, hi, hst, hc⟩
          rw [t1 i hi] at hst
          obtain rfl := Option.some.inj hst
          exact ⟨i, List.mem_range.mpr (by omega), hc⟩
        · rintro ⟨i, hi, hc⟩
          have hi : i ≤ k := by have := List.mem_range.mp hi; omega
          exact ⟨i, sts i, hi, t1 i hi, hc⟩
      rw [← this]
      exact ho
    · intro c hc
      obtain ⟨i, hi, hc⟩ := List.mem_flatMap.mp hc
      exact hlen i _ (t1 i (by have := List.mem_range.mp hi; omega)) c hc
    · intro c hc
      rw [e2] at hc
      exact List.mem_flatMap.mpr ⟨k, List.mem_range.mpr (by omega), hc⟩
    · intro _ i st hi hst c hc
      rw [t1 i hi] at hst
      obtain rfl := Option.some.inj hst
      exact List.mem_flatMap.mpr ⟨i, List.mem_range.mpr (by omega), hc⟩

/-- `solve` returns at least one solution, and one at least as good as any candidate of the last population. -/
theorem C70_nonempty {env : GaEnv G K A S V} {prev : GaState G (FVec K) A V} {initial : List (Cand G (FVec K))} {I J : A → List (FVec K) → Prop} (h : ExactRun env prev initial I J)
    (hc : CompleteRun env I) (hpos : 0 < env.popSize) (final : GaState G (FVec K) A V) (hf : gaSolve env prev initial = some final) :
    final.sols ≠ [] ∧ ∀ c ∈ final.pop, ∃ s ∈ final.sols, AtLeastAsGood s.fitness c.fitness := by
  obtain ⟨l, ho, hlen, hpop, -⟩ := solutions_among h hc final hf
  obtain ⟨k, ss, sts, t1, -, -, -, -, -, e2, -⟩ := C24_stops h final hf
  have hcov : ∀ c ∈ final.pop, ∃ s ∈ final.sols, AtLeastAsGood s.fitness c.fitness := by
    intro c hc
    obtain ⟨s, hs, hsc⟩ := optimalAmong_covers (fun _ => Iff.rfl) hlen ho c (hpop c hc)
    refine ⟨s, hs, ?_⟩
    rcases hsc with hsc | hsc
    · rw [hsc]; exact atLeastAsGood_refl _
    · refine ⟨?_, hsc.1⟩
      rw [hlen c (hpop c hc), hlen s (ho.found s hs).1]
  refine ⟨?_, hcov⟩
  have hsz := (C22_population_invariant_partial h k _ (t1 k (Nat.le_refl _))).1
  rw [← e2] at hsz
  obtain ⟨c, hc⟩ : ∃ c, c ∈ final.pop := List.exists_mem_of_length_pos (by omega)
  obtain ⟨s, hs, -⟩ := hcov c hc
  exact List.ne_nil_of_mem hs

/-- Full statement: no chromosome that the run evaluated has a better fitness than a returned solution, and for each of them a solution is at least as good. False in general, see the witnesses below. Proved if the replacement never loses the best
candidates, with or without `keep_all_optimal_solutions`, for everything but the call that finds out the number of objectives. -/
theorem C70_solutions_partial {env : GaEnv G K A S V} {prev : GaState G (FVec K) A V} {initial : List (Cand G (FVec K))} {I J : A → List (FVec K) → Prop} (h : ExactRun env prev initial I J)
    (hc : CompleteRun env I) (hk : KeepsBest env) (final : GaState G (FVec K) A V) (hf : gaSolve env prev initial = some final) :
    (∀ s ∈ final.sols, s.fitness = env.fitness s.chrom ∧ ∀ x ∈ evaluatedChroms final, ¬ ExactDominates (env.fitness x) s.fitness) ∧
    (∀ x ∈ evaluatedChroms final, ∃ s ∈ final.sols, AtLeastAsGood s.fitness (env.fitness x)) := by
  obtain ⟨k, ss, sts, t1, -, -, -, -, e1, e2, -, -, -, -, e6, -⟩ := C24_stops h final hf
  have hpop := C70_population h hk k _ (t1 k (Nat.le_refl _))
  obtain ⟨l, hopt, hlen, hl, -⟩ := solutions_among h hc final hf
  have hx' : ∀ x ∈ evaluatedChroms final, ∃ c ∈ final.pop, AtLeastAsGood c.fitness (env.fitness x) := by
    intro x hx
    rw [e2]
    exact hpop x (by unfold evaluatedChroms at hx ⊢; rw [← e6]; exact hx)
  constructor
  · intro s hs
    refine ⟨(hopt.found s hs).2.2, fun x hx hd => ?_⟩
    obtain ⟨c, hc, hge⟩ := hx' x hx
    exact hopt.optimal s hs c (hl c hc) (atLeastAsGood_dominates hge hd (by rw [(hopt.found s hs).2.2, h.lengths, h.lengths]))
  · intro x hx
    obtain ⟨c, hcp, hge⟩ := hx' x hx
    have hpos : 0 < env.popSize := by
      have hsz := (C22_population_invariant_partial h k _ (t1 k (Nat.le_refl _))).1
      rw [← hsz, ← e2]
      exact List.length_pos_of_mem hcp
    obtain ⟨s, hs, hge'⟩ := (C70_nonempty h hc hpos final hf).2 c hcp
    exact ⟨s, hs, atLeastAsGood_trans hge' hge⟩

/-- The run has one objective and uses `KeepBest` (soga_replacement.cpp:39-51). -/
structure UsesKeepBest (env : GaEnv G K A S V) : Prop extends UsesElitism env where
  keepBest : ∀ a all g, all.length = 2 * env.popSize → IsMatrix 1 all → KeepBestResult (⟨0, 0⟩ : Tol K) env.popSize all (env.algNext a all g).1

theorem UsesKeepBest.keeps {env : GaEnv G K A S V} (h : UsesKeepBest env) : KeepsBest env := by
  intro a all g hl hm r hr
  have hm1 : IsMatrix 1 all := by have := hm.1; rwa [h.single] at this
  have hres := h.keepBest a all g hl hm1
  obtain ⟨hlen, hnd, hlt⟩ := C30_keep_best_legal _ _ _ _ hres
  obtain ⟨i, hi⟩ := List.getElem?_of_mem hr
  by_cases hir : i ∈ (env.algNext a all g).1
  · exact ⟨i, hir, r, hi, atLeastAsGood_refl r⟩
  · obtain ⟨j, hj⟩ : ∃ j, j ∈ (env.algNext a all g).1 := by
      cases he : (env.algNext a all g).1 with
      | nil => rw [he] at hlen; have := h.positive; simp at hlen; omega
      | cons j l => exact ⟨j, List.mem_cons_self⟩
    obtain ⟨rj, hjr⟩ : ∃ rj, all[j]? = some rj := ⟨_, List.getElem?_eq_getElem (hlt j hj)⟩
    refine ⟨j, hj, rj, hjr, ?_⟩
    have hb := C30_keep_best _ _ _ _ hres j i _ _ hj hir hjr hi
    obtain ⟨x, hx⟩ := List.length_eq_one_iff.mp (hm1 _ (List.mem_of_getElem? hjr))
    obtain ⟨y, hy⟩ := List.length_eq_one_iff.mp (hm1 r hr)
    rw [hx, hy, less_single, decide_eq_false_iff_not, not_lt] at hb
    rw [hx, hy]
    refine ⟨rfl, fun k ha hb' => ?_⟩
    have hk0 : k = 0 := by simpa using ha
    subst hk0
    exact hb

/-- **C70** for one objective and `KeepBest`: `solve` returns at least one solution, and every solution has the greatest fitness of all the chromosomes that the run evaluated. -/
theorem C70_keep_best_partial {env : GaEnv G K A S V} (h : UsesKeepBest env) (hexact : env.eq = exactEq) (hlen : ∀ x, (env.fitness x).length = 1)
    (hdyn : env.dynamic = true → env.cachedGens = 0) (prev : GaState G (FVec K) A V) (hprev : ∃ d, prev.cache.Repr d)
    (initial : List (Cand G (FVec K))) (hinit : ∀ c ∈ initial, Truthful env.fitness c) (hc : CompleteRun env (fun _ _ => True)) :
    ∃ final, gaSolve env prev initial = some final ∧ final.sols ≠ [] ∧
      ∀ s ∈ final.sols, ∃ v, env.fitness s.chrom = [v] ∧ s.fitness = [v] ∧ ∀ x ∈ evaluatedChroms final, ∃ w, env.fitness x = [w] ∧ w ≤ v := by
  have he : ExactRun env prev initial (fun _ _ => True) (fun a fmat => ∃ a0, a = env.algPrepare a0 fmat) :=
    ⟨h.contract, hexact, fun x => by rw [h.single]; exact hlen x, hdyn, hinit, hprev⟩
  obtain ⟨final, hf⟩ := C24_ends he hc
  refine ⟨final, hf, (C70_nonempty he hc h.positive final hf).1, fun s hs => ?_⟩
  obtain ⟨h1, h2⟩ := (C70_solutions_partial he hc h.keeps final hf).1 s hs
  obtain ⟨v, hv⟩ := List.length_eq_one_iff.mp (hlen s.chrom)
  refine ⟨v, hv, h1.trans hv, fun x hx => ?_⟩
  obtain ⟨w, hw⟩ := List.length_eq_one_iff.mp (hlen x)
  refine ⟨w, hw, not_lt.mp fun hlt => h2 x hx ?_⟩
  rw [hw, h1, hv]
  refine ⟨fun i ha hb => ?_, 0, by simp, by simp, hlt⟩
  have hi0 : i = 0 := by simpa using ha
  subst hi0
  exact le_of_lt hlt

/-- If all the children are kept, every evaluated chromosome was in some population. -/
theorem evaluated_in_population {env : GaEnv G K A S V} {prev : GaState G (FVec K) A V} {initial : List (Cand G (FVec K))} {I J : A → List (FVec K) → Prop} (h : ExactRun env prev initial I J)
    (hk : KeepsChildren env) (n : Nat) (st : GaState G (FVec K) A V) (hst : gaGens env prev initial n = some st) :
    ∀ x ∈ evaluatedChroms st, ∃ i st', i ≤ n ∧ gaGens env prev initial i = some st' ∧ ∃ c ∈ st'.pop, c.chrom = x := by
  induction n generalizing st with
  | zero =>
    obtain ⟨-, -, he, -⟩ := gaInit_spec env prev initial _ I J h.runOk st hst
    obtain ⟨l, hl, hx⟩ := evalAll_calls env h.dynCache _ _ _ _ _ _ _ _ he
    intro x hxm
    unfold evaluatedChroms at hxm
    rw [hl, List.drop_append_of_le_length (by simp)] at hxm
    exact ⟨0, st, Nat.le_refl _, hst, hx x (by simpa using hxm)⟩
  | succ n ih =>
    have hst1 := hst
    rw [gaGens_succ, Option.bind_eq_some_iff] at hst
    obtain ⟨s0, h0, hst⟩ := hst
    have inv := (gaGens_inv env prev initial _ I J h.runOk n s0 h0).1
    obtain ⟨children, hcl, hce, hmat, ⟨l, hl, hlx⟩, hat⟩ := advance_pool h s0 st inv hst
    intro x hx
    unfold evaluatedChroms at hx
    rw [hl, List.drop_append_of_le_length (calls_ne_nil h n s0 h0)] at hx
    rcases List.mem_append.mp hx with hx | hx
    · obtain ⟨i, st', hi, hr⟩ := ih s0 h0 x hx
      exact ⟨i, st', by omega, hr⟩
    · obtain ⟨c, hc, rfl⟩ := hlx x hx
      obtain ⟨j, hj⟩ := List.getElem?_of_mem hc
      have hjl := (List.getElem?_eq_some_iff.mp hj).1
      refine ⟨n + 1, st, Nat.le_refl _, hst1, c, ?_, rfl⟩
      refine atPositions_mem hat (j := env.popSize + j) (hk _ _ _ _ ?_ hmat (by omega) (by omega)) ?_
      · rw [List.length_map, List.length_append, inv.size, hcl]; omega
      · rw [← inv.size, List.getElem?_append_right (by omega), Nat.add_sub_cancel_left]
        exact hj

/-- **C70** for `keep_all_optimal_solutions` and a replacement that keeps all the children: the returned solutions are exactly the best of everything the run evaluated. No evaluated chromosome
dominates a solution, and every evaluated chromosome that no solution dominates is returned. -/
theorem C70_keep_children_partial {env : GaEnv G K A S V} {prev : GaState G (FVec K) A V} {initial : List (Cand G (FVec K))} {I J : A → List (FVec K) → Prop} (h : ExactRun env prev initial I J)
    (hc : CompleteRun env I) (hka : env.keepAll = true) (hk : KeepsChildren env) (final : GaState G (FVec K) A V) (hf : gaSolve env prev initial = some final) :
    (∀ s ∈ final.sols, s.fitness = env.fitness s.chrom ∧ ∀ x ∈ evaluatedChroms final, ¬ ExactDominates (env.fitness x) s.fitness) ∧
    (∀ x ∈ evaluatedChroms final, (∀ s ∈ final.sols, ¬ ExactDominates s.fitness (env.fitness x)) → ∃ s ∈ final.sols, s.chrom = x) := by
  obtain ⟨k, ss, sts, t1, -, -, -, -, e1, e2, -, -, -, -, e6, -⟩ := C24_stops h final hf
  obtain ⟨l, hopt, hlen, -, hl⟩ := solutions_among h hc final hf
  have hx' : ∀ x ∈ evaluatedChroms final, ∃ c ∈ l, c.chrom = x ∧ c.fitness = env.fitness x := by
    intro x hx
    obtain ⟨i, st', hi, hst', c, hcm, rfl⟩ := evaluated_in_population h hk k _ (t1 k (Nat.le_refl _)) x (by unfold evaluatedChroms at hx ⊢; rw [← e6]; exact hx)
    exact ⟨c, hl hka i st' (by omega) hst' c hcm, rfl, ((C22_population_invariant_partial h i st' hst').2.1 c hcm).2⟩
  constructor
  · intro s hs
    refine ⟨(hopt.found s hs).2.2, fun x hx hd => ?_⟩
    obtain ⟨c, hcl, -, hcf⟩ := hx' x hx
    exact hopt.optimal s hs c hcl (by rw [hcf]; exact hd)
  · intro x hx hn
    obtain ⟨c, hcl, rfl, hcf⟩ := hx' x hx
    obtain ⟨s, hs, h1, -⟩ := hopt.complete c hcl (fun y hy hd => by
      obtain ⟨s, hs, hsy⟩ := optimalAmong_covers (fun _ => Iff.rfl) hlen hopt y hy
      refine hn s hs ?_
      rw [← hcf]
      rcases hsy with hsy | hsy
      · rw [hsy]; exact hd
      · exact atLeastAsGood_dominates ⟨by rw [hlen y hy, hlen s (hopt.found s hs).1], hsy.1⟩ hd (by rw [hlen y hy, hlen c hcl]))
    exact ⟨s, hs, h1⟩
end

/-! ## Cases that meet the assumptions -/

theorem demoElitism_keepBest : UsesKeepBest demoElitism where
  toUsesElitism := demoElitism_uses
  keepBest := demoElitism_keeps

theorem demoElitism_complete : CompleteRun demoElitism (fun _ _ => True) where
  evalSched := (demo_complete false 0 4).evalSched
  mergeSched := (demo_complete false 0 4).mergeSched
  tol := rfl
  optimal := fun _ _ _ _ _ => Or.inl rfl
  sort := (demo_complete false 0 4).sort

-- a run with `KeepBest`: the solution is the best of the six evaluated chromosomes
example : ∃ final, gaSolve demoElitism (demoPrev ℤ) [] = some final ∧ final.sols.map (·.chrom) = [[7, 0]] ∧ (evaluatedChroms final).length = 5 ∧
    ∀ s ∈ final.sols, ∃ v, demoElitism.fitness s.chrom = [v] ∧ s.fitness = [v] ∧ ∀ x ∈ evaluatedChroms final, ∃ w, demoElitism.fitness x = [w] ∧ w ≤ v := by
  obtain ⟨final, hf, -, h⟩ := C70_keep_best_partial demoElitism_keepBest rfl (fun _ => rfl) (fun h => by cases h) (demoPrev ℤ) ⟨_, FifoCache.repr_init 0 0⟩ [] (by simp) demoElitism_complete
  have hd : (gaSolve demoElitism (demoPrev ℤ) []).map (fun st => (st.sols.map (·.chrom), (evaluatedChroms st).length)) = some ([[7, 0]], 5) := by decide +kernel
  rw [hf] at hd
  have hd := Option.some.inj hd
  exact ⟨final, hf, congrArg Prod.fst hd, congrArg Prod.snd hd, h⟩

-- a run that keeps the children, and all the optimal solutions
example : KeepsChildren (demoInt true 0 4) ∧ (demoInt true 0 4).keepAll = true := by
  refine ⟨?_, rfl⟩
  intro a all g j _ _ h1 h2
  have h1 : 2 ≤ j := h1
  have h2 : j < 4 := h2
  show j ∈ [2, 3]
  have : j = 2 ∨ j = 3 := by omega
  rcases this with rfl | rfl <;> simp

/-! ## Runs that lose the best candidate -/

/-- A run with `Elitism(1)`: the best parent and the first child are kept. The mutation adds ten to the first gene of the second child. -/
def demoElitismOne : GaEnv ℤ ℤ Unit Unit (FVec ℤ) :=
  { demoElitism with
    maxGen := 2
    algNext := fun _ all _ => (((List.range 2).insertionSort (fun i j => (all.getD j []).getD 0 .ninf ≤ (all.getD i []).getD 0 .ninf)).take 1 ++ [2], ())
    mutate := fun _ k c => if k = 1 then (c.chrom.getD 0 0 + 10) :: c.chrom.drop 1 else c.chrom }

theorem demoElitismOne_uses : UsesElitism demoElitismOne where
  single := rfl
  positive := by decide
  tol := rfl
  select := fun _ _ _ k _ _ => Nat.mod_lt _ (by decide)
  replace := by
    intro a all g hl hm
    left
    have hl : all.length = 4 := hl
    refine ⟨1, Nat.le_refl _, by rw [hl]; decide, (List.range 2).insertionSort (fun i j => (all.getD j []).getD 0 .ninf ≤ (all.getD i []).getD 0 .ninf), ?_, rfl⟩
    unfold IsPartialArgsortOf
    have h2 : (all.take demoElitismOne.popSize).length = 2 := by
      rw [List.length_take, hl]; decide
    rw [if_pos (by rw [h2]; decide)]
    show IsSortOf _ _ _
    rw [h2]
    refine ⟨List.perm_insertionSort _ _, ?_⟩
    have ht : IsTrans Nat (fun i j => (all.getD j []).getD 0 Flt.ninf ≤ (all.getD i []).getD 0 Flt.ninf) := ⟨fun _ _ _ h1 h2 => le_trans h2 h1⟩
    have htot : Std.Total (fun i j : Nat => (all.getD j []).getD 0 Flt.ninf ≤ (all.getD i []).getD 0 Flt.ninf) := ⟨fun a b => le_total _ _⟩
    refine (List.pairwise_insertionSort (fun i j => (all.getD j []).getD 0 Flt.ninf ≤ (all.getD i []).getD 0 Flt.ninf) (List.range 2)).imp ?_
    intro i j hij
    unfold compareAt
    split
    · rename_i x y hx hy
      have hsub : ∀ (k : Nat) (z : FVec ℤ), (all.take demoElitismOne.popSize)[k]? = some z → all[k]? = some z := by
        intro k z hz
        rw [List.getElem?_take] at hz
        split at hz
        · exact hz
        · cases hz
      have hx := hsub _ _ hx
      have hy := hsub _ _ hy
      obtain ⟨x', rfl⟩ := List.length_eq_one_iff.mp (hm x (List.mem_of_getElem? hx))
      obtain ⟨y', rfl⟩ := List.length_eq_one_iff.mp (hm y (List.mem_of_getElem? hy))
      simp only [List.getD_eq_getElem?_getD, hx, hy, Option.getD_some, List.getElem?_cons_zero] at hij
      rw [rowDescending, less_single, decide_eq_false_iff_not]
      exact not_lt.mpr hij
    · rfl
  optimal := fun _ => rfl

theorem demoElitismOne_complete : CompleteRun demoElitismOne (fun _ _ => True) where
  evalSched := (demo_complete false 0 4).evalSched
  mergeSched := (demo_complete false 0 4).mergeSched
  tol := rfl
  optimal := fun _ _ _ _ _ => Or.inl rfl
  sort := (demo_complete false 0 4).sort

/-- C70 is violated with `Elitism`: the children for which there is no place are dropped without a comparison, even if they are the best candidates ever found. Here the run evaluates a chromosome with
fitness 12, and returns one with fitness 2. -/
theorem C70_elitism_violated : ∃ final, gaSolve demoElitismOne (demoPrev ℤ) [] = some final ∧
    ∃ s ∈ final.sols, ∃ x ∈ evaluatedChroms final, demoElitismOne.fitness x = [.fin 12] ∧ s.fitness = [.fin 2] := by
  have he : ExactRun demoElitismOne (demoPrev ℤ) [] (fun _ _ => True) (fun a fmat => ∃ a0, a = demoElitismOne.algPrepare a0 fmat) :=
    ⟨demoElitismOne_uses.contract, rfl, fun _ => rfl, fun h => (by cases h), (by simp), ⟨_, FifoCache.repr_init 0 0⟩⟩
  obtain ⟨final, hf⟩ := C24_ends he demoElitismOne_complete
  refine ⟨final, hf, ?_⟩
  have hd : (gaSolve demoElitismOne (demoPrev ℤ) []).map (fun st => decide (∃ s ∈ st.sols, ∃ x ∈ evaluatedChroms st, demoElitismOne.fitness x = [.fin 12] ∧ s.fitness = [.fin 2])) = some true := by
    decide +kernel
  rw [hf] at hd
  exact of_decide_eq_true (Option.some.inj hd)

/-- As in `demoElitism`, but the chromosome that is only used to find out the number of objectives is the best one. -/
def demoProbe : GaEnv ℤ ℤ Unit Unit (FVec ℤ) := { demoElitism with generate := fun k => if k = 0 then [100, 0] else [k, 0] }

/-- C70: the chromosome that `solve` evaluates to find out the number of objectives is thrown away, even if it is the best one. The run uses `KeepBest`, and meets all the assumptions. -/
theorem C70_probe_lost : UsesKeepBest demoProbe ∧ ∃ final, gaSolve demoProbe (demoPrev ℤ) [] = some final ∧
    [100, 0] ∈ final.calls ∧ demoProbe.fitness [100, 0] = [.fin 100] ∧ ∀ s ∈ final.sols, s.fitness = [.fin 7] := by
  have hu : UsesKeepBest demoProbe := ⟨⟨rfl, by decide, rfl, demoElitism_uses.select, demoElitism_uses.replace, fun _ => rfl⟩, demoElitism_keeps⟩
  refine ⟨hu, ?_⟩
  have he : ExactRun demoProbe (demoPrev ℤ) [] (fun _ _ => True) (fun a fmat => ∃ a0, a = demoProbe.algPrepare a0 fmat) :=
    ⟨hu.contract, rfl, fun _ => rfl, fun h => (by cases h), (by simp), ⟨_, FifoCache.repr_init 0 0⟩⟩
  obtain ⟨final, hf⟩ := C24_ends he ⟨demoElitism_complete.evalSched, demoElitism_complete.mergeSched, rfl, fun _ _ _ _ _ => Or.inl rfl, demoElitism_complete.sort⟩
  refine ⟨final, hf, ?_⟩
  have hd : (gaSolve demoProbe (demoPrev ℤ) []).map (fun st => decide ([100, 0] ∈ st.calls ∧ ∀ s ∈ st.sols, s.fitness = [.fin 7])) = some true := by decide +kernel
  rw [hf] at hd
  obtain ⟨h1, h2⟩ := of_decide_eq_true (Option.some.inj hd)
  exact ⟨h1, rfl, h2⟩

/-- A run with NSGA-II, a population of three and `keep_all_optimal_solutions`. The fitness of `[a, b]` is `(a, -b)`. -/
def demoNsga2All : GaEnv ℤ ℚ (Nsga2 ℚ) Unit Unit :=
  { demoNsga2 with
    keepAll := true
    generate := fun k => ([[0, 0], [0, 0], [8, 8], [9, 9]] : List (List ℤ)).getD k []
    mutate := fun g k _ => (if g = 1 then ([[5, 5], [3, 3], [1, 1]] : List (List ℤ)) else [[3, 4], [6, 7], [7, 8]]).getD k [] }

/-- C70 is violated with NSGA-II, even with `keep_all_optimal_solutions`: if a pool has more non-dominated candidates than fit into the population, some are dropped, and later candidates that they
dominate are returned. Here the run evaluates `[3, 3]` with the fitness `(3, -3)`, drops it, and returns `[3, 4]` with the fitness `(3, -4)`; no solution is as good as `[3, 3]`. -/
theorem C70_nsga2_violated : (∃ f sort argsort eps d1 d2, UsesNsga2 demoNsga2All f sort argsort eps d1 d2) ∧
    ∃ final, gaSolve demoNsga2All ⟨[], [], [], FifoCache.init 0 0, 0, [], 0, ⟨[], []⟩, [], ⟨0, []⟩⟩ [] = some final ∧
      [3, 3] ∈ evaluatedChroms final ∧ demoNsga2All.fitness [3, 3] = [.fin 3, .fin (-3)] ∧ (∃ s ∈ final.sols, s.fitness = [.fin 3, .fin (-4)]) ∧
      ∀ s ∈ final.sols, ¬ AtLeastAsGood s.fitness (demoNsga2All.fitness [3, 3]) := by
  have hu : UsesNsga2 demoNsga2All (fun x => [(x.getD 0 0 : ℚ), - (x.getD 1 0 : ℚ)]) insertSort lexArgsort (1 / 100000000) (fun g k => (g + k) % 3) (fun _ k => k % 3) :=
    ⟨demoNsga2_uses.finite, by decide, demoNsga2_uses.init, demoNsga2_uses.prepare, demoNsga2_uses.select, demoNsga2_uses.next, demoNsga2_uses.optimal, demoNsga2_uses.sortOk, demoNsga2_uses.argsortOk,
      demoNsga2_uses.draws⟩
  refine ⟨⟨_, _, _, _, _, _, hu⟩, ?_⟩
  have he : ExactRun demoNsga2All ⟨[], [], [], FifoCache.init 0 0, 0, [], 0, ⟨[], []⟩, [], ⟨0, []⟩⟩ [] (Nsga2Fits 3) (Nsga2Fits 3) :=
    ⟨hu.contract, rfl, fun _ => rfl, fun h => (by cases h), (by simp), ⟨_, FifoCache.repr_init 0 0⟩⟩
  obtain ⟨final, hf⟩ := C24_ends he ⟨fun _ i hi => by
      have hi : i < 3 := hi
      show 3 ≤ List.count i [2, 1, 0, 0, 1, 0, 2, 1, 2]
      match i, hi with
      | 0, _ => decide
      | 1, _ => decide
      | 2, _ => decide, (demo_complete false 0 4).mergeSched, rfl, hu.optimalContract, insertionSort_sols⟩
  refine ⟨final, hf, ?_⟩
  have hd : (gaSolve demoNsga2All ⟨[], [], [], FifoCache.init 0 0, 0, [], 0, ⟨[], []⟩, [], ⟨0, []⟩⟩ []).map (fun st => (decide ([3, 3] ∈ evaluatedChroms st), st.sols.map (·.fitness))) =
      some (true, [[.fin 0, .fin 0], [.fin 3, .fin (-4)], [.fin 5, .fin (-5)], [.fin 8, .fin (-8)], [.fin 9, .fin (-9)]]) := by
    decide +kernel
  rw [hf] at hd
  have hd := Option.some.inj hd
  have h1 := of_decide_eq_true (congrArg Prod.fst hd)
  have h2 : final.sols.map (·.fitness) = _ := congrArg Prod.snd hd
  have hfit : demoNsga2All.fitness [3, 3] = [.fin 3, .fin (-3)] := by decide +kernel
  refine ⟨h1, hfit, ?_, ?_⟩
  · have : [Flt.fin 3, Flt.fin (-4)] ∈ final.sols.map (·.fitness) := by rw [h2]; simp
    obtain ⟨s, hs, hsf⟩ := List.mem_map.mp this
    exact ⟨s, hs, hsf⟩
  · intro s hs hge
    have hs' : s.fitness ∈ final.sols.map (·.fitness) := List.mem_map_of_mem hs
    rw [h2] at hs'
    rw [hfit] at hge
    obtain ⟨-, hge⟩ := hge
    have g0 := hge 0 (by simp)
    have g1 := hge 1 (by simp)
    simp only [List.mem_cons, List.not_mem_nil, or_false] at hs'
    rcases hs' with e | e | e | e | e <;> rw [e] at g0 g1 <;> revert g0 g1 <;> decide +kernel

end Gapp.Props
