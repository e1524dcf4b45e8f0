import Verif.Spec.GaReproducible
import Verif.Proofs.GaSolve
/-! # Proofs about the reproducibility of runs -/

namespace Gapp.Model
open Gapp.Spec Gapp.Props

section
variable {G K A S V : Type} [DecidableEq G] [CommRing K] [LinearOrder K]

theorem sameOutcome_refl {F : Type} (st : GaState G F A V) : SameOutcome st st := ⟨rfl, rfl, rfl, rfl, rfl, rfl, rfl, rfl, rfl, List.Perm.refl _⟩

theorem sameOutcome_eq {F : Type} {st st' : GaState G F A V} (h : SameOutcome st st') : ∃ c, st' = { st with calls := c } ∧ c.Perm st.calls := by
  obtain ⟨h1, h2, h3, h4, h5, h6, h7, h8, h9, h10⟩ := h
  refine ⟨st'.calls, ?_, h10⟩
  cases st; cases st'
  simp only at h1 h2 h3 h4 h5 h6 h7 h8 h9
  subst h1 h2 h3 h4 h5 h6 h7 h8 h9
  rfl

theorem sameOutcome_calls {F : Type} (st : GaState G F A V) (c : List (List G)) (h : c.Perm st.calls) : SameOutcome st { st with calls := c } := ⟨rfl, rfl, rfl, rfl, rfl, rfl, rfl, rfl, rfl, h⟩

/-! ## The schedules -/

/-- The parallel evaluation on two schedules. -/
theorem evalAll_same (env env' : GaEnv G K A S V) (hdyn : env.dynamic = true → env.cachedGens = 0) (h1 : env'.dynamic = env.dynamic) (h2 : env'.cachedGens = env.cachedGens)
    (h3 : env'.fitness = env.fitness) (cache : FifoCache (List G) (FVec K)) (cands : List (Cand G (FVec K))) (evals : Nat) (calls calls' : List (List G)) (hc : calls'.Perm calls)
    (sched sched' : List Nat) (r r') (hr : evalAll env cache cands evals calls sched = some r) (hr' : evalAll env' cache cands evals calls' sched' = some r') :
    r'.1 = r.1 ∧ r'.2.1 = r.2.1 ∧ r'.2.2.Perm r.2.2 := by
  obtain ⟨a1, a2, l, a3, a4⟩ := evalAll_spec env hdyn cache cands evals calls sched r hr
  obtain ⟨b1, b2, l', b3, b4⟩ := evalAll_spec env' (by rw [h1, h2]; exact hdyn) cache cands evals calls' sched' r' hr'
  have hn : needsEval env' cache = needsEval env cache := by funext c; simp only [needsEval, h1, h2]
  have ho : evalOne env' cache = evalOne env cache := by funext c; simp only [evalOne, h1, hn, h3]
  rw [ho] at b1
  rw [hn] at b2 b4
  refine ⟨by rw [a1, b1], by rw [a2, b2], ?_⟩
  rw [a3, b3]
  exact hc.append (b4.trans a4.symm)

/-- The merge of the solutions of this state with the optimal ones of its population has one possible result. -/
def MergeDetermined (env : GaEnv G K A S V) (st : GaState G (FVec K) A V) : Prop :=
  ∀ o s s' m m', optimalSolutions env st.alg st.pop = some o → mergeParetoSets env.tol (·.fitness) st.sols o s = some m → mergeParetoSets env.tol (·.fitness) st.sols o s' = some m' → m' = m

theorem mergeDetermined_empty (env : GaEnv G K A S V) (st : GaState G (FVec K) A V) (h : st.sols = []) : MergeDetermined env st := by
  intro o s s' m m' _ h1 h2
  rw [h] at h1 h2
  simp only [mergeParetoSets, List.isEmpty_nil, if_true] at h1 h2
  cases h1; cases h2; rfl

theorem updateOptimal_sched (env : GaEnv G K A S V) (es : Nat → List Nat) (ms : Nat → Nat → Nat → List Nat) (st st' r r' : GaState G (FVec K) A V) (h : SameOutcome st st')
    (hd : MergeDetermined env st) (hr : updateOptimal env st = some r) (hr' : updateOptimal (withSchedules env es ms) st' = some r') : SameOutcome r r' := by
  obtain ⟨c, rfl, hc⟩ := sameOutcome_eq h
  unfold updateOptimal at hr hr'
  simp only [Option.bind_eq_bind] at hr hr'
  rw [Option.bind_eq_some_iff] at hr hr'
  obtain ⟨o, ho, hr⟩ := hr
  obtain ⟨o', ho', hr'⟩ := hr'
  have hoo : optimalSolutions env st.alg st.pop = some o' := ho'
  rw [ho] at hoo
  cases hoo
  rw [Option.bind_eq_some_iff] at hr hr'
  obtain ⟨m, hm, hr⟩ := hr
  obtain ⟨m', hm', hr'⟩ := hr'
  have := hd o _ _ m m' ho hm hm'
  subst this
  obtain rfl := Option.some.inj hr
  obtain rfl := Option.some.inj hr'
  exact ⟨rfl, rfl, rfl, rfl, rfl, rfl, rfl, rfl, rfl, hc⟩

theorem updatePopulation_calls (env : GaEnv G K A S V) (st : GaState G (FVec K) A V) (c : List (List G)) (children : List (Cand G (FVec K))) :
    updatePopulation env { st with calls := c } children = (updatePopulation env st children).map (fun s => { s with calls := c }) := by
  unfold updatePopulation
  simp only [Option.bind_eq_bind]
  cases st.cache.insertRange (st.pop.map (fun c => (c.chrom, c.fitness))) with
  | none => rfl
  | some cache =>
    simp only [Option.bind_some]
    cases nextPopulation env st.alg (st.gen + 1) st.pop children with
    | none => rfl
    | some p => rfl

theorem advance_sched (env : GaEnv G K A S V) (hdyn : env.dynamic = true → env.cachedGens = 0) (es : Nat → List Nat) (ms : Nat → Nat → Nat → List Nat) (st st' r r' : GaState G (FVec K) A V)
    (h : SameOutcome st st')
    (hd : env.keepAll = true → ∀ children e st1, updatePopulation env { st with alg := env.algPrepare st.alg st.fmat, evals := e.1, calls := e.2 } children = some st1 →
      (∃ ch, makeChildren env { st with alg := env.algPrepare st.alg st.fmat } (env.algPrepare st.alg st.fmat) = some ch ∧
        evalAll env st.cache (ch.zipIdx.map (fun p => repairOp env.repair (mutationOp env.eq (env.mutate (st.gen + 1) p.2) p.1))) st.evals st.calls (env.evalSched (st.gen + 1)) = some (children, e)) →
      MergeDetermined env st1)
    (hr : advance env st = some r) (hr' : advance (withSchedules env es ms) st' = some r') : SameOutcome r r' := by
  obtain ⟨c, rfl, hc⟩ := sameOutcome_eq h
  unfold advance at hr hr'
  split at hr
  swap
  · cases hr
  rename_i hsize
  rw [if_pos (show ({ st with calls := c } : GaState G (FVec K) A V).pop.length = (withSchedules env es ms).popSize from hsize)] at hr'
  dsimp only at hr hr'
  simp only [Option.bind_eq_bind] at hr hr'
  rw [Option.bind_eq_some_iff] at hr hr'
  obtain ⟨ch, h1, hr⟩ := hr
  obtain ⟨ch', h1', hr'⟩ := hr'
  have hch : makeChildren env { st with alg := env.algPrepare st.alg st.fmat } (env.algPrepare st.alg st.fmat) = some ch' := h1'
  rw [h1] at hch
  cases hch
  rw [Option.bind_eq_some_iff] at hr hr'
  obtain ⟨e, he, hr⟩ := hr
  obtain ⟨e', he', hr'⟩ := hr'
  obtain ⟨q1, q2, q3⟩ := evalAll_same env (withSchedules env es ms) hdyn rfl rfl rfl _ _ _ _ _ hc _ _ e e' he he'
  rw [Option.bind_eq_some_iff] at hr hr'
  obtain ⟨s1, hs1, hr⟩ := hr
  obtain ⟨s1', hs1', hr'⟩ := hr'
  have hsame1 : SameOutcome s1 s1' := by
    rw [q1, q2] at hs1'
    have key := updatePopulation_calls env { st with alg := env.algPrepare st.alg st.fmat, evals := e.2.1, calls := e.2.2 } e'.2.2 e.1
    rw [hs1] at key
    have : some s1' = some { s1 with calls := e'.2.2 } := hs1'.symm.trans key
    cases this
    have hc1 : s1.calls = e.2.2 := by
      have := updatePopulation_calls env { st with alg := env.algPrepare st.alg st.fmat, evals := e.2.1, calls := e.2.2 } e.2.2 e.1
      rw [hs1] at this
      have := Option.some.inj this
      rw [this]
    exact sameOutcome_calls _ _ (by rw [hc1]; exact q3)
  rw [Option.bind_eq_some_iff] at hr hr'
  obtain ⟨s2, hs2, hr⟩ := hr
  obtain ⟨s2', hs2', hr'⟩ := hr'
  have hsame2 : SameOutcome s2 s2' := by
    unfold collectOptimal at hs2 hs2'
    cases hk : env.keepAll with
    | false =>
      rw [hk] at hs2
      rw [show (withSchedules env es ms).keepAll = false from hk] at hs2'
      cases hs2; cases hs2'
      exact hsame1
    | true =>
      rw [hk] at hs2
      rw [show (withSchedules env es ms).keepAll = true from hk] at hs2'
      exact updateOptimal_sched env es ms s1 s1' s2 s2' hsame1 (hd hk e.1 e.2 s1 hs1 ⟨ch, h1, he⟩) hs2 hs2'
  obtain rfl := Option.some.inj hr
  obtain rfl := Option.some.inj hr'
  obtain ⟨c2, rfl, hc2⟩ := sameOutcome_eq hsame2
  exact ⟨rfl, rfl, rfl, rfl, rfl, rfl, rfl, rfl, rfl, hc2⟩

theorem gaInit_sched (env : GaEnv G K A S V) (hdyn : env.dynamic = true → env.cachedGens = 0) (es : Nat → List Nat) (ms : Nat → Nat → Nat → List Nat) (prev : GaState G (FVec K) A V)
    (initial : List (Cand G (FVec K))) (r r' : GaState G (FVec K) A V) (hr : gaInit env prev initial = some r) (hr' : gaInit (withSchedules env es ms) prev initial = some r') : SameOutcome r r' := by
  have hgen : generatePopulation (withSchedules env es ms) initial = generatePopulation env initial := by
    rw [generatePopulation_eq, generatePopulation_eq]; rfl
  unfold gaInit at hr hr'
  dsimp only at hr hr'
  simp only [Option.bind_eq_bind] at hr hr'
  rw [Option.bind_eq_some_iff] at hr hr'
  obtain ⟨ca, h1, hr⟩ := hr
  obtain ⟨ca', h1', hr'⟩ := hr'
  have : some ca = some ca' := h1.symm.trans h1'
  cases this
  rw [Option.bind_eq_some_iff] at hr hr'
  obtain ⟨e, he, hr⟩ := hr
  obtain ⟨e', he', hr'⟩ := hr'
  rw [hgen] at he'
  obtain ⟨q1, q2, q3⟩ := evalAll_same env (withSchedules env es ms) hdyn rfl rfl rfl _ _ _ _ _ (List.Perm.refl _) _ _ e e' he he'
  rw [Option.bind_eq_some_iff] at hr hr'
  obtain ⟨s, hs, hr⟩ := hr
  obtain ⟨s', hs', hr'⟩ := hr'
  rw [q1] at hs'
  have : some s = some s' := hs.symm.trans hs'
  cases this
  obtain rfl := Option.some.inj hr
  obtain rfl := Option.some.inj hr'
  obtain ⟨p, n, c⟩ := e
  obtain ⟨p', n', c'⟩ := e'
  simp only at q1 q2 q3
  subst q1 q2
  exact ⟨rfl, rfl, rfl, rfl, rfl, rfl, rfl, rfl, rfl, q3⟩

/-- All the generations, if the merges are determined. -/
theorem gaGens_sched (env : GaEnv G K A S V) (hdyn : env.dynamic = true → env.cachedGens = 0) (es : Nat → List Nat) (ms : Nat → Nat → Nat → List Nat) (prev : GaState G (FVec K) A V)
    (initial : List (Cand G (FVec K)))
    (hstep : ∀ n st st' r r', gaGens env prev initial n = some st → SameOutcome st st' → advance env st = some r → advance (withSchedules env es ms) st' = some r' → SameOutcome r r') :
    ∀ n r r', gaGens env prev initial n = some r → gaGens (withSchedules env es ms) prev initial n = some r' → SameOutcome r r'
  | 0, r, r', h, h' => gaInit_sched env hdyn es ms prev initial r r' h h'
  | n + 1, r, r', h, h' => by
      rw [gaGens_succ] at h h'
      rw [Option.bind_eq_some_iff] at h h'
      obtain ⟨st, h0, h⟩ := h
      obtain ⟨st', h0', h'⟩ := h'
      exact hstep n st st' r r' h0 (gaGens_sched env hdyn es ms prev initial hstep n st st' h0 h0') h h'

theorem solveLoop_sched (env : GaEnv G K A S V) (hstop : StopIgnoresCalls env) (es : Nat → List Nat) (ms : Nat → Nat → Nat → List Nat) (prev : GaState G (FVec K) A V)
    (initial : List (Cand G (FVec K)))
    (hstep : ∀ n st st' r r', gaGens env prev initial n = some st → SameOutcome st st' → advance env st = some r → advance (withSchedules env es ms) st' = some r' → SameOutcome r r') :
    ∀ (fuel n : Nat) (s : S) (st st' r r' : GaState G (FVec K) A V), gaGens env prev initial n = some st → SameOutcome st st' → solveLoop env fuel s st = some r →
      solveLoop (withSchedules env es ms) fuel s st' = some r' → SameOutcome r r' ∧ ∃ k, gaGens env prev initial k = some r
  | 0, _, _, _, _, _, _, _, _, h, _ => by simp [solveLoop] at h
  | fuel + 1, n, s, st, st', r, r', hn, hsame, h, h' => by
      obtain ⟨c, rfl, hc⟩ := sameOutcome_eq hsame
      rw [solveLoop] at h h'
      have hs : (withSchedules env es ms).stop s { st with calls := c } = env.stop s st := hstop.stop s st c
      rw [hs] at h'
      dsimp only at h h'
      split at h
      · rename_i hb
        rw [if_pos (show ((env.stop s st).2 || decide (st.gen + 1 ≥ (withSchedules env es ms).maxGen)) = true from hb)] at h'
        cases h; cases h'
        exact ⟨hsame, n, hn⟩
      · rename_i hb
        rw [if_neg (show ¬ ((env.stop s st).2 || decide (st.gen + 1 ≥ (withSchedules env es ms).maxGen)) = true from hb)] at h'
        simp only [Option.bind_eq_bind] at h h'
        rw [Option.bind_eq_some_iff] at h h'
        obtain ⟨a, ha, h⟩ := h
        obtain ⟨a', ha', h'⟩ := h'
        have hn1 : gaGens env prev initial (n + 1) = some a := by rw [gaGens_succ, hn]; exact ha
        exact solveLoop_sched env hstop es ms prev initial hstep fuel (n + 1) _ a a' r r' hn1 (hstep n st _ a a' hn hsame ha ha') h h'

theorem gaSolve_sched (env : GaEnv G K A S V) (hdyn : env.dynamic = true → env.cachedGens = 0) (hstop : StopIgnoresCalls env) (es : Nat → List Nat) (ms : Nat → Nat → Nat → List Nat)
    (prev : GaState G (FVec K) A V) (initial : List (Cand G (FVec K)))
    (hstep : ∀ n st st' r r', gaGens env prev initial n = some st → SameOutcome st st' → advance env st = some r → advance (withSchedules env es ms) st' = some r' → SameOutcome r r')
    (hlast : env.keepAll = false → ∀ n st, gaGens env prev initial n = some st → st.sols = [])
    (r r' : GaState G (FVec K) A V) (hr : gaSolve env prev initial = some r) (hr' : gaSolve (withSchedules env es ms) prev initial = some r') : SameOutcome r r' := by
  unfold gaSolve at hr hr'
  simp only [Option.bind_eq_bind] at hr hr'
  rw [Option.bind_eq_some_iff] at hr hr'
  obtain ⟨st, h0, hr⟩ := hr
  obtain ⟨st', h0', hr'⟩ := hr'
  have hs0 := gaInit_sched env hdyn es ms prev initial st st' h0 h0'
  obtain ⟨c, rfl, hc⟩ := sameOutcome_eq hs0
  rw [Option.bind_eq_some_iff] at hr hr'
  obtain ⟨t, h1, hr⟩ := hr
  obtain ⟨t', h1', hr'⟩ := hr'
  have hsi : (withSchedules env es ms).stopInit { st with calls := c } = env.stopInit st := hstop.init st c
  rw [hsi] at h1'
  obtain ⟨hs1, k, hk⟩ := solveLoop_sched env hstop es ms prev initial hstep _ 0 _ st _ t t' h0 hs0 h1 h1'
  cases hka : env.keepAll with
  | true =>
    rw [hka] at hr
    rw [show (withSchedules env es ms).keepAll = true from hka] at hr'
    cases hr; cases hr'
    exact hs1
  | false =>
    rw [hka] at hr
    rw [show (withSchedules env es ms).keepAll = false from hka] at hr'
    exact updateOptimal_sched env es ms t t' r r' hs1 (mergeDetermined_empty env t (hlast hka k t hk)) hr hr'

theorem updatePopulation_sols (env : GaEnv G K A S V) (st st' : GaState G (FVec K) A V) (children : List (Cand G (FVec K))) (h : updatePopulation env st children = some st') : st'.sols = st.sols := by
  unfold updatePopulation at h
  simp only [Option.bind_eq_bind] at h
  rw [Option.bind_eq_some_iff] at h
  obtain ⟨ca, -, h⟩ := h
  rw [Option.bind_eq_some_iff] at h
  obtain ⟨p, -, h⟩ := h
  obtain rfl := Option.some.inj h
  rfl

/-- Without `keep_all_optimal_solutions` there are no solutions before the end. -/
theorem gaGens_sols_empty (env : GaEnv G K A S V) (hk : env.keepAll = false) (prev : GaState G (FVec K) A V) (initial : List (Cand G (FVec K))) :
    ∀ n st, gaGens env prev initial n = some st → st.sols = []
  | 0, st, h => by
      rw [gaGens] at h
      unfold gaInit at h
      dsimp only at h
      simp only [Option.bind_eq_bind] at h
      rw [Option.bind_eq_some_iff] at h
      obtain ⟨_, _, h⟩ := h
      rw [Option.bind_eq_some_iff] at h
      obtain ⟨_, _, h⟩ := h
      rw [Option.bind_eq_some_iff] at h
      obtain ⟨s, hs, h⟩ := h
      obtain rfl := Option.some.inj h
      rw [initialSols, hk] at hs
      cases hs
      rfl
  | n + 1, st, h => by
      rw [gaGens_succ, Option.bind_eq_some_iff] at h
      obtain ⟨s0, h0, h⟩ := h
      have ih := gaGens_sols_empty env hk prev initial n s0 h0
      unfold advance at h
      split at h
      swap
      · cases h
      dsimp only at h
      simp only [Option.bind_eq_bind] at h
      rw [Option.bind_eq_some_iff] at h
      obtain ⟨_, _, h⟩ := h
      rw [Option.bind_eq_some_iff] at h
      obtain ⟨_, _, h⟩ := h
      rw [Option.bind_eq_some_iff] at h
      obtain ⟨s1, hs1, h⟩ := h
      rw [Option.bind_eq_some_iff] at h
      obtain ⟨s2, hs2, h⟩ := h
      rw [collectOptimal, hk] at hs2
      cases hs2
      obtain rfl := Option.some.inj h
      exact (updatePopulation_sols env _ _ _ hs1).trans ih

end

section
variable {G K A S V : Type} [LinearOrder G] [CommRing K] [LinearOrder K] [IsStrictOrderedRing K]

/-- With exact comparisons the merge is determined. -/
theorem mergeDetermined_exact (env : GaEnv G K A S V) (ht : env.tol = ⟨0, 0⟩) (P : List G → FVec K → Prop) (I : A → List (FVec K) → Prop) (hO : OptimalContract env I)
    (hlen : ∀ x v, P x v → v.length = env.numObj ∧ ∃ y, v = env.fitness y) (st : GaState G (FVec K) A V) (inv : GaInv env P I st) (hl : ∀ c ∈ st.sols, c.fitness.length = env.numObj)
    (hn : ∀ x ∈ st.sols, ∀ y ∈ st.sols, ¬ CDom x y) : MergeDetermined env st := by
  intro o s s' m m' ho h1 h2
  obtain ⟨o', ho1, ho2⟩ := optimalSolutions_spec env ht P I hO hlen st inv
  rw [ho] at ho1
  cases ho1
  have hpl : ∀ c ∈ st.pop, c.fitness.length = env.numObj := fun c hc => (hlen _ _ (inv.evaluated c hc).2).1
  rw [ht] at h1 h2
  have e1 := C09_merge_pareto_sets (·.fitness) env.numObj st.sols o hl (fun c hc => hpl c ((ho2 c).mp hc).1) hn (fun x hx y hy => ((ho2 y).mp hy).2 x ((ho2 x).mp hx).1) _ _ h1
  have e2 := C09_merge_pareto_sets (·.fitness) env.numObj st.sols o hl (fun c hc => hpl c ((ho2 c).mp hc).1) hn (fun x hx y hy => ((ho2 y).mp hy).2 x ((ho2 x).mp hx).1) _ _ h2
  rw [e1, e2]

theorem advance_sched_exact (env : GaEnv G K A S V) (prev : GaState G (FVec K) A V) (initial : List (Cand G (FVec K))) (P : List G → FVec K → Prop) (I J : A → List (FVec K) → Prop)
    (h : RunOk env prev initial P I J) (hfun : ∀ x v w, P x v → P x w → v = w) (ht : env.tol = ⟨0, 0⟩) (hO : OptimalContract env I) (hs : SortSolsOk env)
    (es : Nat → List Nat) (ms : Nat → Nat → Nat → List Nat) (n : Nat) (st st' r r' : GaState G (FVec K) A V) (hst : gaGens env prev initial n = some st) (hsame : SameOutcome st st')
    (hr : advance env st = some r) (hr' : advance (withSchedules env es ms) st' = some r') : SameOutcome r r' := by
  refine advance_sched env h.dynCache es ms st st' r r' hsame ?_ hr hr'
  rintro hk children e st1 hu ⟨ch, hch, hev⟩
  obtain ⟨inv, -⟩ := gaGens_inv env prev initial P I J h n st hst
  obtain ⟨ch', hch', -, -, hrest⟩ := advance_steps env P I J h.alg h.eqOk h.fitOk h.dynCache h.lenOk st inv
  rw [hch] at hch'
  cases hch'
  obtain ⟨-, -, st1', hu', inv1, -, hsols, -⟩ := hrest _ _ hev
  have : some st1 = some st1' := hu.symm.trans hu'
  cases this
  obtain ⟨har, -⟩ := gaGens_archive env prev initial P I J h hfun ht hO hs hk n st hst
  have hseen : ∀ c ∈ st.sols, ∃ i s, i ≤ n ∧ gaGens env prev initial i = some s ∧ c ∈ s.pop := by
    intro c hc
    obtain ⟨i, hi, hp⟩ := har.seen c hc
    cases hg : gaGens env prev initial i with
    | none => rw [hg] at hp; simp at hp
    | some s => rw [hg] at hp; exact ⟨i, s, hi, hg, hp⟩
  refine mergeDetermined_exact env ht P I hO h.lenOk st1 inv1 ?_ ?_
  · rw [hsols]
    intro c hc
    obtain ⟨i, s, -, hg, hp⟩ := hseen c hc
    exact (h.lenOk _ _ ((gaGens_inv env prev initial P I J h i s hg).1.evaluated c hp).2).1
  · rw [hsols]
    intro x hx y hy
    obtain ⟨i, s, hi, hg, hp⟩ := hseen x hx
    exact har.optimal y hy i hi x (by simp [hg, hp])
end

/-! ## Earlier runs -/

theorem CircularBuffer.reset_eq_init {α : Type} {b : CircularBuffer α} {xs : List α} (h : CircularBuffer.Repr b xs) (n : Nat) : b.reset n = some (CircularBuffer.init n) := by
  obtain ⟨c, hc, hlen, hr⟩ := h.reset n
  have hf : c.first = 0 := by
    obtain ⟨d, hd, -, -⟩ := h.clear
    have hz : d.first = 0 := by
      unfold CircularBuffer.clear at hd
      cases hfold : (List.range b.size).foldlM (fun (c : CircularBuffer α) pos => c.destroySlot (c.slotOf pos)) b with
      | none => simp [hfold] at hd
      | some e => simp [hfold] at hd; rw [← hd]
    unfold CircularBuffer.reset at hc
    rw [hd] at hc
    simp only [Option.bind_eq_bind, Option.bind_some, Option.pure_def] at hc
    split at hc <;> (cases hc; exact hz)
  have hs : c.size = 0 := hr.size_eq
  have hsl : c.slots = List.replicate n none := by
    apply List.ext_getElem (by simp [hlen])
    intro i h1 h2
    have := hr.slot i h1
    rw [show c.slotOf i = i by
      unfold CircularBuffer.slotOf CircularBuffer.capacity
      dsimp only
      rw [hf, Nat.zero_add, if_neg (by omega)]] at this
    rw [List.getElem?_eq_getElem h1] at this
    simpa using this
  rw [hc]
  cases c
  simp only at hf hs hsl
  subst hf hs hsl
  rfl

theorem FifoCache.reset_eq_init {κ ν : Type} [DecidableEq κ] {c : FifoCache κ ν} {d : Spec.FifoMap κ ν} (h : FifoCache.Repr c d) (n e : Nat) : c.reset n e = some (FifoCache.init n e) := by
  obtain ⟨o, ho, -, hro⟩ := h.order.clear
  have := CircularBuffer.reset_eq_init hro n
  unfold FifoCache.reset FifoCache.clear
  simp only [Option.bind_eq_bind, ho, Option.bind_some, Option.pure_def]
  rw [this]
  rfl

section
variable {G K A S V : Type} [DecidableEq G] [CommRing K] [LinearOrder K]

theorem monitor_init_congr {F : Type} : ∀ (l l' : List (Monitor F V)), l'.map (·.compute) = l.map (·.compute) → l'.map Monitor.init = l.map Monitor.init
  | [], [], _ => rfl
  | [], _ :: _, h => by cases h
  | _ :: _, [], h => by cases h
  | m :: l, m' :: l', h => by
      simp only [List.map_cons, List.cons.injEq] at h ⊢
      refine ⟨?_, monitor_init_congr l l' h.2⟩
      unfold Monitor.init
      rw [h.1]

/-- The initialization gives the same state whatever was there before. -/
theorem gaInit_prev (env : GaEnv G K A S V) (prev prev' : GaState G (FVec K) A V) (initial : List (Cand G (FVec K))) (hc : ∃ d, prev.cache.Repr d) (hc' : ∃ d, prev'.cache.Repr d)
    (hm : SameMetrics prev prev') : gaInit env prev' initial = gaInit env prev initial := by
  obtain ⟨d, hd⟩ := hc
  obtain ⟨d', hd'⟩ := hc'
  unfold gaInit
  rw [FifoCache.reset_eq_init hd, FifoCache.reset_eq_init hd', monitor_init_congr prev.stats prev'.stats hm]
  rfl

theorem gaSolve_prev (env : GaEnv G K A S V) (prev prev' : GaState G (FVec K) A V) (initial : List (Cand G (FVec K))) (hc : ∃ d, prev.cache.Repr d) (hc' : ∃ d, prev'.cache.Repr d)
    (hm : SameMetrics prev prev') : gaSolve env prev' initial = gaSolve env prev initial := by
  unfold gaSolve
  rw [gaInit_prev env prev prev' initial hc hc' hm]

theorem sameMetrics_refl {F : Type} (st : GaState G F A V) : SameMetrics st st := rfl

theorem SameMetrics_update {F : Type} (st : GaState G F A V) : (updateMetrics st).stats.map (·.compute) = st.stats.map (·.compute) := by
  simp only [updateMetrics, List.map_map]
  rfl

/-- The cache and the metrics that a state has. -/
def Kept (fresh st : GaState G (FVec K) A V) : Prop := (∃ d, st.cache.Repr d) ∧ SameMetrics fresh st

theorem kept_init (env : GaEnv G K A S V) (fresh prev st : GaState G (FVec K) A V) (initial : List (Cand G (FVec K))) (h : Kept fresh prev) (hst : gaInit env prev initial = some st) : Kept fresh st := by
  obtain ⟨⟨d, hd⟩, hm⟩ := h
  unfold gaInit at hst
  rw [FifoCache.reset_eq_init hd] at hst
  dsimp only at hst
  simp only [Option.bind_eq_bind, Option.bind_some] at hst
  rw [Option.bind_eq_some_iff] at hst
  obtain ⟨_, _, hst⟩ := hst
  rw [Option.bind_eq_some_iff] at hst
  obtain ⟨_, _, hst⟩ := hst
  obtain rfl := Option.some.inj hst
  refine ⟨⟨_, FifoCache.repr_init _ _⟩, ?_⟩
  unfold SameMetrics
  rw [SameMetrics_update, ← hm]
  simp only [List.map_map]
  rfl

theorem kept_updateOptimal (env : GaEnv G K A S V) (fresh st st' : GaState G (FVec K) A V) (h : Kept fresh st) (hst : updateOptimal env st = some st') : Kept fresh st' := by
  obtain ⟨sols, rfl⟩ := updateOptimal_same env st st' hst
  exact h

theorem kept_advance (env : GaEnv G K A S V) (fresh st st' : GaState G (FVec K) A V) (h : Kept fresh st) (hst : advance env st = some st') : Kept fresh st' := by
  unfold advance at hst
  split at hst
  swap
  · cases hst
  dsimp only at hst
  simp only [Option.bind_eq_bind] at hst
  rw [Option.bind_eq_some_iff] at hst
  obtain ⟨_, _, hst⟩ := hst
  rw [Option.bind_eq_some_iff] at hst
  obtain ⟨e, _, hst⟩ := hst
  rw [Option.bind_eq_some_iff] at hst
  obtain ⟨s1, hs1, hst⟩ := hst
  rw [Option.bind_eq_some_iff] at hst
  obtain ⟨s2, hs2, hst⟩ := hst
  have k1 : Kept fresh s1 := by
    unfold updatePopulation at hs1
    obtain ⟨⟨d, hd⟩, hm⟩ := h
    obtain ⟨c, hc, hr⟩ := hd.insertRange (st.pop.map (fun c => (c.chrom, c.fitness)))
    simp only [Option.bind_eq_bind] at hs1
    rw [Option.bind_eq_some_iff] at hs1
    obtain ⟨c', hc', hs1⟩ := hs1
    have : some c = some c' := hc.symm.trans hc'
    cases this
    rw [Option.bind_eq_some_iff] at hs1
    obtain ⟨_, _, hs1⟩ := hs1
    obtain rfl := Option.some.inj hs1
    exact ⟨⟨_, hr⟩, hm⟩
  have k2 : Kept fresh s2 := by
    unfold collectOptimal at hs2
    split at hs2
    · exact kept_updateOptimal env fresh s1 s2 k1 hs2
    · cases hs2; exact k1
  obtain rfl := Option.some.inj hst
  obtain ⟨hc, hm⟩ := k2
  exact ⟨hc, (SameMetrics_update s2).trans hm⟩

theorem kept_gens (env : GaEnv G K A S V) (fresh prev : GaState G (FVec K) A V) (initial : List (Cand G (FVec K))) (h : Kept fresh prev) :
    ∀ n st, gaGens env prev initial n = some st → Kept fresh st
  | 0, st, hst => kept_init env fresh prev st initial h hst
  | n + 1, st, hst => by
      rw [gaGens_succ, Option.bind_eq_some_iff] at hst
      obtain ⟨s, hs, hst⟩ := hst
      exact kept_advance env fresh s st (kept_gens env fresh prev initial h n s hs) hst

theorem kept_solveLoop (env : GaEnv G K A S V) (fresh : GaState G (FVec K) A V) : ∀ (fuel : Nat) (s : S) (st st' : GaState G (FVec K) A V), Kept fresh st → solveLoop env fuel s st = some st' → Kept fresh st'
  | 0, _, _, _, _, h => by simp [solveLoop] at h
  | fuel + 1, s, st, st', hk, h => by
      rw [solveLoop] at h
      split at h
      · cases h; exact hk
      · simp only [Option.bind_eq_bind] at h
        rw [Option.bind_eq_some_iff] at h
        obtain ⟨a, ha, h⟩ := h
        exact kept_solveLoop env fresh fuel _ a st' (kept_advance env fresh st a hk ha) h

theorem kept_solve (env : GaEnv G K A S V) (fresh prev st : GaState G (FVec K) A V) (initial : List (Cand G (FVec K))) (h : Kept fresh prev) (hst : gaSolve env prev initial = some st) : Kept fresh st := by
  unfold gaSolve at hst
  simp only [Option.bind_eq_bind] at hst
  rw [Option.bind_eq_some_iff] at hst
  obtain ⟨s0, h0, hst⟩ := hst
  rw [Option.bind_eq_some_iff] at hst
  obtain ⟨s1, h1, hst⟩ := hst
  have k1 := kept_solveLoop env fresh _ _ s0 s1 (kept_init env fresh prev s0 initial h h0) h1
  split at hst
  · cases hst; exact k1
  · exact kept_updateOptimal env fresh s1 st k1 hst

theorem usedBefore_kept (fresh st : GaState G (FVec K) A V) (hc : ∃ d, fresh.cache.Repr d) (h : UsedBefore fresh st) : Kept fresh st := by
  induction h with
  | fresh => exact ⟨hc, rfl⟩
  | solved env initial st st' _ hs ih => exact kept_solve env fresh st st' initial ih hs
  | left env initial n st st' _ hs ih => exact kept_gens env fresh st initial ih n st' hs
  | interrupted ops st st' _ hcache hm ih =>
    obtain ⟨⟨d, hd⟩, hm'⟩ := ih
    obtain ⟨c, hc, hr⟩ := FifoCache.Repr.run ops hd
    rw [hcache] at hc
    cases hc
    exact ⟨⟨_, hr⟩, hm.trans hm'⟩
end

end Gapp.Model
