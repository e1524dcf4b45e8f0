import Verif.Model.GaDynamic
import Verif.Spec.GaDynamic
import Verif.Props.GaBest
import Verif.Proofs.GaDomain
/-!
# C71: dynamic fitness functions
-/

namespace Gapp.Props
open Gapp.Model Gapp.Spec

section
variable {G K A S V : Type} [DecidableEq G] [CommRing K] [LinearOrder K]

/-- There are always as many children as candidates in the population. -/
theorem makeChildren_length (env : GaEnv G K A S V) (st : GaState G (FVec K) A V) (alg : A) (children) (hch : makeChildren env st alg = some children) : children.length = env.popSize := by
  have hloop : ∀ (l : List Nat) (v ch : List (Cand G (FVec K))), l.foldlM (fun children i => do
      let pair ← makePair env st alg i
      let children ← assignAt children (2 * i) pair.1
      assignAt children (2 * i + 1) pair.2) v = some ch → ch.length = v.length := by
    intro l
    induction l with
    | nil => intro v ch h; simp at h; rw [h]
    | cons i l ih =>
      intro v ch h
      simp only [List.foldlM_cons, Option.bind_eq_bind, Option.bind_eq_some_iff] at h
      obtain ⟨v', ⟨pair, -, w, hw, hv'⟩, h⟩ := h
      obtain ⟨-, rfl⟩ := assignAt_some hw
      obtain ⟨-, rfl⟩ := assignAt_some hv'
      rw [ih _ _ h]; simp
  unfold makeChildren at hch
  dsimp only at hch
  simp only [Option.bind_eq_bind] at hch hloop
  rw [Option.bind_eq_some_iff] at hch
  obtain ⟨ch, h1, hch⟩ := hch
  have hl := hloop _ _ _ h1
  split at hch
  · rw [Option.bind_eq_some_iff] at hch
    obtain ⟨pair, -, hch⟩ := hch
    obtain ⟨-, rfl⟩ := assignAt_some hch
    simpa using hl
  · obtain rfl := Option.some.inj hch
    simpa using hl

/-- What is moved out of a container comes from one of the requested positions. -/
theorem selectMove_position {α : Type} : ∀ (idx : List Nat) (v r : List (Option α)), selectMove v idx = some r → ∀ x, some x ∈ r → ∃ i ∈ idx, v[i]? = some (some x)
  | [], v, r, h, x, hx => by simp [selectMove] at h; subst h; simp at hx
  | i :: idx, v, r, h, x, hx => by
    unfold selectMove at h
    simp only [Option.bind_eq_bind, Option.bind_eq_some_iff] at h
    obtain ⟨y, hy, r', hr', h⟩ := h
    obtain rfl := Option.some.inj h
    rcases List.mem_cons.mp hx with rfl | hx
    · exact ⟨i, List.mem_cons_self, hy⟩
    · obtain ⟨j, hj, hv⟩ := selectMove_position idx _ _ hr' x hx
      rw [List.getElem?_set] at hv
      split at hv
      · split at hv <;> simp at hv
      · exact ⟨j, List.mem_cons_of_mem _ hj, hv⟩

theorem nextPopulation_position (env : GaEnv G K A S V) (alg : A) (gen : Nat) (parents children : List (Cand G (FVec K))) (r) (h : nextPopulation env alg gen parents children = some r) :
    ∀ c ∈ r.1, ∃ i ∈ (env.algNext alg ((parents ++ children).map (·.fitness)) gen).1, (parents ++ children)[i]? = some c := by
  unfold nextPopulation at h
  dsimp only at h
  simp only [Option.bind_eq_bind, Option.bind_eq_some_iff] at h
  obtain ⟨moved, h1, pop, h2, h⟩ := h
  obtain rfl := Option.some.inj h
  intro c hc
  obtain ⟨i, hi, hv⟩ := selectMove_position _ _ _ h1 c (mapM_id_mem _ _ h2 c hc)
  refine ⟨i, hi, ?_⟩
  rw [List.getElem?_map, Option.map_eq_some_iff] at hv
  obtain ⟨y, hy, he⟩ := hv
  rw [hy, Option.some.inj he]

/-- The solutions after an update are old solutions or candidates of the population. -/
theorem updateOptimal_mem (env : GaEnv G K A S V) (hsort : ∀ l, ∀ c ∈ env.sortSols l, c ∈ l) (st st' : GaState G (FVec K) A V) (hu : updateOptimal env st = some st') :
    ∀ c ∈ st'.sols, c ∈ st.sols ∨ c ∈ st.pop := by
  unfold updateOptimal at hu
  simp only [Option.bind_eq_bind, Option.bind_eq_some_iff] at hu
  obtain ⟨opt, h1, merged, h2, hu⟩ := hu
  obtain rfl := Option.some.inj hu
  intro c hc
  rcases mergeParetoSets_mem _ _ _ _ _ _ h2 c (hsort _ _ (uniqueChroms_mem _ c hc)) with h3 | h3
  · exact Or.inl h3
  · right
    unfold optimalSolutions at h1
    dsimp only at h1
    split at h1
    · exact popParetoFront_mem env _ _ h1 c h3
    · exact selectCopy_mem h1 c h3

/-- With a dynamic fitness function every candidate of a list is evaluated, whether or not it has been evaluated before. -/
theorem evalAll_dynamic (env : GaEnv G K A S V) (hd : env.dynamic = true) (hc : env.cachedGens = 0) (cache : FifoCache (List G) (FVec K)) (cands : List (Cand G (FVec K))) (evals : Nat)
    (calls : List (List G)) (sched : List Nat) (res) (h : evalAll env cache cands evals calls sched = some res) :
    res.1 = cands.map (fun c => { c with fitness := env.fitness c.chrom, evaluated := true }) ∧ res.2.1 = evals + cands.length ∧
      ∃ l, res.2.2 = calls ++ l ∧ l.Perm (cands.map (·.chrom)) := by
  obtain ⟨h1, h2, l, h3, h4⟩ := evalAll_spec env (fun _ => hc) cache cands evals calls sched res h
  have hn : ∀ c, needsEval env cache c = true := by
    intro c; unfold needsEval; simp [hd, hc]
  have hf : cands.filter (needsEval env cache) = cands := List.filter_eq_self.mpr (fun c _ => hn c)
  rw [hf] at h2 h4
  refine ⟨?_, h2, l, h3, h4⟩
  rw [h1]
  refine List.map_congr_left (fun c _ => ?_)
  unfold evalOne
  rw [if_neg (by simp [hd]), if_pos (hn c)]

/-- The initialization of a run with a dynamic fitness function. -/
theorem gaInit_dynamic (env : GaEnv G K A S V) (hd : env.dynamic = true) (hc : env.cachedGens = 0) (prev st : GaState G (FVec K) A V) (initial : List (Cand G (FVec K)))
    (h : gaInit env prev initial = some st) :
    st.pop.length = env.popSize ∧ (∀ c ∈ st.pop, c.evaluated = true ∧ c.fitness = env.fitness c.chrom) ∧ (∀ c ∈ st.sols, c ∈ st.pop) ∧ st.evals = env.popSize ∧
      ∃ l, st.calls = env.generate 0 :: l ∧ l.Perm (st.pop.map (·.chrom)) := by
  unfold gaInit at h
  dsimp only at h
  simp only [Option.bind_eq_bind, Option.bind_eq_some_iff] at h
  obtain ⟨cache, -, ⟨pop, evals, calls⟩, h2, sols, h3, h⟩ := h
  obtain rfl := Option.some.inj h
  obtain ⟨e1, e2, l, e3, e4⟩ := evalAll_dynamic env hd hc _ _ _ _ _ _ h2
  dsimp only at e1 e2 e3
  have hl := generatePopulation_length env initial
  refine ⟨?_, ?_, ?_, ?_, l, e3, ?_⟩
  · show pop.length = _
    rw [e1, List.length_map, hl]
  · show ∀ c ∈ pop, _
    rw [e1]
    intro c hc
    obtain ⟨c', -, rfl⟩ := List.mem_map.mp hc
    exact ⟨rfl, rfl⟩
  · show ∀ c ∈ sols, c ∈ pop
    unfold initialSols at h3
    split at h3
    · exact popParetoFront_mem env _ _ h3
    · obtain rfl := Option.some.inj h3; simp
  · show evals = _
    rw [e2, hl, Nat.zero_add]
  · show l.Perm (pop.map (·.chrom))
    rw [e1, List.map_map]
    exact e4

/-- One generation of a run with a dynamic fitness function. -/
theorem advance_dynamic (env : GaEnv G K A S V) (hd : env.dynamic = true) (hc : env.cachedGens = 0) (hsort : ∀ l, ∀ c ∈ env.sortSols l, c ∈ l) (st st' : GaState G (FVec K) A V)
    (h : advance env st = some st') :
    st.pop.length = env.popSize ∧ ∃ children : List (Cand G (FVec K)), children.length = env.popSize ∧ (∀ c ∈ children, c.evaluated = true ∧ c.fitness = env.fitness c.chrom) ∧
      st'.evals = st.evals + env.popSize ∧ (∃ l, st'.calls = st.calls ++ l ∧ l.Perm (children.map (·.chrom))) ∧
      (∀ c ∈ st'.pop, ∃ i ∈ (env.algNext (env.algPrepare st.alg st.fmat) ((st.pop ++ children).map (·.fitness)) (st.gen + 1)).1, (st.pop ++ children)[i]? = some c) ∧
      (∀ c ∈ st'.sols, c ∈ st.sols ∨ c ∈ st'.pop) := by
  unfold advance at h
  split at h
  swap
  · cases h
  rename_i hsize
  refine ⟨hsize, ?_⟩
  dsimp only at h
  simp only [Option.bind_eq_bind, Option.bind_eq_some_iff] at h
  obtain ⟨children, h1, ⟨ec, evals, calls⟩, h2, s1, h3, s2, h4, h⟩ := h
  obtain rfl := Option.some.inj h
  obtain ⟨e1, e2, l, e3, e4⟩ := evalAll_dynamic env hd hc _ _ _ _ _ _ h2
  dsimp only at e1 e2 e3
  have hl := makeChildren_length env _ _ _ h1
  simp only [List.length_map, List.length_zipIdx] at e2
  rw [hl] at e2
  have h3' : s1.evals = evals ∧ s1.calls = calls ∧ s1.sols = st.sols ∧
      ∀ c ∈ s1.pop, ∃ i ∈ (env.algNext (env.algPrepare st.alg st.fmat) ((st.pop ++ ec).map (·.fitness)) (st.gen + 1)).1, (st.pop ++ ec)[i]? = some c := by
    unfold updatePopulation at h3
    simp only [Option.bind_eq_bind, Option.bind_eq_some_iff] at h3
    obtain ⟨cache, -, ⟨pop, alg⟩, h5, h3⟩ := h3
    obtain rfl := Option.some.inj h3
    exact ⟨rfl, rfl, rfl, nextPopulation_position env _ _ _ _ _ h5⟩
  obtain ⟨f1, f2, f3, f4⟩ := h3'
  have h4' : s2.evals = s1.evals ∧ s2.calls = s1.calls ∧ s2.pop = s1.pop ∧ ∀ c ∈ s2.sols, c ∈ s1.sols ∨ c ∈ s1.pop := by
    unfold collectOptimal at h4
    split at h4
    · have hm := updateOptimal_mem env hsort _ _ h4
      obtain ⟨sols, rfl⟩ := updateOptimal_same env _ _ h4
      exact ⟨rfl, rfl, rfl, hm⟩
    · obtain rfl := Option.some.inj h4
      exact ⟨rfl, rfl, rfl, fun c hc => Or.inl hc⟩
  obtain ⟨g1, g2, g3, g4⟩ := h4'
  refine ⟨ec, ?_, ?_, ?_, ⟨l, ?_, ?_⟩, ?_, ?_⟩
  · rw [e1]; simp [hl]
  · rw [e1]
    intro c hc
    obtain ⟨c', -, rfl⟩ := List.mem_map.mp hc
    exact ⟨rfl, rfl⟩
  · show s2.evals = _
    rw [g1, f1, e2]
  · show s2.calls = _
    rw [g2, f2, e3]
  · rw [e1, List.map_map]; exact e4
  · show ∀ c ∈ s2.pop, _
    rw [g3]; exact f4
  · show ∀ c ∈ s2.sols, c ∈ st.sols ∨ c ∈ s2.pop
    rw [g3, ← f3]; exact g4

/-- **C71**, the number of calls: with a dynamic fitness function and no cache, the initialization and `n` generations take exactly `population_size * (n + 1)` counted evaluations, whatever the schedule,
the operators and the algorithm do. The function is called once more, for the number of objectives. -/
theorem C71_evaluations (env : GaEnv G K A S V) (hd : env.dynamic = true) (hc : env.cachedGens = 0) (hsort : ∀ l, ∀ c ∈ env.sortSols l, c ∈ l) (fit : Nat → List G → FVec K)
    (prev : GaState G (FVec K) A V) (initial : List (Cand G (FVec K))) (n : Nat) (st : GaState G (FVec K) A V) (h : dynGens env fit prev initial n = some st) :
    st.evals = env.popSize * (n + 1) ∧ st.calls.length = env.popSize * (n + 1) + 1 := by
  induction n generalizing st with
  | zero =>
    obtain ⟨h1, -, -, h4, l, h5, h6⟩ := gaInit_dynamic (envAt env fit 0) hd hc prev st initial h
    refine ⟨by rw [h4]; simp [envAt], ?_⟩
    rw [h5, List.length_cons, h6.length_eq, List.length_map, h1]
    simp [envAt]
  | succ n ih =>
    unfold dynGens at h
    simp only [Option.bind_eq_bind, Option.bind_eq_some_iff] at h
    obtain ⟨s0, h0, h⟩ := h
    obtain ⟨-, children, h1, -, h3, ⟨l, h4, h5⟩, -⟩ := advance_dynamic (envAt env fit (n + 1)) hd hc hsort s0 st h
    obtain ⟨i1, i2⟩ := ih s0 h0
    have hp : (envAt env fit (n + 1)).popSize = env.popSize := rfl
    rw [hp] at h1 h3
    constructor
    · rw [h3, i1]; ring
    · rw [h4, List.length_append, i2, h5.length_eq, List.length_map, h1]; ring

/-- **C71**, the children: in every generation all the new candidates get the value that the fitness function has in this generation, even if they are copies of evaluated candidates, and the population
is made of old candidates and of these. -/
theorem C71_children_current (env : GaEnv G K A S V) (hd : env.dynamic = true) (hc : env.cachedGens = 0) (hsort : ∀ l, ∀ c ∈ env.sortSols l, c ∈ l) (fit : Nat → List G → FVec K)
    (prev : GaState G (FVec K) A V) (initial : List (Cand G (FVec K))) (n : Nat) (st st' : GaState G (FVec K) A V) (h : dynGens env fit prev initial n = some st)
    (h' : dynGens env fit prev initial (n + 1) = some st') :
    ∃ children : List (Cand G (FVec K)), children.length = env.popSize ∧ (∀ c ∈ children, CurrentAt fit (n + 1) c) ∧ (∃ l, st'.calls = st.calls ++ l ∧ l.Perm (children.map (·.chrom))) ∧
      ∀ c ∈ st'.pop, c ∈ st.pop ∨ c ∈ children := by
  unfold dynGens at h'
  simp only [Option.bind_eq_bind, Option.bind_eq_some_iff] at h'
  obtain ⟨s0, h0, h'⟩ := h'
  rw [h] at h0
  obtain rfl := Option.some.inj h0
  obtain ⟨-, children, h1, h2, -, h4, h5, -⟩ := advance_dynamic (envAt env fit (n + 1)) hd hc hsort st st' h'
  refine ⟨children, h1, h2, h4, fun c hc => ?_⟩
  obtain ⟨i, -, hi⟩ := h5 c hc
  exact List.mem_append.mp (List.mem_of_getElem? hi)

/-- **C71**, the values: the fitness of every candidate of the population, and of every solution, is a value that the fitness function had for its chromosome in some generation of the run. -/
theorem C71_measured (env : GaEnv G K A S V) (hd : env.dynamic = true) (hc : env.cachedGens = 0) (hsort : ∀ l, ∀ c ∈ env.sortSols l, c ∈ l) (fit : Nat → List G → FVec K)
    (prev : GaState G (FVec K) A V) (initial : List (Cand G (FVec K))) (n : Nat) (st : GaState G (FVec K) A V) (h : dynGens env fit prev initial n = some st) :
    (∀ c ∈ st.pop, MeasuredBy fit n c) ∧ (∀ c ∈ st.sols, MeasuredBy fit n c) := by
  induction n generalizing st with
  | zero =>
    obtain ⟨-, h2, h3, -⟩ := gaInit_dynamic (envAt env fit 0) hd hc prev st initial h
    have hp : ∀ c ∈ st.pop, MeasuredBy fit 0 c := fun c hc => ⟨0, Nat.le_refl _, h2 c hc⟩
    exact ⟨hp, fun c hc => hp c (h3 c hc)⟩
  | succ n ih =>
    unfold dynGens at h
    simp only [Option.bind_eq_bind, Option.bind_eq_some_iff] at h
    obtain ⟨s0, h0, h⟩ := h
    obtain ⟨i1, i2⟩ := ih s0 h0
    obtain ⟨-, children, -, h2, -, -, h5, h6⟩ := advance_dynamic (envAt env fit (n + 1)) hd hc hsort s0 st h
    have mono : ∀ c, MeasuredBy fit n c → MeasuredBy fit (n + 1) c := fun c ⟨k, hk, hx⟩ => ⟨k, by omega, hx⟩
    have hp : ∀ c ∈ st.pop, MeasuredBy fit (n + 1) c := by
      intro c hc
      obtain ⟨i, -, hi⟩ := h5 c hc
      rcases List.mem_append.mp (List.mem_of_getElem? hi) with hm | hm
      · exact mono c (i1 c hm)
      · exact ⟨n + 1, Nat.le_refl _, h2 c hm⟩
    refine ⟨hp, fun c hc => ?_⟩
    rcases h6 c hc with hm | hm
    · exact mono c (i2 c hm)
    · exact hp c hm

/-- **C71** for the returned solutions. -/
theorem C71_solutions_measured (env : GaEnv G K A S V) (hd : env.dynamic = true) (hc : env.cachedGens = 0) (hsort : ∀ l, ∀ c ∈ env.sortSols l, c ∈ l) (fit : Nat → List G → FVec K)
    (prev : GaState G (FVec K) A V) (initial : List (Cand G (FVec K))) (n : Nat) (final : GaState G (FVec K) A V) (h : dynSolve env fit prev initial n = some final) :
    ∀ c ∈ final.sols, MeasuredBy fit n c := by
  unfold dynSolve at h
  simp only [Option.bind_eq_bind, Option.bind_eq_some_iff] at h
  obtain ⟨st, h0, h⟩ := h
  obtain ⟨i1, i2⟩ := C71_measured env hd hc hsort fit prev initial n st h0
  split at h
  · obtain rfl := Option.some.inj h
    exact i2
  · intro c hcm
    rcases updateOptimal_mem env hsort _ _ h c hcm with hm | hm
    · exact i2 c hm
    · exact i1 c hm

/-- **C71**, "evaluated every time it is needed": if the replacement only keeps children (as `KeepChildren` does), then in every generation the fitness of every candidate is the value the fitness function has
in this generation. What is missing is the same for the other replacements, for which it is wrong, see `C71_stale_violated`. -/
theorem C71_current_partial (env : GaEnv G K A S V) (hd : env.dynamic = true) (hc : env.cachedGens = 0) (hsort : ∀ l, ∀ c ∈ env.sortSols l, c ∈ l)
    (hk : ∀ a all g, ∀ i ∈ (env.algNext a all g).1, env.popSize ≤ i) (fit : Nat → List G → FVec K)
    (prev : GaState G (FVec K) A V) (initial : List (Cand G (FVec K))) (n : Nat) (st : GaState G (FVec K) A V) (h : dynGens env fit prev initial n = some st) :
    ∀ c ∈ st.pop, CurrentAt fit n c := by
  cases n with
  | zero => exact (gaInit_dynamic (envAt env fit 0) hd hc prev st initial h).2.1
  | succ n =>
    unfold dynGens at h
    simp only [Option.bind_eq_bind, Option.bind_eq_some_iff] at h
    obtain ⟨s0, h0, h⟩ := h
    obtain ⟨hs, children, -, h2, -, -, h5, -⟩ := advance_dynamic (envAt env fit (n + 1)) hd hc hsort s0 st h
    intro c hc
    obtain ⟨i, hi, hci⟩ := h5 c hc
    have hge : env.popSize ≤ i := hk _ _ _ i hi
    have hs : s0.pop.length = env.popSize := hs
    rw [List.getElem?_append_right (by omega)] at hci
    exact h2 c (List.mem_of_getElem? hci)
end

/-! ## Cases that meet the assumptions -/

/-- A fitness function that gets worse by ten with every generation. -/
def demoDynFit (n : Nat) (x : List ℤ) : FVec ℤ := [.fin (x.getD 0 0 - 10 * (n : ℤ))]

/-- A dynamic fitness function with one objective; the children replace the parents. -/
def demoDynChildren : GaEnv ℤ ℤ Unit Unit (FVec ℤ) := { demoInt true 0 4 with dynamic := true, numObj := 1 }

/-- A dynamic fitness function with `KeepBest`. -/
def demoDynBest : GaEnv ℤ ℤ Unit Unit (FVec ℤ) := { demoElitism with dynamic := true }

theorem demoSort_mem (l : List (Cand ℤ (FVec ℤ))) : ∀ c ∈ demoSort l, c ∈ l := fun _ hc => (List.perm_insertionSort _ l).mem_iff.mp hc

-- three generations: 8 counted evaluations, 9 calls; all the candidates have the value of the last generation
example : ∃ st, dynGens demoDynChildren demoDynFit (demoPrev ℤ) [] 3 = some st ∧ st.evals = 8 ∧ st.calls.length = 9 ∧ st.pop ≠ [] ∧ ∀ c ∈ st.pop, CurrentAt demoDynFit 3 c := by
  have hd : (dynGens demoDynChildren demoDynFit (demoPrev ℤ) [] 3).map (fun st => decide (st.pop = [])) = some false := by decide +kernel
  obtain ⟨st, h1, h2⟩ := Option.map_eq_some_iff.mp hd
  obtain ⟨e1, e2⟩ := C71_evaluations demoDynChildren rfl rfl demoSort_mem demoDynFit _ _ 3 st h1
  refine ⟨st, h1, e1, e2, of_decide_eq_false h2, C71_current_partial demoDynChildren rfl rfl demoSort_mem ?_ demoDynFit _ _ 3 st h1⟩
  intro a all g i hi
  have hi : i ∈ [2, 3] := hi
  show 2 ≤ i
  simp at hi; omega

-- a run with `KeepBest`: the number of evaluations is the same
example : (dynGens demoDynBest demoDynFit (demoPrev ℤ) [] 3).map (fun st => (st.evals, st.pop.map (·.chrom), st.pop.map (·.fitness))) =
    some (8, [[2, 0], [1, 1]], [[.fin 2], [.fin 1]]) := by decide +kernel

/-- C71 is violated when parents survive: they are not evaluated again, and keep the value from the generation in which they were made. Here the run uses `KeepBest` and the values get worse by ten in every
generation. The fitness of the returned solution is the one from the first generation, and not the one of the last generation, in which another chromosome that the run evaluated is better. -/
theorem C71_stale_violated : UsesElitism { demoDynBest with dynamic := false } ∧ ∃ final, dynSolve demoDynBest demoDynFit (demoPrev ℤ) [] 3 = some final ∧
    ∃ s ∈ final.sols, CurrentAt demoDynFit 0 s ∧ s.fitness ≠ demoDynFit 3 s.chrom ∧ ∃ x ∈ evaluatedChroms final, demoDynFit 3 s.chrom < demoDynFit 3 x := by
  refine ⟨demoElitism_uses, ?_⟩
  have hd : (dynSolve demoDynBest demoDynFit (demoPrev ℤ) [] 3).map (fun st => decide (∃ s ∈ st.sols, (s.evaluated = true ∧ s.fitness = demoDynFit 0 s.chrom) ∧ s.fitness ≠ demoDynFit 3 s.chrom ∧
      ∃ x ∈ evaluatedChroms st, demoDynFit 3 s.chrom < demoDynFit 3 x)) = some true := by decide +kernel
  obtain ⟨final, h1, h2⟩ := Option.map_eq_some_iff.mp hd
  have h3 := of_decide_eq_true h2
  exact ⟨final, h1, h3⟩

end Gapp.Props
