import Verif.Props.GaLoop
/-!
# C94: the fitness cache and the last generations
-/

namespace Gapp.Props
open Gapp.Model Gapp.Model.FifoCache Gapp.Spec

section
variable {κ ν : Type} [DecidableEq κ]

/-- The key is in the map, and at most `b` entries are newer. -/
def Young (k : κ) (b : Nat) (d : FifoMap κ ν) : Prop := ∃ pre e post, d.entries = pre ++ e :: post ∧ e.1 = k ∧ post.length ≤ b

theorem young_insert {k : κ} {b : Nat} {d : FifoMap κ ν} (h : Young k b d) (hb : b + 1 < d.cap) (k' : κ) (v : ν) : Young k (b + 1) (d.insert k' v) := by
  obtain ⟨pre, e, post, h1, h2, h3⟩ := h
  unfold FifoMap.insert
  split
  · exact ⟨pre, e, post, h1, h2, by omega⟩
  · split
    · refine ⟨pre.map (fun p => if p.1 = k' then (k', v) else p), if e.1 = k' then (k', v) else e, post.map (fun p => if p.1 = k' then (k', v) else p), by simp [h1], ?_, by simp; omega⟩
      split
      · next h => rw [← h2, h]
      · exact h2
    · split
      · next hf =>
        cases pre with
        | nil => rw [h1] at hf; simp at hf; omega
        | cons q pre => exact ⟨pre, e, post ++ [(k', v)], by simp [h1], h2, by simp; omega⟩
      · exact ⟨pre, e, post ++ [(k', v)], by simp [h1], h2, by simp; omega⟩

theorem insert_cap (d : FifoMap κ ν) (k : κ) (v : ν) : (d.insert k v).cap = d.cap := by
  unfold FifoMap.insert
  split
  · rfl
  · split
    · rfl
    · split <;> rfl

theorem foldl_insert_cap (xs : List (κ × ν)) : ∀ d : FifoMap κ ν, (xs.foldl (fun d p => d.insert p.1 p.2) d).cap = d.cap := by
  induction xs with
  | nil => intro d; rfl
  | cons p xs ih => intro d; rw [List.foldl_cons, ih, insert_cap]

theorem young_fold (k : κ) (xs : List (κ × ν)) : ∀ (b : Nat) (d : FifoMap κ ν), Young k b d → b + xs.length < d.cap → Young k (b + xs.length) (xs.foldl (fun d p => d.insert p.1 p.2) d) := by
  induction xs with
  | nil => intro b d h _; exact h
  | cons p xs ih =>
    intro b d h hb
    rw [List.length_cons] at hb
    have := ih (b + 1) (d.insert p.1 p.2) (young_insert h (by omega) _ _) (by rw [insert_cap]; omega)
    rw [List.foldl_cons, List.length_cons]
    rwa [show b + (xs.length + 1) = b + 1 + xs.length by omega]

theorem insert_new {k : κ} {d : FifoMap κ ν} (hc : 0 < d.cap) (h : k ∉ d.entries.map (·.1)) (v : ν) : Young k 0 (d.insert k v) := by
  unfold FifoMap.insert
  rw [if_neg (by omega), if_neg h]
  split
  · exact ⟨_, (k, v), [], rfl, rfl, Nat.le_refl _⟩
  · exact ⟨_, (k, v), [], rfl, rfl, Nat.le_refl _⟩

theorem insert_absent {k k' : κ} {d : FifoMap κ ν} (h : k ∉ d.entries.map (·.1)) (hk : k ≠ k') (v : ν) : k ∉ (d.insert k' v).entries.map (·.1) := by
  unfold FifoMap.insert
  split
  · exact h
  · split
    · intro hm
      simp only [List.map_map, List.mem_map, Function.comp] at hm
      obtain ⟨q, hq, e⟩ := hm
      split at e
      · exact hk e.symm
      · exact h (List.mem_map.mpr ⟨q, hq, e⟩)
    · split
      · intro hm
        rw [List.map_append, List.mem_append] at hm
        rcases hm with hm | hm
        · rw [List.map_tail] at hm
          exact h (List.mem_of_mem_tail hm)
        · simp at hm; exact hk hm
      · intro hm
        rw [List.map_append, List.mem_append] at hm
        rcases hm with hm | hm
        · exact h hm
        · simp at hm; exact hk hm

theorem fold_absent (k : κ) (xs : List (κ × ν)) : ∀ (d : FifoMap κ ν), k ∉ d.entries.map (·.1) → k ∉ xs.map (·.1) → k ∉ (xs.foldl (fun d p => d.insert p.1 p.2) d).entries.map (·.1) := by
  induction xs with
  | nil => intro d h _; exact h
  | cons p xs ih =>
    intro d h hk
    simp only [List.map_cons, List.mem_cons, not_or] at hk
    exact ih _ (insert_absent h hk.1 _) hk.2

/-- The first insertion of a key, in a list that is not longer than the capacity. -/
theorem fold_new (k : κ) (xs : List (κ × ν)) : ∀ (d : FifoMap κ ν), k ∉ d.entries.map (·.1) → k ∈ xs.map (·.1) → xs.length ≤ d.cap →
    Young k (xs.length - 1) (xs.foldl (fun d p => d.insert p.1 p.2) d) := by
  induction xs with
  | nil => intro d _ h; simp at h
  | cons p xs ih =>
    intro d h hk hl
    rw [List.length_cons] at hl
    rw [List.foldl_cons]
    by_cases e : k = p.1
    · have := young_fold k xs 0 (d.insert p.1 p.2) (by rw [← e]; exact insert_new (by omega) h p.2) (by rw [insert_cap]; omega)
      rw [Nat.zero_add] at this
      simpa using this
    · have hk' : k ∈ xs.map (·.1) := by simpa [e] using hk
      obtain ⟨pre, e', post, h1, h2, h3⟩ := ih (d.insert p.1 p.2) (insert_absent h e _) hk' (by rw [insert_cap]; omega)
      exact ⟨pre, e', post, h1, h2, by simp; omega⟩

theorem young_lookup {k : κ} {b : Nat} {d : FifoMap κ ν} (h : Young k b d) : (d.lookup k).isSome = true := by
  obtain ⟨pre, e, post, h1, h2, -⟩ := h
  rw [Option.isSome_iff_ne_none, FifoMap.lookup, Ne, List.lookup_eq_none_iff, h1]
  intro h
  have := h e (by simp)
  rw [h2] at this
  simp at this
end

section
variable {G K A S V : Type} [DecidableEq G] [CommRing K] [LinearOrder K]

/-- What a generation does to the cache and the calls. -/
theorem advance_cache {env : GaEnv G K A S V} (hdyn : env.dynamic = false) (hc : env.cachedGens ≠ 0) {st st' : GaState G (FVec K) A V} (h : advance env st = some st') :
    st.pop.length = env.popSize ∧ st.cache.insertRange (st.pop.map (fun c => (c.chrom, c.fitness))) = some st'.cache ∧
      ∃ new, st'.calls = st.calls ++ new ∧ ∀ x ∈ new, st.cache.get x = none := by
  unfold advance at h
  split at h
  · next hl =>
    refine ⟨hl, ?_⟩
    simp only [Option.bind_eq_bind, Option.bind_eq_some_iff] at h
    obtain ⟨children, -, ⟨children', evals, calls⟩, h2, st1, h3, st2, h4, h5⟩ := h
    obtain ⟨-, -, new, h6, h7⟩ := evalAll_spec env (by rw [hdyn]; simp) _ _ _ _ _ _ h2
    simp only [updatePopulation, Option.bind_eq_bind, Option.bind_eq_some_iff] at h3
    obtain ⟨cache, h8, ⟨pop, alg⟩, -, h9⟩ := h3
    have e1 : st1.cache = cache ∧ st1.calls = calls := by
      obtain rfl := Option.some.inj h9
      exact ⟨rfl, rfl⟩
    have e2 : st2.cache = st1.cache ∧ st2.calls = st1.calls := by
      unfold collectOptimal at h4
      split at h4
      · simp only [updateOptimal, Option.bind_eq_bind, Option.bind_eq_some_iff] at h4
        obtain ⟨_, -, _, -, h4⟩ := h4
        obtain rfl := Option.some.inj h4
        exact ⟨rfl, rfl⟩
      · obtain rfl := Option.some.inj h4
        exact ⟨rfl, rfl⟩
    have e3 : st'.cache = cache ∧ st'.calls = calls := by
      obtain rfl := Option.some.inj h5
      exact ⟨e2.1.trans e1.1, e2.2.trans e1.2⟩
    refine ⟨by rw [e3.1]; exact h8, new, by rw [e3.2]; exact h6, ?_⟩
    intro x hx
    obtain ⟨c, hc1, rfl⟩ := List.mem_map.mp ((h7.mem_iff).mp hx)
    have := (List.mem_filter.mp hc1).2
    simp only [needsEval, hdyn, hc] at this
    simp at this
    exact this.2
  · simp at h

/-- The populations in the first generations, as the cache gets them. -/
theorem gaGens_cache {env : GaEnv G K A S V} (hdyn : env.dynamic = false) (hc : env.cachedGens ≠ 0) {prev : GaState G (FVec K) A V} (hprev : ∃ d, prev.cache.Repr d) {initial : List (Cand G (FVec K))}
    {x : List G} {j : Nat} {stj : GaState G (FVec K) A V} (hj : gaGens env prev initial j = some stj) (hx : x ∈ stj.pop.map (·.chrom))
    (hnew : ∀ i, i < j → ∀ si, gaGens env prev initial i = some si → x ∉ si.pop.map (·.chrom)) :
    ∀ (g : Nat) (st : GaState G (FVec K) A V), gaGens env prev initial g = some st →
      ∃ d, st.cache.Repr d ∧ d.cap = env.cachedGens * env.popSize ∧ (g ≤ j → x ∉ d.entries.map (·.1)) ∧ (j < g → g ≤ j + env.cachedGens → Young x ((g - j) * env.popSize - 1) d)
  | 0, st, h => by
      rw [gaGens] at h
      obtain ⟨d0, hd0⟩ := hprev
      obtain ⟨c, hc1, hc2⟩ := hd0.reset ((if env.dynamic then 0 else 1) * env.cachedGens * env.popSize) env.cacheExtra
      refine ⟨⟨(if env.dynamic then 0 else 1) * env.cachedGens * env.popSize, []⟩, ?_, by simp [hdyn], by simp, by omega⟩
      have : st.cache = c := by
        unfold gaInit at h
        simp only [hc1, Option.bind_eq_bind, Option.bind_some, Option.bind_eq_some_iff] at h
        obtain ⟨⟨_, _, _⟩, -, _, -, h⟩ := h
        obtain rfl := Option.some.inj h
        rfl
      rw [this]; exact hc2
  | g + 1, st', h => by
      rw [gaGens, Option.bind_eq_bind, Option.bind_eq_some_iff] at h
      obtain ⟨st, hst, h⟩ := h
      obtain ⟨d, hd1, hd2, hd3, hd4⟩ := gaGens_cache hdyn hc hprev hj hx hnew g st hst
      obtain ⟨hl, hins, -⟩ := advance_cache hdyn hc h
      obtain ⟨c', hc1, hc2⟩ := hd1.insertRange (st.pop.map (fun c => (c.chrom, c.fitness)))
      rw [hins] at hc1
      obtain rfl := Option.some.inj hc1
      have hle : env.popSize ≤ env.cachedGens * env.popSize := Nat.le_mul_of_pos_left _ (Nat.pos_of_ne_zero hc)
      have hlen : (st.pop.map (fun c => (c.chrom, c.fitness))).length = env.popSize := by rw [List.length_map, hl]
      rw [hlen, hd2, Nat.sub_eq_zero_of_le hle, List.drop_zero] at hc2
      have hkeys : (st.pop.map (fun c => (c.chrom, c.fitness))).map (·.1) = st.pop.map (·.chrom) := by rw [List.map_map]; rfl
      refine ⟨_, hc2, by rw [foldl_insert_cap, hd2], ?_, ?_⟩
      · intro hgj
        exact fold_absent x _ d (hd3 (by omega)) (by rw [hkeys]; exact hnew g (by omega) st hst)
      · intro h1 h2
        by_cases hgj : g = j
        · subst hgj
          obtain rfl := Option.some.inj (hj.symm.trans hst)
          have := fold_new x (stj.pop.map (fun c => (c.chrom, c.fitness))) d (hd3 (Nat.le_refl _)) (by rw [hkeys]; exact hx) (by rw [hlen, hd2]; exact hle)
          rw [hlen] at this
          simpa using this
        · have hy := hd4 (by omega) (by omega)
          have hP : 0 < env.popSize := by
            obtain ⟨pre, e, post, h3, -⟩ := hy
            have h4 := hd1.le_cap
            rw [h3, hd2, List.length_append, List.length_cons] at h4
            exact Nat.pos_of_ne_zero (fun h0 => by rw [h0, Nat.mul_zero] at h4; omega)
          have hm : (g + 1 - j) * env.popSize ≤ env.cachedGens * env.popSize := Nat.mul_le_mul_right _ (by omega)
          have e : (g + 1 - j) * env.popSize = (g - j) * env.popSize + env.popSize := by
            rw [show g + 1 - j = (g - j) + 1 by omega, Nat.add_mul, Nat.one_mul]
          have h1' : 0 < (g - j) * env.popSize := Nat.mul_pos (by omega) hP
          have := young_fold x (st.pop.map (fun c => (c.chrom, c.fitness))) _ d hy (by rw [hlen, hd2]; omega)
          rw [hlen] at this
          rwa [show (g - j) * env.popSize - 1 + env.popSize = (g + 1 - j) * env.popSize - 1 by omega] at this

/-- **C94 (new chromosomes).** With `cache_size(n)`, a chromosome that is new in the population of generation `j` is not evaluated again in the `n` generations after the next one: in the generations `j + 2` up to
`j + n + 1` the fitness function is not called with it. Missing: the generation `j + 1` (`C94_latest_generation_violated`) and chromosomes that were in the population before (`C94_long_lived_violated`). -/
theorem C94_new_chromosome_partial (env : GaEnv G K A S V) (hdyn : env.dynamic = false) (prev : GaState G (FVec K) A V) (hprev : ∃ d, prev.cache.Repr d) (initial : List (Cand G (FVec K)))
    (x : List G) (j : Nat) (stj : GaState G (FVec K) A V) (hj : gaGens env prev initial j = some stj) (hx : x ∈ stj.pop.map (·.chrom))
    (hnew : ∀ i, i < j → ∀ si, gaGens env prev initial i = some si → x ∉ si.pop.map (·.chrom))
    (g : Nat) (hg1 : j + 2 ≤ g) (hg2 : g ≤ j + env.cachedGens + 1) (st st' : GaState G (FVec K) A V) (hst : gaGens env prev initial (g - 1) = some st) (hst' : gaGens env prev initial g = some st') :
    ∃ new, st'.calls = st.calls ++ new ∧ x ∉ new := by
  have hc : env.cachedGens ≠ 0 := by omega
  obtain ⟨g, rfl⟩ : ∃ g', g = g' + 1 := ⟨g - 1, by omega⟩
  rw [Nat.add_sub_cancel] at hst
  rw [gaGens, hst, Option.bind_eq_bind, Option.bind_some] at hst'
  obtain ⟨d, hd, -, -, hy⟩ := gaGens_cache hdyn hc hprev hj hx hnew g st hst
  obtain ⟨-, -, new, e, hn⟩ := advance_cache hdyn hc hst'
  refine ⟨new, e, fun hmem => ?_⟩
  have h1 := hn x hmem
  have h2 := young_lookup (hy (by omega) (by omega))
  rw [← hd.get, h1] at h2
  simp at h2

end

/-! ## What is missing -/

/-- A run with a cache of two generations. The first child of each generation is mutated into the chromosome that the second candidate of the first population has. -/
def cacheDemo1 : GaEnv ℤ ℤ Unit Unit (FVec ℤ) := { demoInt false 2 4 with mutate := fun _ k c => if k = 0 then [2, 0] else c.chrom }

/-- A run with a cache of one generation. The chromosome `[1, 1]` stays in the population in all the generations. In the third generation the other candidate is mutated into it. -/
def cacheDemo2 : GaEnv ℤ ℤ Unit Unit (FVec ℤ) := { demoInt false 1 5 with mutate := fun g k c => if k = 0 then c.chrom else if g = 3 then [1, 1] else [(g : ℤ) + 10, 0] }

theorem cacheDemo_alg (n : Nat) (gens : Nat) (mutate : Nat → Nat → Cand ℤ (FVec ℤ) → List ℤ) :
    AlgContract { demoInt false n gens with mutate := mutate } (fun _ _ => True) (fun _ _ => True) :=
  demo_alg ℤ exactEq demoFitness (fun k => [(k : ℤ) % 3, (k : ℤ) % 2]) mutate demoSort false n gens

/-- **C94, what does not hold (the latest generation).** The population of the current generation is not in the cache yet when its children are evaluated: a chromosome of this population is evaluated again, also if
the cache has room for two generations. -/
theorem C94_latest_generation_violated : ∃ (env : GaEnv ℤ ℤ Unit Unit (FVec ℤ)) (prev st st' : GaState ℤ (FVec ℤ) Unit (FVec ℤ)) (I J : Unit → List (FVec ℤ) → Prop) (x : List ℤ) (new : List (List ℤ)),
    ExactRun env prev [] I J ∧ env.dynamic = false ∧ env.cachedGens = 2 ∧ gaGens env prev [] 0 = some st ∧ gaGens env prev [] 1 = some st' ∧ x ∈ st.pop.map (·.chrom) ∧ st'.calls = st.calls ++ new ∧
      x ∈ new := by
  have h0 : (gaGens cacheDemo1 (demoPrev ℤ) [] 0).map (fun st => (st.pop.map (·.chrom), st.calls)) = some ([[1, 1], [2, 0]], [[0, 0], [1, 1], [2, 0]]) := by decide +kernel
  have h1 : (gaGens cacheDemo1 (demoPrev ℤ) [] 1).map (fun st => (st.pop.map (·.chrom), st.calls)) = some ([[2, 0], [2, 0]], [[0, 0], [1, 1], [2, 0], [2, 0]]) := by decide +kernel
  obtain ⟨st, e0, f0⟩ := Option.map_eq_some_iff.mp h0
  obtain ⟨st', e1, f1⟩ := Option.map_eq_some_iff.mp h1
  obtain ⟨a0, b0⟩ := Prod.mk.inj f0
  obtain ⟨-, b1⟩ := Prod.mk.inj f1
  refine ⟨cacheDemo1, demoPrev ℤ, st, st', fun _ _ => True, fun _ _ => True, [2, 0], [[2, 0]], ?_, rfl, rfl, e0, e1, by rw [a0]; simp, by rw [b0, b1]; rfl, by simp⟩
  exact ⟨cacheDemo_alg _ _ _, rfl, fun _ => rfl, fun h => (by cases h), by simp, ⟨_, FifoCache.repr_init 0 0⟩⟩

/-- **C94, what does not hold (chromosomes that stay).** Insertions of a chromosome that is in the cache do not renew it: a chromosome that was in the populations of all the generations is evaluated again, because
its entry was the oldest one. -/
theorem C94_long_lived_violated : ∃ (env : GaEnv ℤ ℤ Unit Unit (FVec ℤ)) (prev : GaState ℤ (FVec ℤ) Unit (FVec ℤ)) (sts : Nat → GaState ℤ (FVec ℤ) Unit (FVec ℤ)) (I J : Unit → List (FVec ℤ) → Prop)
    (x : List ℤ) (new : List (List ℤ)), ExactRun env prev [] I J ∧ env.dynamic = false ∧ env.cachedGens = 1 ∧ (∀ i, i ≤ 3 → gaGens env prev [] i = some (sts i)) ∧
      (∀ i, i ≤ 2 → x ∈ (sts i).pop.map (·.chrom)) ∧ (sts 3).calls = (sts 2).calls ++ new ∧ x ∈ new := by
  have h0 : (gaGens cacheDemo2 (demoPrev ℤ) [] 0).map (fun st => st.pop.map (·.chrom)) = some [[1, 1], [2, 0]] := by decide +kernel
  have h1 : (gaGens cacheDemo2 (demoPrev ℤ) [] 1).map (fun st => st.pop.map (·.chrom)) = some [[1, 1], [11, 0]] := by decide +kernel
  have h2 : (gaGens cacheDemo2 (demoPrev ℤ) [] 2).map (fun st => (st.pop.map (·.chrom), st.calls)) = some ([[1, 1], [12, 0]], [[0, 0], [1, 1], [2, 0], [11, 0], [12, 0]]) := by decide +kernel
  have h3 : (gaGens cacheDemo2 (demoPrev ℤ) [] 3).map (fun st => st.calls) = some [[0, 0], [1, 1], [2, 0], [11, 0], [12, 0], [1, 1]] := by decide +kernel
  obtain ⟨s0, e0, f0⟩ := Option.map_eq_some_iff.mp h0
  obtain ⟨s1, e1, f1⟩ := Option.map_eq_some_iff.mp h1
  obtain ⟨s2, e2, f2⟩ := Option.map_eq_some_iff.mp h2
  obtain ⟨s3, e3, f3⟩ := Option.map_eq_some_iff.mp h3
  obtain ⟨a2, b2⟩ := Prod.mk.inj f2
  refine ⟨cacheDemo2, demoPrev ℤ, fun i => match i with | 0 => s0 | 1 => s1 | 2 => s2 | _ => s3, fun _ _ => True, fun _ _ => True, [1, 1], [[1, 1]], ?_, rfl, rfl, ?_, ?_, ?_, by simp⟩
  · exact ⟨cacheDemo_alg _ _ _, rfl, fun _ => rfl, fun h => (by cases h), by simp, ⟨_, FifoCache.repr_init 0 0⟩⟩
  · intro i hi
    match i, hi with
    | 0, _ => exact e0
    | 1, _ => exact e1
    | 2, _ => exact e2
    | 3, _ => exact e3
  · intro i hi
    match i, hi with
    | 0, _ => show _ ∈ s0.pop.map (·.chrom); rw [f0]; simp
    | 1, _ => show _ ∈ s1.pop.map (·.chrom); rw [f1]; simp
    | 2, _ => show _ ∈ s2.pop.map (·.chrom); rw [a2]; simp
  · show s3.calls = s2.calls ++ _
    rw [f3, b2]; rfl

/-! ## A concrete case -/

/-- A run with a cache of one generation. The chromosome `[11, 0]` is new in the generation 1, and it is made again in the generation 3. -/
def cacheDemo3 : GaEnv ℤ ℤ Unit Unit (FVec ℤ) := { demoInt false 1 5 with mutate := fun g k c => if k = 0 then c.chrom else if g = 3 then [11, 0] else [(g : ℤ) + 10, 0] }

example : ∃ s2 s3 : GaState ℤ (FVec ℤ) Unit (FVec ℤ), gaGens cacheDemo3 (demoPrev ℤ) [] 2 = some s2 ∧ gaGens cacheDemo3 (demoPrev ℤ) [] 3 = some s3 ∧ [11, 0] ∉ s2.pop.map (·.chrom) ∧
    [11, 0] ∈ s3.pop.map (·.chrom) ∧ ∃ new, s3.calls = s2.calls ++ new ∧ [11, 0] ∉ new := by
  have h0 : (gaGens cacheDemo3 (demoPrev ℤ) [] 0).map (fun st => st.pop.map (·.chrom)) = some [[1, 1], [2, 0]] := by decide +kernel
  have h1 : (gaGens cacheDemo3 (demoPrev ℤ) [] 1).map (fun st => st.pop.map (·.chrom)) = some [[1, 1], [11, 0]] := by decide +kernel
  have h2 : (gaGens cacheDemo3 (demoPrev ℤ) [] 2).map (fun st => st.pop.map (·.chrom)) = some [[1, 1], [12, 0]] := by decide +kernel
  have h3 : (gaGens cacheDemo3 (demoPrev ℤ) [] 3).map (fun st => st.pop.map (·.chrom)) = some [[1, 1], [11, 0]] := by decide +kernel
  obtain ⟨s0, e0, f0⟩ := Option.map_eq_some_iff.mp h0
  obtain ⟨s1, e1, f1⟩ := Option.map_eq_some_iff.mp h1
  obtain ⟨s2, e2, f2⟩ := Option.map_eq_some_iff.mp h2
  obtain ⟨s3, e3, f3⟩ := Option.map_eq_some_iff.mp h3
  refine ⟨s2, s3, e2, e3, by rw [f2]; simp, by rw [f3]; simp, ?_⟩
  refine C94_new_chromosome_partial cacheDemo3 rfl (demoPrev ℤ) ⟨_, FifoCache.repr_init 0 0⟩ [] [11, 0] 1 s1 e1 (by rw [f1]; simp) ?_ 3 (by norm_num) (by decide) s2 s3 e2 e3
  intro i hi si hsi
  obtain rfl : i = 0 := by omega
  obtain rfl := Option.some.inj (e0.symm.trans hsi)
  rw [f0]; simp

end Gapp.Props
