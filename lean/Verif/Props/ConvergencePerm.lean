import Verif.Spec.ConvergencePerm
import Verif.Props.Convergence
import Verif.Props.Reach
/-!
# C85 for permutations
-/

namespace Gapp.Props
open Gapp.Model Gapp.Spec Gapp.Proofs.Convergence Gapp.Proofs.Draws MeasureTheory Filter

/-! ### Local optima -/

section
variable {G K A S V D : Type} [LinearOrder G] [CommRing K] [LinearOrder K] [IsStrictOrderedRing K]

/-- A population of equal candidates that no mutation improves stays as it is. -/
theorem trap_population {env : GaEnv G K A S V} (hk : UsesKeepBest env) {prev : GaState G (FVec K) A V} {initial : List (Cand G (FVec K))} {I J : A → List (FVec K) → Prop}
    (h : ExactRun env prev initial I J) (b : List G) (hrep : env.repair = none)
    (hcross : ∀ g k p q, p.chrom = b → q.chrom = b → (env.crossMethod g k p q).1.chrom = b ∧ (env.crossMethod g k p q).2.chrom = b)
    (hmut : ∀ g k c, c.chrom = b → env.mutate g k c = b ∨ ¬ AtLeastAsGood (env.fitness (env.mutate g k c)) (env.fitness b))
    (hinit : ∀ st, gaGens env prev initial 0 = some st → ∀ c ∈ st.pop, c.chrom = b) (n : Nat) (st : GaState G (FVec K) A V) (hst : gaGens env prev initial n = some st) :
    ∀ c ∈ st.pop, c.chrom = b := by
  induction n generalizing st with
  | zero => exact hinit st hst
  | succ n ih =>
    rw [gaGens_succ, Option.bind_eq_some_iff] at hst
    obtain ⟨s, hs, hadv⟩ := hst
    have hpop := ih s hs
    obtain ⟨inv, -⟩ := gaGens_inv env prev initial _ I J h.runOk n s hs
    have hr := h.runOk
    obtain ⟨-, ch, ec, hch, -, hev, ⟨idx, rfl, -, hat⟩, -⟩ := advance_spec _ _ I J hr.alg hr.eqOk hr.fitOk hr.dynCache hr.lenOk s st inv hadv
    obtain ⟨e1, -, -⟩ := evalAll_spec _ hr.dynCache _ _ _ _ _ _ hev
    obtain ⟨ch2, hch2, hcl, -, hrest⟩ := advance_steps _ _ I J hr.alg hr.eqOk hr.fitOk hr.dynCache hr.lenOk s inv
    obtain rfl : ch2 = ch := by rw [hch] at hch2; exact (Option.some.inj hch2).symm
    obtain ⟨hl, hevd, -⟩ := hrest _ _ hev
    have hchb : ∀ c ∈ ch2, c.chrom = b := by
      refine makeChildren_domain { env with generate := fun _ => b, mutate := fun _ _ c => c.chrom, sortSols := fun l => l } [] (fun c => c = b)
        ⟨fun _ => rfl, hcross, fun _ _ _ h => h, ⟨by simp, fun r hr => (by rw [show env.repair = some r from hr] at hrep; cases hrep), fun l c h => h⟩⟩ { s with alg := env.algPrepare s.alg s.fmat } _ hpop ch2 hch
    -- every child is the same chromosome or a worse one
    have hec : ∀ c ∈ ec, c.chrom = b ∨ ¬ AtLeastAsGood c.fitness (env.fitness b) := by
      intro c hc
      have hfit := (hevd c hc).2
      obtain ⟨i, hi⟩ := List.getElem?_of_mem hc
      have e1 : ec = _ := e1
      rw [e1, List.getElem?_map, List.getElem?_map, List.getElem?_zipIdx] at hi
      cases hci : ch2[i]? with
      | none => rw [hci] at hi; cases hi
      | some c0 =>
        rw [hci] at hi
        simp only [Option.map_some, Option.some.injEq] at hi
        have hcc : c.chrom = env.mutate (s.gen + 1) i c0 := by
          rw [← hi, evalOne_chrom]
          rw [repairOp_fixed _ _ (fun r hr => by rw [hrep] at hr; cases hr), mutationOp_chrom, Nat.zero_add]
        rcases hmut (s.gen + 1) i c0 (hchb c0 (List.mem_of_getElem? hci)) with h1 | h1
        · exact Or.inl (hcc.trans h1)
        · refine Or.inr ?_
          rw [show c.fitness = env.fitness c.chrom from hfit, hcc]
          exact h1
    have hfm : FitMatrix env ((s.pop ++ ec).map (·.fitness)) := by
      refine isMatrix_fitness _ _ hr.lenOk _ ?_
      intro c hc
      rcases List.mem_append.mp hc with hc | hc
      · exact inv.evaluated c hc
      · exact hevd c hc
    have hm1 : IsMatrix 1 ((s.pop ++ ec).map (·.fitness)) := by have := hfm.1; rwa [hk.single] at this
    have hlen2 : ((s.pop ++ ec).map (·.fitness)).length = 2 * env.popSize := by rw [List.length_map, List.length_append, inv.size, hl]; omega
    have hres := hk.keepBest (env.algPrepare s.alg s.fmat) _ (s.gen + 1) hlen2 hm1
    obtain ⟨hil, hnd, hlt⟩ := C30_keep_best_legal _ _ _ _ hres
    intro c hc
    have h3 : some c ∈ List.map (fun i => (s.pop ++ ec)[i]?) (env.algNext (env.algPrepare s.alg s.fmat) ((s.pop ++ ec).map (·.fitness)) (s.gen + 1)).1 := by
      rw [show _ = List.map some st.pop from hat]
      exact List.mem_map_of_mem hc
    obtain ⟨i, hi, hic⟩ := List.mem_map.mp h3
    rcases List.mem_append.mp (List.mem_of_getElem? hic) with hcs | hcs
    · exact hpop c hcs
    · rcases hec c hcs with hb | hb
      · exact hb
      · exfalso
        by_cases hip : i < env.popSize
        · rw [List.getElem?_append_left (by rw [inv.size]; exact hip)] at hic
          have hcp := List.mem_of_getElem? hic
          refine hb ?_
          rw [show c.fitness = env.fitness c.chrom from (inv.evaluated c hcp).2, hpop c hcp]
          exact atLeastAsGood_refl _
        · -- some parent is not kept
          obtain ⟨j, hj, hjn⟩ : ∃ j, j < env.popSize ∧ j ∉ (env.algNext (env.algPrepare s.alg s.fmat) ((s.pop ++ ec).map (·.fitness)) (s.gen + 1)).1 := by
            by_contra hall
            push Not at hall
            have hsub : i :: List.range env.popSize ⊆ (env.algNext (env.algPrepare s.alg s.fmat) ((s.pop ++ ec).map (·.fitness)) (s.gen + 1)).1 := by
              intro j hj
              rcases List.mem_cons.mp hj with rfl | hj
              · exact hi
              · exact hall j (List.mem_range.mp hj)
            have := (List.nodup_cons.mpr ⟨by rw [List.mem_range]; exact hip, List.nodup_range⟩ : (i :: List.range env.popSize).Nodup).subperm hsub |>.length_le
            rw [List.length_cons, List.length_range, hil] at this
            omega
          have hjp : j < s.pop.length := by rw [inv.size]; exact hj
          have hri : ((s.pop ++ ec).map (·.fitness))[i]? = some c.fitness := by rw [List.getElem?_map, hic]; rfl
          have hrj : ((s.pop ++ ec).map (·.fitness))[j]? = some s.pop[j].fitness := by
            rw [List.getElem?_map, List.getElem?_append_left hjp, List.getElem?_eq_getElem hjp]; rfl
          have hcmp := C30_keep_best _ _ _ _ hres i j _ _ hi hjn hri hrj
          have hfj : s.pop[j].fitness = env.fitness b := by
            rw [show s.pop[j].fitness = env.fitness s.pop[j].chrom from (inv.evaluated _ (List.getElem_mem _)).2, hpop _ (List.getElem_mem _)]
          obtain ⟨x, hx⟩ := List.length_eq_one_iff.mp (hm1 _ (List.mem_of_getElem? hri))
          obtain ⟨y, hy⟩ := List.length_eq_one_iff.mp (hm1 _ (List.mem_of_getElem? hrj))
          rw [hx, hy, less_single, decide_eq_false_iff_not, not_lt] at hcmp
          refine hb ?_
          rw [← hfj, hx, hy]
          refine ⟨rfl, fun k ha hb' => ?_⟩
          have hk0 : k = 0 := by simpa using ha
          subst hk0
          exact hcmp

/-- C85 is violated by `KeepBest` in a local optimum: if all candidates are the same, no single mutation improves them, and there is a better chromosome `x`, then no run ever finds one as good as `x`,
however long it is, and whatever the distribution of the random numbers. -/
theorem C85_local_optimum_violated [MeasurableSpace D] (μ : Measure D) {env : GaEnv G K A S V} (hk : UsesKeepBest env) {prev : GaState G (FVec K) A V} {initial : List (Cand G (FVec K))}
    {I J : A → List (FVec K) → Prop} (h : ExactRun env prev initial I J) (hc : CompleteRun env I) (b : List G) (hrep : env.repair = none)
    (hcross : ∀ g k p q, p.chrom = b → q.chrom = b → (env.crossMethod g k p q).1.chrom = b ∧ (env.crossMethod g k p q).2.chrom = b)
    (op : D → List G → List G) (hop : ∀ d, op d b = b ∨ ¬ AtLeastAsGood (env.fitness (op d b)) (env.fitness b))
    (hinit : ∀ st, gaGens env prev initial 0 = some st → ∀ c ∈ st.pop, c.chrom = b) (x : List G) (hx : ¬ AtLeastAsGood (env.fitness b) (env.fitness x)) (n : Nat) :
    drawProb μ (n * env.popSize) (fun draws => Finds (withMutations { env with maxGen := n + 1 } op draws) prev initial x) = 0 := by
  rw [← drawProb_false μ (n * env.popSize)]
  apply drawProb_congr
  intro draws
  refine iff_of_false ?_ id
  rintro ⟨final, hfin, s, hs, hge⟩
  have e1 : ExactRun { env with maxGen := n + 1 } prev initial I J := ⟨⟨h.alg.init, h.alg.prepare, h.alg.select, h.alg.next⟩, h.exact, h.lengths, h.dynCache, h.initial, h.prevCache⟩
  have e2 : CompleteRun { env with maxGen := n + 1 } I := ⟨hc.evalSched, hc.mergeSched, hc.tol, hc.optimal, hc.sort⟩
  have r1 := run_withMutations e1 op draws
  have r2 := complete_withMutations e2 op draws
  have hk' : UsesKeepBest (withMutations { env with maxGen := n + 1 } op draws) := ⟨⟨hk.single, hk.positive, hk.tol, hk.select, hk.replace, hk.optimal⟩, hk.keepBest⟩
  have h0 : ∀ st0, gaGens (withMutations { env with maxGen := n + 1 } op draws) prev initial 0 = some st0 → gaGens env prev initial 0 = some st0 := by
    intro st0 hst0
    rw [← hst0]
    simp only [gaGens, gaInit, generate_withMutations]
    have e : generatePopulation { env with maxGen := n + 1 } initial = generatePopulation env initial := by
      have e : ∀ m k pop, fillPopulation { env with maxGen := n + 1 } m k pop = fillPopulation env m k pop := by
        intro m
        induction m with
        | zero => intro k pop; rfl
        | succ m ih => intro k pop; exact ih _ _
      simp only [generatePopulation, e]
    rw [e]
    rfl
  have hin : ∃ i st, gaGens (withMutations { env with maxGen := n + 1 } op draws) prev initial i = some st ∧ s ∈ st.pop := by
    rcases Bool.eq_false_or_eq_true env.keepAll with hka | hka
    rotate_left
    · obtain ⟨k, ss, sts, t1, -, -, -, -, -, e2, -⟩ := C24_stops r1 final hfin
      have := ((C23_solutions_last_population r1 r2 hka final hfin).2.found s hs).1
      exact ⟨k, sts k, t1 k (Nat.le_refl _), by rw [← e2]; exact this⟩
    · obtain ⟨i, st, -, hst, hm⟩ := ((C23_solutions_all_populations_partial r1 r2 hka final hfin).1.found s hs).1
      exact ⟨i, st, hst, hm⟩
  obtain ⟨i, st, hst, hsm⟩ := hin
  have hsb := trap_population hk' r1 b hrep hcross (by
    intro g k c hcb
    show (if k < env.popSize then (match draws[(g - 1) * env.popSize + k]? with | some d => op d c.chrom | none => c.chrom) else c.chrom) = b ∨
      ¬ AtLeastAsGood (env.fitness (if k < env.popSize then (match draws[(g - 1) * env.popSize + k]? with | some d => op d c.chrom | none => c.chrom) else c.chrom)) (env.fitness b)
    rw [hcb]
    split
    · split
      · exact hop _
      · exact Or.inl rfl
    · exact Or.inl rfl) (fun st0 hst0 => hinit st0 (h0 st0 hst0)) i st hst s hsm
  obtain ⟨inv, -⟩ := gaGens_inv _ prev initial _ I J r1.runOk i st hst
  have hf : s.fitness = env.fitness s.chrom := (inv.evaluated s hsm).2
  rw [hf, hsb] at hge
  exact hx hge
end

/-! ### Permutations of four elements -/

theorem swapped_ne : ∀ i < 4, ∀ j < 4, swap? [0, 1, 2, 3] i j ≠ some [1, 0, 3, 2] := by decide

theorem swapped3_ne : ∀ i < 4, ∀ j < 4, ∀ k < 4, (do swap? (← swap? [0, 1, 2, 3] i j) i k) ≠ some [1, 0, 3, 2] := by decide

theorem sampled_lt {n count : Nat} (hc : count ≤ n) {many : Bool} {draws : List Int} (hd : SampleDraws n count many draws) (idxs : List Nat)
    (h : sampleIndices n count many draws = some idxs) (i j : Nat) (hj : idxs[i]? = some j) : j < n := by
  obtain ⟨idxs', k1, -, k2, -⟩ := sampleIndices_ok hc hd
  rw [h] at k1
  obtain rfl := Option.some.inj k1
  exact k2 j (List.mem_of_getElem? hj)

/-- No mutation with default parameters exchanges two pairs of neighbours at once. -/
theorem default_not_two_swaps (sel : Nat → Nat → Bool) : ¬ DefaultPermStep sel [0, 1, 2, 3] [1, 0, 3, 2] := by
  rintro (h | ⟨len, first, h1, h2, h3, h⟩ | ⟨draws, hd, h⟩ | ⟨draws, hd, h⟩ | ⟨len, first, sh, h1, h2, h3, h4, h⟩ | ⟨len, draws, h1, h2, hd, h⟩)
  · cases h
  · have h2 : len ≤ 3 := h2
    have h3 : first ≤ 4 - len := h3
    have key : ∀ len ≤ 3, ∀ first ≤ 4 - len, inversion true len first [0, 1, 2, 3] ≠ some [1, 0, 3, 2] := by decide
    exact key len h2 first h3 h
  · have hd := hd (by decide)
    simp only [swap2, List.length_cons, List.length_nil, Option.bind_eq_bind, Option.bind_eq_some_iff] at h
    rw [if_neg (by decide)] at h
    simp only [if_true, Option.bind_eq_some_iff] at h
    obtain ⟨idxs, hi, i, h1, j, h2, h⟩ := h
    exact swapped_ne i (sampled_lt (by decide) hd idxs hi _ _ h1) j (sampled_lt (by decide) hd idxs hi _ _ h2) h
  · have hd := hd (by decide)
    simp only [swap3, List.length_cons, List.length_nil, Option.bind_eq_bind, Option.bind_eq_some_iff] at h
    rw [if_neg (by decide)] at h
    simp only [if_true, Option.bind_eq_some_iff] at h
    obtain ⟨idxs, hi, i, h1, j, h2, l, h3, i', h4, k, h5, h⟩ := h
    rw [h1] at h4
    obtain rfl := Option.some.inj h4
    refine swapped3_ne i (sampled_lt (by decide) hd idxs hi _ _ h1) j (sampled_lt (by decide) hd idxs hi _ _ h2) k (sampled_lt (by decide) hd idxs hi _ _ h5) ?_
    simp only [Option.bind_eq_bind, Option.bind_eq_some_iff]
    exact ⟨l, h3, h⟩
  · have h2 : len ≤ 2 := h2
    obtain rfl : len = 2 := by omega
    have h3 : first ≤ 2 := h3
    have hl : sh.length = 2 := by
      rw [h4.length_eq, List.length_take, List.length_drop]
      simp only [List.length_cons, List.length_nil]; omega
    obtain ⟨x, y, rfl⟩ := List.length_eq_two.mp hl
    unfold shuffleMut at h
    rw [if_neg (by decide), if_pos rfl] at h
    have hf : first = 0 ∨ first = 1 ∨ first = 2 := by omega
    rcases hf with rfl | rfl | rfl <;> simp at h
  · have h2 : len ≤ 3 := h2
    have hd := hd (by decide)
    simp only [shift, List.length_cons, List.length_nil, Option.bind_eq_bind] at h hd
    rw [if_neg (by decide)] at h
    simp only [if_true, Nat.zero_add, Nat.reduceAdd] at h hd
    rw [if_neg (by omega)] at h
    simp only [Option.bind_eq_some_iff, Option.bind_some] at h
    obtain ⟨idxs, hi, i, h4, j, h5, h⟩ := h
    have hi1 := sampled_lt (by omega) hd idxs hi _ _ h4
    have hi2 := sampled_lt (by omega) hd idxs hi _ _ h5
    have key : ∀ len ≤ 3, ∀ i < 4 - len + 1, ∀ j < 4 - len + 1,
        (if j < i then rotateRange [0, 1, 2, 3] j i (i + len) else rotateRange [0, 1, 2, 3] i (i + len) (j + len)) ≠ some [1, 0, 3, 2] := by decide
    exact key len h2 i hi1 j hi2 h

/-- A `PermutationGA` of four elements with `KeepBest` and the cycle crossover: `[1, 0, 3, 2]` is the best solution, `[0, 1, 2, 3]` is the second best. -/
def demoTrap : GaEnv Nat ℤ Unit Unit (FVec ℤ) :=
  { demoOnes with
    fitness := fun x => if x = [1, 0, 3, 2] then [.fin 2] else if x = [0, 1, 2, 3] then [.fin 1] else [.fin 0]
    generate := demoPerm.generate
    mutate := demoPerm.mutate
    crossMethod := fun _ _ p q => toChildren p q (permCycle p.chrom q.chrom) }

/-- The initial population of the user. -/
def demoTrapInitial : List (Cand Nat (FVec ℤ)) := [⟨[0, 1, 2, 3], [], false⟩, ⟨[0, 1, 2, 3], [], false⟩]

theorem demoTrap_uses : UsesKeepBest demoTrap := ⟨⟨rfl, demoOnes_uses.positive, rfl, demoOnes_uses.select, demoOnes_uses.replace, demoOnes_uses.optimal⟩, demoOnes_uses.keepBest⟩

theorem demoTrap_run : ExactRun demoTrap (demoPrev Nat) demoTrapInitial (fun _ _ => True) (fun a fmat => ∃ a0, a = demoTrap.algPrepare a0 fmat) := by
  refine ⟨demoTrap_uses.contract, rfl, fun x => ?_, fun h => (by cases h), ?_, ⟨_, FifoCache.repr_init 0 0⟩⟩
  · show (if x = [1, 0, 3, 2] then [Flt.fin (2 : ℤ)] else if x = [0, 1, 2, 3] then [Flt.fin 1] else [Flt.fin 0]).length = 1
    split
    · rfl
    · split <;> rfl
  · intro c hc
    simp only [demoTrapInitial, List.mem_cons, List.not_mem_nil, or_false, or_self] at hc
    subst hc
    intro h
    cases h

theorem demoTrap_complete : CompleteRun demoTrap (fun _ _ => True) := ⟨demoOnes_complete.evalSched, demoOnes_complete.mergeSched, rfl, fun _ _ _ _ _ => Or.inl rfl, demoOnes_complete.sort⟩

/-- **C85 (negation).** A `PermutationGA` with any of the mutations of the library, with their default parameters, may never find the best solution, however long it runs: `KeepBest` never leaves the
local optimum, although repeated mutations could reach the best solution. `sel` chooses the method of `sampleUnique`. -/
theorem C85_permutation_violated {D : Type} [MeasurableSpace D] (μ : Measure D) (sel : Nat → Nat → Bool) (op : D → List Nat → List Nat) (hop : ∀ d l, l.length = 4 → DefaultPermStep sel l (op d l)) :
    (∀ y, IsPermOf 4 y → AtLeastAsGood (demoTrap.fitness [1, 0, 3, 2]) (demoTrap.fitness y)) ∧ Reaches (Swap2Step sel) [0, 1, 2, 3] [1, 0, 3, 2] ∧
    ∀ n, drawProb μ (n * 2) (fun draws => Finds (withMutations { demoTrap with maxGen := n + 1 } op draws) (demoPrev Nat) demoTrapInitial [1, 0, 3, 2]) = 0 := by
  have hlt : ∀ a b : ℤ, a < b → ¬ AtLeastAsGood [Flt.fin a] [Flt.fin b] := by
    rintro a b hab ⟨-, h⟩
    have := h 0 (by simp) (by simp)
    simp only [List.getElem_cons_zero, Flt.fin_le_fin] at this
    omega
  refine ⟨?_, C84_swap2 sel _ _ (by decide) (by decide), fun n => ?_⟩
  · intro y _
    show AtLeastAsGood [Flt.fin (2 : ℤ)] (if y = [1, 0, 3, 2] then [Flt.fin (2 : ℤ)] else if y = [0, 1, 2, 3] then [Flt.fin 1] else [Flt.fin 0])
    have hle : ∀ a b : ℤ, b ≤ a → AtLeastAsGood [Flt.fin a] [Flt.fin b] := by
      intro a b hab
      refine ⟨rfl, fun k ha hb => ?_⟩
      have hk0 : k = 0 := by simpa using ha
      subst hk0
      exact Flt.fin_le_fin.mpr hab
    split
    · exact hle _ _ (by decide)
    · split
      · exact hle _ _ (by decide)
      · exact hle _ _ (by decide)
  · refine C85_local_optimum_violated μ demoTrap_uses demoTrap_run demoTrap_complete [0, 1, 2, 3] rfl ?_ op ?_ ?_ [1, 0, 3, 2] (hlt 1 2 (by decide)) n
    · intro g k p q hp hq
      show (toChildren p q (permCycle p.chrom q.chrom)).1.chrom = _ ∧ (toChildren p q (permCycle p.chrom q.chrom)).2.chrom = _
      rw [hp, hq, show permCycle [0, 1, 2, 3] [0, 1, 2, 3] = some ([0, 1, 2, 3], [0, 1, 2, 3]) by decide +kernel]
      exact ⟨rfl, rfl⟩
    · intro d
      by_cases he : op d [0, 1, 2, 3] = [0, 1, 2, 3]
      · exact Or.inl he
      · refine Or.inr ?_
        have hne : op d [0, 1, 2, 3] ≠ [1, 0, 3, 2] := fun h => default_not_two_swaps sel (h ▸ hop d [0, 1, 2, 3] rfl)
        have e : demoTrap.fitness (op d [0, 1, 2, 3]) = [.fin 0] := by
          show (if _ then _ else _) = _
          rw [if_neg hne, if_neg he]
        rw [e]
        exact hlt _ _ (by decide)
    · intro st hst
      have : (gaGens demoTrap (demoPrev Nat) demoTrapInitial 0).map (fun st => st.pop.map (·.chrom)) = some [[0, 1, 2, 3], [0, 1, 2, 3]] := by decide +kernel
      rw [hst, Option.map_some, Option.some.injEq] at this
      intro c hc
      have hm : c.chrom ∈ st.pop.map (·.chrom) := List.mem_map_of_mem hc
      rw [this] at hm
      simpa using hm

-- `Swap2` with any distribution of its outcomes
example [MeasurableSpace {draws : List Int // SampleDraws 4 2 false draws}] (μ : Measure {draws : List Int // SampleDraws 4 2 false draws}) (n : Nat) :
    drawProb μ (n * 2) (fun draws => Finds (withMutations { demoTrap with maxGen := n + 1 } (fun d l => (swap2 true false d.1 l).getD l) draws) (demoPrev Nat) demoTrapInitial [1, 0, 3, 2]) = 0 :=
  (C85_permutation_violated μ (fun _ _ => false) _ (fun d l hl => by
    obtain ⟨c, hc, -⟩ := C19_swap2 l true false d.1 (fun _ => by rw [hl]; exact d.2)
    refine Or.inr (Or.inr (Or.inl ⟨d.1, fun _ => (by rw [hl]; exact d.2), ?_⟩))
    show swap2 true false d.1 l = some ((swap2 true false d.1 l).getD l)
    rw [hc]; rfl)).2.2 n

/-! ### `Shuffle` of the whole chromosome -/

/-- The `Shuffle` mutation with the random outcomes `d`. -/
def shuffleOp (d : ShuffleOutcome) (l : List Nat) : List Nat :=
  (shuffleMut d.mutates d.rangeLen d.first (d.order.map (fun i => ((l.drop d.first).take d.rangeLen).getD i 0)) l).getD l

theorem shuffleOutcomes_finite (n len : Nat) : (shuffleOutcomes n len).Finite := by
  have h1 : {o : List Nat | o.Perm (List.range len)}.Finite := by
    refine (List.finite_toSet (List.range len).permutations).subset ?_
    intro o ho
    exact List.mem_permutations.mpr ho
  refine Set.Finite.of_finite_image (f := fun d : ShuffleOutcome => (d.first, d.order)) (((Set.finite_Iic (n - len)).prod h1).subset ?_) ?_
  · rintro _ ⟨⟨m, l, f, o, hv⟩, ⟨rfl, rfl, h3⟩, rfl⟩
    exact ⟨h3, hv rfl⟩
  · rintro ⟨m, l, f, o, hv⟩ ⟨rfl, rfl, h3⟩ ⟨m', l', f', o', hv'⟩ ⟨rfl, e, h3'⟩ he
    obtain rfl : l' = l := e
    obtain ⟨rfl, rfl⟩ := Prod.mk.inj he
    rfl

theorem shuffleLaw_prob (n scaled : Nat) (q : ENNReal) (hq : q ≤ 1) : IsProbabilityMeasure (shuffleLaw n scaled q) := by
  constructor
  unfold shuffleLaw
  have hm : 2 ≤ maxRangeLen scaled 2 := Nat.le_max_right _ _
  have e : ∀ len ∈ Finset.Icc 2 (maxRangeLen scaled 2), (((maxRangeLen scaled 2 - 1 : Nat) : ENNReal)⁻¹ • ProbabilityTheory.uniformOn (shuffleOutcomes n len)) Set.univ =
      ((maxRangeLen scaled 2 - 1 : Nat) : ENNReal)⁻¹ := by
    intro len _
    have := ProbabilityTheory.uniformOn_isProbabilityMeasure (shuffleOutcomes_finite n len) ⟨⟨true, len, 0, List.range len, fun _ => List.Perm.refl _⟩, rfl, rfl, Nat.zero_le _⟩
    rw [Measure.smul_apply, measure_univ, smul_eq_mul, mul_one]
  rw [Measure.add_apply, Measure.smul_apply, Measure.smul_apply, measure_univ, Measure.finsetSum_apply, Finset.sum_congr rfl e, Finset.sum_const, Nat.card_Icc]
  have hc : maxRangeLen scaled 2 + 1 - 2 = maxRangeLen scaled 2 - 1 := by omega
  rw [hc, nsmul_eq_mul, ENNReal.mul_inv_cancel (by rw [ne_eq, Nat.cast_eq_zero]; omega) (ENNReal.natCast_ne_top _), smul_eq_mul, smul_eq_mul, mul_one, mul_one]
  exact tsub_add_cancel_of_le hq

theorem shuffleOp_perm (n : Nat) (d : ShuffleOutcome) (c : List Nat) (hc : IsPermOf n c) : IsPermOf n (shuffleOp d c) := by
  unfold shuffleOp shuffleMut
  split
  · exact hc
  · split
    · rename_i hm
      split
      · rename_i hle
        refine List.Perm.trans ?_ hc
        have hsl : ((c.drop d.first).take d.rangeLen).length = d.rangeLen := by rw [List.length_take, List.length_drop]; omega
        have hp : (d.order.map (fun i => ((c.drop d.first).take d.rangeLen).getD i 0)).Perm ((c.drop d.first).take d.rangeLen) := by
          refine ((d.valid hm).map _).trans ?_
          refine List.Perm.of_eq ?_
          apply List.ext_getElem
          · rw [List.length_map, List.length_range, hsl]
          · intro i h1 h2
            simp [List.getD_eq_getElem?_getD, List.getElem?_eq_getElem h2]
        have hsplit : c = c.take d.first ++ (c.drop d.first).take d.rangeLen ++ c.drop (d.first + d.rangeLen) := by
          rw [List.append_assoc, ← List.drop_drop, List.take_append_drop, List.take_append_drop]
        show (c.take d.first ++ _ ++ c.drop (d.first + d.rangeLen)).Perm c
        conv_rhs => rw [hsplit]
        exact (hp.append_left _).append_right _
      · exact hc
    · exact hc

/-- A shuffle of the whole chromosome turns any permutation into any other one with a positive probability. -/
theorem shuffleLaw_hit (n : Nat) (hn : 2 ≤ n) (q : ENNReal) (hq : 0 < q) (c x : List Nat) (hc : IsPermOf n c) (hx : IsPermOf n x) : 0 < shuffleLaw n n q {d | shuffleOp d c = x} := by
  have hcl : c.length = n := by have := hc.length_eq; rwa [List.length_range] at this
  have hcn : c.Nodup := hc.nodup_iff.mpr List.nodup_range
  have hcx : x.Perm c := hx.trans hc.symm
  -- the order that leads to `x`
  have hord : (x.map (fun v => c.idxOf v)).Perm (List.range n) := by
    refine (hcx.map _).trans (List.Perm.of_eq ?_)
    apply List.ext_getElem
    · rw [List.length_map, List.length_range, hcl]
    · intro i h1 h2
      rw [List.getElem_map, List.getElem_range, hcn.idxOf_getElem]
  have hop : shuffleOp ⟨true, n, 0, x.map (fun v => c.idxOf v), fun _ => hord⟩ c = x := by
    unfold shuffleOp shuffleMut
    simp only [hcl, Nat.zero_add, le_refl, if_true, List.drop_zero, List.take_zero, List.nil_append]
    rw [if_neg (by omega), Option.getD_some, ← hcl, List.drop_length, List.append_nil, List.take_length, List.map_map]
    conv_rhs => rw [← List.map_id x]
    refine List.map_congr_left (fun v hv => ?_)
    have hv' : v ∈ c := hcx.mem_iff.mp hv
    have hlt := List.idxOf_lt_length_iff.mpr hv'
    simp only [Function.comp, List.getD_eq_getElem?_getD, List.getElem?_eq_getElem hlt, Option.getD_some, List.getElem_idxOf, id]
  unfold shuffleLaw
  have hmx : maxRangeLen n 2 = n := Nat.max_eq_left hn
  rw [Measure.add_apply, hmx]
  refine lt_of_lt_of_le ?_ (le_add_of_nonneg_left bot_le)
  rw [Measure.smul_apply, smul_eq_mul]
  refine ENNReal.mul_pos hq.ne' ?_
  rw [Measure.finsetSum_apply]
  refine (lt_of_lt_of_le ?_ (Finset.single_le_sum (fun _ _ => bot_le) (Finset.mem_Icc.mpr ⟨hn, le_refl n⟩))).ne'
  rw [Measure.smul_apply, smul_eq_mul]
  refine ENNReal.mul_pos (by rw [ne_eq, ENNReal.inv_eq_zero]; exact ENNReal.natCast_ne_top _) ?_
  rw [ne_eq, ProbabilityTheory.uniformOn_eq_zero_iff (shuffleOutcomes_finite n n)]
  intro hz
  have : (⟨true, n, 0, x.map (fun v => c.idxOf v), fun _ => hord⟩ : ShuffleOutcome) ∈ shuffleOutcomes n n ∩ {d | shuffleOp d c = x} := ⟨⟨rfl, rfl, Nat.zero_le _⟩, hop⟩
  rw [hz] at this
  exact this

theorem isPermOf_finite (n : Nat) : {c | IsPermOf n c}.Finite :=
  (List.finite_toSet (List.range n).permutations).subset (fun _ ho => List.mem_permutations.mpr ho)

theorem shuffleChance (n : Nat) (hn : 2 ≤ n) (q : ENNReal) (hq : 0 < q) (x : List Nat) (hx : IsPermOf n x) :
    ∃ ε, 0 < ε ∧ ∀ c, IsPermOf n c → ε ≤ shuffleLaw n n q {d | shuffleOp d c = x} := by
  refine ⟨(isPermOf_finite n).toFinset.inf (fun c => shuffleLaw n n q {d | shuffleOp d c = x}), ?_, ?_⟩
  · rw [Finset.lt_inf_iff (by simp)]
    intro c hc
    exact shuffleLaw_hit n hn q hq c x (by simpa using hc) hx
  · intro c hc
    exact Finset.inf_le (by simpa using hc)

section
variable {K A S V : Type} [CommRing K] [LinearOrder K] [IsStrictOrderedRing K]

theorem perms_domain {env : GaEnv Nat K A S V} {n : Nat} (h : UsesPermutations env n) {initial : List (Cand Nat (FVec K))} (hu : UserParts env initial (IsPermOf n)) (draws : List ShuffleOutcome) :
    KeepsDomain (withMutations env shuffleOp draws) initial (IsPermOf n) where
  generate := by
    intro k
    obtain ⟨us, hus⟩ := h.generate k
    show IsPermOf n (env.generate k)
    rw [hus]; exact C51_permutation n us
  cross := by
    intro g k p q hp hq
    have hr := h.cross g k p q hp hq
    obtain ⟨hp1, hp2⟩ := (isPermOf_iff n _).mp hp
    obtain ⟨hq1, hq2⟩ := (isPermOf_iff n _).mp hq
    obtain ⟨⟨a1, a2⟩, b1, b2⟩ := permCross_length hr hp1 hq1 (hp2.trans hq2.symm)
    exact ⟨(isPermOf_iff n _).mpr ⟨a1, a2.trans hp2⟩, (isPermOf_iff n _).mpr ⟨b1, b2.trans hp2⟩⟩
  mutate := by
    intro g k c hc
    show IsPermOf n (if k < env.popSize then _ else _)
    split
    · split
      · exact shuffleOp_perm n _ _ hc
      · exact hc
    · exact hc
  user := ⟨hu.initial, hu.repair, hu.sort⟩

/-- **C85** for a `PermutationGA` with one objective and the `Shuffle` mutation with `range_max = 1`, and `KeepBest` or `Elitism` with fewer elites than candidates: the probability that `solve` only
returns best solutions of all the permutations tends to one as the number of generations grows. `q` is the probability that a chromosome is changed. -/
theorem C85_shuffle {env : GaEnv Nat K A S V} {len : Nat} (hlen : 2 ≤ len) (hb : UsesPermutations env len) (hr : UsesKeepBest env ∨ ∃ m, m < env.popSize ∧ UsesElitismOf env m)
    {prev : GaState Nat (FVec K) A V} {initial : List (Cand Nat (FVec K))} (hu : UserParts env initial (IsPermOf len)) {I J : A → List (FVec K) → Prop} (h : ExactRun env prev initial I J)
    (hc : CompleteRun env I) (q : ENNReal) (h0 : 0 < q) (h1 : q ≤ 1) (x : List Nat) (hx : IsPermOf len x) (hbest : ∀ y, IsPermOf len y → AtLeastAsGood (env.fitness x) (env.fitness y))
    (hrep : ∀ r, env.repair = some r → r x = x) (hs : NeverStops env) :
    Tendsto (fun n => drawProb (shuffleLaw len len q) (n * env.popSize) (fun draws => FindsBest (withMutations { env with maxGen := n + 1 } shuffleOp draws) prev initial (IsPermOf len)))
      atTop (nhds 1) := by
  have hprob := shuffleLaw_prob len len q h1
  obtain ⟨ε, hε, hhit⟩ := shuffleChance len hlen q h0 x hx
  obtain ⟨k, hk0, hk, hret, hkp, hone⟩ : ∃ k, 0 < k ∧ k ≤ env.popSize ∧ RetainsChildren env k ∧ KeepsParents env ∧ env.numObj = 1 := by
    rcases hr with hr | ⟨m, hm, hr⟩
    · obtain ⟨r1, r2⟩ := KeepsBest.retains hr.keeps
      exact ⟨env.popSize, hr.positive, le_rfl, r1, r2, hr.single⟩
    · obtain ⟨r1, r2⟩ := hr.retains
      exact ⟨env.popSize - m, by omega, by omega, r1, r2, hr.single⟩
  have hconv := C85_converges (shuffleLaw len len q) h hc shuffleOp (IsPermOf len) (perms_domain hb hu) x hrep ε hε hhit k hk0 hk hret hs (Or.inr hkp)
  refine tendsto_of_tendsto_of_tendsto_of_le_of_le hconv tendsto_const_nhds (fun n => ?_) (fun n => drawProb_le_one _ _ _)
  refine drawProb_mono_length _ _ ?_
  intro draws _ hf
  have e1 : ExactRun { env with maxGen := n + 1 } prev initial I J := ⟨⟨h.alg.init, h.alg.prepare, h.alg.select, h.alg.next⟩, h.exact, h.lengths, h.dynCache, h.initial, h.prevCache⟩
  have e2 : CompleteRun { env with maxGen := n + 1 } I := ⟨hc.evalSched, hc.mergeSched, hc.tol, hc.optimal, hc.sort⟩
  exact findsBest_of_finds (run_withMutations e1 _ draws) (complete_withMutations e2 _ draws) hone _ x hbest hf
end

theorem demoTrap_perms : UsesPermutations demoTrap 4 := ⟨demoPerm_uses.generate, demoPerm_uses.cross, demoPerm_uses.mutate⟩

-- with `Shuffle` of the whole chromosome the local optimum is left
example : Tendsto (fun n => drawProb (shuffleLaw 4 4 (1 / 2)) (n * 2) (fun draws =>
    FindsBest (withMutations { demoTrap with maxGen := n + 1 } shuffleOp draws) (demoPrev Nat) demoTrapInitial (IsPermOf 4))) atTop (nhds 1) :=
  C85_shuffle (by decide) demoTrap_perms (Or.inl demoTrap_uses) ⟨fun c hc => by
      simp only [demoTrapInitial, List.mem_cons, List.not_mem_nil, or_false, or_self] at hc
      subst hc
      exact List.Perm.refl _, fun r h => (by cases h), fun l c h => (List.perm_insertionSort _ l).mem_iff.mp h⟩ demoTrap_run demoTrap_complete (1 / 2)
    (by norm_num) (by norm_num) [1, 0, 3, 2] (by unfold IsPermOf; decide) (C85_permutation_violated (D := Empty) 0 (fun _ _ => false) (fun d => nomatch d) (fun d => nomatch d)).1
    (fun r h => by cases h) (fun _ _ => rfl)

end Gapp.Props
