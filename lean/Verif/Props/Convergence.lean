import Mathlib.Analysis.SpecificLimits.Basic
import Mathlib.Probability.UniformOn
import Verif.Proofs.Convergence
import Verif.Props.RatesNormal
import Verif.Props.GaDomain
/-!
# C85: a run that is long enough finds the best solution
-/

namespace Gapp.Props
open Gapp.Model Gapp.Spec Gapp.Proofs.Convergence Gapp.Proofs.Draws MeasureTheory Filter

section
variable {G K A S V D : Type} [LinearOrder G] [CommRing K] [LinearOrder K] [IsStrictOrderedRing K]

/-- If the parents are not lost, then neither is what was found. -/
theorem found_persists {env : GaEnv G K A S V} {prev : GaState G (FVec K) A V} {initial : List (Cand G (FVec K))} {I J : A → List (FVec K) → Prop} (h : ExactRun env prev initial I J)
    (hk : KeepsParents env) (t : FVec K) (m n : Nat) (hmn : m ≤ n) (a b : GaState G (FVec K) A V) (ha : gaGens env prev initial m = some a) (hb : gaGens env prev initial n = some b)
    (hc : ∃ c ∈ a.pop, AtLeastAsGood c.fitness t) : ∃ c ∈ b.pop, AtLeastAsGood c.fitness t := by
  induction n, hmn using Nat.le_induction generalizing b with
  | base =>
    rw [ha] at hb
    obtain rfl := Option.some.inj hb
    exact hc
  | succ n hmn ih =>
    rw [gaGens_succ, Option.bind_eq_some_iff] at hb
    obtain ⟨st, hst, hadv⟩ := hb
    obtain ⟨c, hc, hge⟩ := ih st hst
    have inv := (gaGens_inv env prev initial _ I J h.runOk n st hst).1
    obtain ⟨children, hlen, -, hfm, -, hat⟩ := advance_pool h st b inv hadv
    obtain ⟨i, hi⟩ := List.getElem?_of_mem hc
    have hil := (List.getElem?_eq_some_iff.mp hi).1
    obtain ⟨j, hj, r', hr', hge'⟩ := hk (env.algPrepare st.alg st.fmat) _ (st.gen + 1) i c.fitness (by rw [List.length_map, List.length_append, inv.size, hlen]; omega) hfm (by rw [← inv.size]; exact hil)
      (by rw [List.getElem?_map, List.getElem?_append_left hil, hi]; rfl)
    rw [List.getElem?_map, Option.map_eq_some_iff] at hr'
    obtain ⟨c', hc', rfl⟩ := hr'
    exact ⟨c', atPositions_mem hat hj hc', atLeastAsGood_trans hge' hge⟩

/-- What was in a population is returned, if the parents are not lost or all the optimal solutions are kept. -/
theorem finds_of_found {env : GaEnv G K A S V} {prev : GaState G (FVec K) A V} {initial : List (Cand G (FVec K))} {I J : A → List (FVec K) → Prop} (h : ExactRun env prev initial I J)
    (hc : CompleteRun env I) (hs : NeverStops env) (n : Nat) (hn : env.maxGen = n + 1) (hkeep : env.keepAll = true ∨ KeepsParents env) (x : List G) (i : Nat) (hi : i ≤ n) (st : GaState G (FVec K) A V)
    (hst : gaGens env prev initial i = some st) (hf : ∃ c ∈ st.pop, AtLeastAsGood c.fitness (env.fitness x)) : Finds env prev initial x := by
  obtain ⟨final, hfin⟩ := C24_ends h hc
  refine ⟨final, hfin, ?_⟩
  obtain ⟨k, ss, sts, t1, -, -, t4, t5, e1, e2, -⟩ := C24_stops h final hfin
  have hk : k = n := by
    rcases t4 with t4 | t4
    · rw [hs] at t4; cases t4
    · have := t5 (by omega); omega
  subst hk
  rcases hkeep with hka | hkp
  · obtain ⟨l, ho, hlen, -, hall⟩ := solutions_among h hc final hfin
    obtain ⟨c, hcm, hge⟩ := hf
    have hcl := hall hka i st (by omega) hst c hcm
    obtain ⟨s, hs, hsc⟩ := optimalAmong_covers (fun _ => Iff.rfl) hlen ho c hcl
    refine ⟨s, hs, atLeastAsGood_trans ?_ hge⟩
    rcases hsc with hsc | hsc
    · rw [hsc]; exact atLeastAsGood_refl _
    · exact ⟨by rw [hlen c hcl, hlen s (ho.found s hs).1], hsc.1⟩
  · obtain ⟨c, hcm, hge⟩ := found_persists h hkp _ i k hi st (sts k) hst (t1 k (Nat.le_refl _)) hf
    have hpos : 0 < env.popSize := by
      rw [← (C22_population_invariant_partial h k _ (t1 k (Nat.le_refl _))).1]
      exact List.length_pos_of_mem hcm
    obtain ⟨s, hs, hge'⟩ := (C70_nonempty h hc hpos final hfin).2 c (by rw [e2]; exact hcm)
    exact ⟨s, hs, atLeastAsGood_trans hge' hge⟩

/-- **C85.** The mutations of a run use independent draws from `μ`, and each of them turns any chromosome of the domain into `x` with the probability `ε` at least. The replacement keeps the first `k`
children of each generation or something better, and what was found is not lost. Then the probability that `max_gen = n + 1` generations do not find a solution as good as `x` is at most `(1 - ε) ^ (k * n)`,
whatever the other random numbers are. -/
theorem C85_not_found [MeasurableSpace D] [DiscreteMeasurableSpace D] (μ : Measure D) [IsProbabilityMeasure μ] {env : GaEnv G K A S V} {prev : GaState G (FVec K) A V}
    {initial : List (Cand G (FVec K))} {I J : A → List (FVec K) → Prop} (h : ExactRun env prev initial I J) (hc : CompleteRun env I)
    (op : D → List G → List G) (Dom : List G → Prop) (hdom : ∀ draws, KeepsDomain (withMutations env op draws) initial Dom) (x : List G) (hrep : ∀ r, env.repair = some r → r x = x)
    (ε : ENNReal) (hε : ∀ c, Dom c → ε ≤ μ {d | op d c = x}) (k : Nat) (hk : k ≤ env.popSize) (hret : RetainsChildren env k)
    (hs : NeverStops env) (n : Nat) (hn : env.maxGen = n + 1) (hkeep : env.keepAll = true ∨ KeepsParents env) :
    drawProb μ (n * env.popSize) (fun draws => ¬ Finds (withMutations env op draws) prev initial x) ≤ (1 - ε) ^ (k * n) := by
  refine le_trans (drawProb_mono_length μ _ ?_) (not_found_le μ env h hc op Dom hdom x hrep ε hε k hk hret n)
  intro draws _ hE hfound
  obtain ⟨i, hi, st, hst, hf⟩ := hfound
  exact hE (finds_of_found (run_withMutations h op draws) (complete_withMutations hc op draws) hs n hn hkeep x i hi st hst hf)

theorem drawProb_not [MeasurableSpace D] [DiscreteMeasurableSpace D] (μ : Measure D) [IsProbabilityMeasure μ] : ∀ (N : Nat) (E : List D → Prop),
    drawProb μ N E + drawProb μ N (fun l => ¬ E l) = 1
  | 0, E => by
      unfold drawProb
      by_cases h : E [] <;> simp [h]
  | N + 1, E => by
      unfold drawProb
      rw [← lintegral_add_left Measurable.of_discrete]
      simp only [drawProb_not μ N, lintegral_const, measure_univ, mul_one]

/-- C85: with more and more generations, the probability that the run finds a solution as good as `x` tends to one. -/
theorem C85_converges [MeasurableSpace D] [DiscreteMeasurableSpace D] (μ : Measure D) [IsProbabilityMeasure μ] {env : GaEnv G K A S V} {prev : GaState G (FVec K) A V}
    {initial : List (Cand G (FVec K))} {I J : A → List (FVec K) → Prop} (h : ExactRun env prev initial I J) (hc : CompleteRun env I)
    (op : D → List G → List G) (Dom : List G → Prop) (hdom : ∀ draws, KeepsDomain (withMutations env op draws) initial Dom) (x : List G) (hrep : ∀ r, env.repair = some r → r x = x)
    (ε : ENNReal) (hε0 : 0 < ε) (hε : ∀ c, Dom c → ε ≤ μ {d | op d c = x}) (k : Nat) (hk0 : 0 < k) (hk : k ≤ env.popSize) (hret : RetainsChildren env k)
    (hs : NeverStops env) (hkeep : env.keepAll = true ∨ KeepsParents env) :
    Tendsto (fun n => drawProb μ (n * env.popSize) (fun draws => Finds (withMutations { env with maxGen := n + 1 } op draws) prev initial x)) atTop (nhds 1) := by
  have hb : ∀ n : Nat, 1 - (1 - ε) ^ (k * n) ≤ drawProb μ (n * env.popSize) (fun draws => Finds (withMutations { env with maxGen := n + 1 } op draws) prev initial x) := by
    intro n
    have h1 : ExactRun { env with maxGen := n + 1 } prev initial I J := ⟨⟨h.alg.init, h.alg.prepare, h.alg.select, h.alg.next⟩, h.exact, h.lengths, h.dynCache, h.initial, h.prevCache⟩
    have h2 : CompleteRun { env with maxGen := n + 1 } I := ⟨hc.evalSched, hc.mergeSched, hc.tol, hc.optimal, hc.sort⟩
    have := C85_not_found μ h1 h2 op Dom (fun draws => ⟨(hdom draws).generate, (hdom draws).cross, (hdom draws).mutate, ⟨(hdom draws).user.initial, (hdom draws).user.repair, (hdom draws).user.sort⟩⟩) x hrep ε hε k hk hret hs n rfl hkeep
    have hn := drawProb_not μ (n * env.popSize) (fun draws => Finds (withMutations { env with maxGen := n + 1 } op draws) prev initial x)
    rw [tsub_le_iff_right]
    refine hn.symm.le.trans ?_
    gcongr
  have hlt : 1 - ε < 1 := ENNReal.sub_lt_self ENNReal.one_ne_top one_ne_zero hε0.ne'
  have hp : Tendsto (fun n : Nat => (1 - ε) ^ (k * n)) atTop (nhds 0) :=
    (ENNReal.tendsto_pow_atTop_nhds_zero_of_lt_one hlt).comp (tendsto_id.const_mul_atTop' hk0)
  have hlow : Tendsto (fun n : Nat => 1 - (1 - ε) ^ (k * n)) atTop (nhds 1) := by
    have := ENNReal.Tendsto.sub (tendsto_const_nhds (x := (1 : ENNReal))) hp (Or.inl ENNReal.one_ne_top)
    simpa using this
  exact tendsto_of_tendsto_of_tendsto_of_le_of_le hlow tendsto_const_nhds hb (fun n => drawProb_le_one μ _ _)

/-! ### Replacements -/

theorem KeepsBest.retains {env : GaEnv G K A S V} (h : KeepsBest env) : RetainsChildren env env.popSize ∧ KeepsParents env :=
  ⟨fun a all g _ r hl hm _ hr => h a all g hl hm r (List.mem_of_getElem? hr), fun a all g _ r hl hm _ hr => h a all g hl hm r (List.mem_of_getElem? hr)⟩

theorem KeepsChildren.retains {env : GaEnv G K A S V} (h : KeepsChildren env) : RetainsChildren env env.popSize := by
  intro a all g i r hl hm hi hr
  exact ⟨env.popSize + i, h a all g _ hl hm (by omega) (by omega), r, hr, atLeastAsGood_refl r⟩

/-- One objective and `Elitism(m)` (soga_replacement.cpp). -/
structure UsesElitismOf (env : GaEnv G K A S V) (m : Nat) : Prop extends UsesElitism env where
  pos : 1 ≤ m
  elitism : ∀ a all g, all.length = 2 * env.popSize → IsMatrix 1 all → ElitismResult (⟨0, 0⟩ : Tol K) m env.popSize all (env.algNext a all g).1

theorem UsesElitismOf.retains {env : GaEnv G K A S V} {m : Nat} (h : UsesElitismOf env m) : RetainsChildren env (env.popSize - m) ∧ KeepsParents env := by
  constructor
  · intro a all g i r hl hm hi hr
    obtain ⟨-, h2, -⟩ := C30_elitism_keeps_best _ _ _ _ _ (h.elitism a all g hl (by have := hm.1; rwa [h.single] at this))
    exact ⟨env.popSize + i, (h2 _ (by omega)).mpr (by omega), r, hr, atLeastAsGood_refl r⟩
  · intro a all g i r hl hm hi hr
    have hm1 : IsMatrix 1 all := by have := hm.1; rwa [h.single] at this
    obtain ⟨h1, -, h3⟩ := C30_elitism_keeps_best _ _ _ _ _ (h.elitism a all g hl hm1)
    by_cases hir : i ∈ (env.algNext a all g).1
    · exact ⟨i, hir, r, hr, atLeastAsGood_refl r⟩
    · obtain ⟨j, hj⟩ := List.exists_mem_of_length_pos (l := (env.algNext a all g).1.filter (fun i => decide (i < env.popSize))) (by
        rw [h1]; have := h.pos; have := h.positive; omega)
      obtain ⟨hj, hjp⟩ := List.mem_filter.mp hj
      have hjp : j < env.popSize := by simpa using hjp
      obtain ⟨rj, hjr⟩ : ∃ rj, all[j]? = some rj := ⟨_, List.getElem?_eq_getElem (by omega)⟩
      refine ⟨j, hj, rj, hjr, ?_⟩
      have hb := h3 j i _ _ hj hjp hi hir hjr hr
      obtain ⟨x, hx⟩ := List.length_eq_one_iff.mp (hm1 _ (List.mem_of_getElem? hjr))
      obtain ⟨y, hy⟩ := List.length_eq_one_iff.mp (hm1 r (List.mem_of_getElem? hr))
      rw [hx, hy, less_single, decide_eq_false_iff_not, not_lt] at hb
      rw [hx, hy]
      refine ⟨rfl, fun k ha hb' => ?_⟩
      have hk0 : k = 0 := by simpa using ha
      subst hk0
      exact hb
end

section
variable {G K A S V : Type} [LinearOrder G] [CommRing K] [LinearOrder K] [IsStrictOrderedRing K]

/-- With one objective, a run that finds a solution as good as the best one only returns the best ones. -/
theorem findsBest_of_finds {env : GaEnv G K A S V} {prev : GaState G (FVec K) A V} {initial : List (Cand G (FVec K))} {I J : A → List (FVec K) → Prop} (h : ExactRun env prev initial I J)
    (hc : CompleteRun env I) (h1 : env.numObj = 1) (Dom : List G → Prop) (x : List G) (hx : ∀ y, Dom y → AtLeastAsGood (env.fitness x) (env.fitness y)) (hf : Finds env prev initial x) :
    FindsBest env prev initial Dom := by
  obtain ⟨final, hfin, s0, hs0, hge⟩ := hf
  obtain ⟨l, ho, hlen, -⟩ := solutions_among h hc final hfin
  refine ⟨final, hfin, List.ne_nil_of_mem hs0, fun s hs => ⟨(ho.found s hs).2.2, fun y hy => ?_⟩⟩
  refine atLeastAsGood_trans ?_ (atLeastAsGood_trans hge (hx y hy))
  have hnd := ho.optimal s hs s0 (ho.found s0 hs0).1
  obtain ⟨v, hv⟩ := List.length_eq_one_iff.mp ((hlen s (ho.found s hs).1).trans h1)
  obtain ⟨w, hw⟩ := List.length_eq_one_iff.mp ((hlen s0 (ho.found s0 hs0).1).trans h1)
  rw [hv, hw] at hnd ⊢
  refine ⟨rfl, fun i ha hb => ?_⟩
  have hi0 : i = 0 := by simpa using ha
  subst hi0
  by_contra hlt
  refine hnd ⟨fun i ha hb => ?_, 0, by simp, by simp, not_le.mp hlt⟩
  have hi0 : i = 0 := by simpa using ha
  subst hi0
  exact le_of_lt (not_le.mp hlt)
end

/-! ### `Flip` -/

open Classical in
/-- The distribution of the number of the genes that are changed, when a chromosome has `n` genes and the mutation rate is `p`; `N` is the limit for the draws of the approximations. -/
noncomputable def countLaw (n : Nat) (p : ℝ) (N : Nat) : Nat → ℝ :=
  if n ≤ 5 then resultProb unitUniform n (fun reals => randomBinomial n p (binomialDev n p) [] [] reals)
  else if UsesPoisson n p then resultProb (ProbabilityTheory.poissonMeasure (Real.toNNReal (poissonMean n p))) N (fun po => randomBinomial n p (binomialDev n p) [] po [])
  else resultProb stdNormal N (fun z => randomBinomial n p (binomialDev n p) z [] [])

theorem countLaw_spec (n : Nat) (p : ℝ) (h0 : 0 < p) (h1 : p < 1) (N : Nat) (hN : 0 < N) : (∀ k ≤ n, 0 < countLaw n p N k) ∧ ∑ k ∈ Finset.range (n + 1), countLaw n p N k = 1 := by
  unfold countLaw
  split
  · rename_i hn
    have e : ∀ k, resultProb unitUniform n (fun reals => randomBinomial n p (binomialDev n p) [] [] reals) k = n.choose k * p ^ k * (1 - p) ^ (n - k) := fun k => by
      rw [small_law unitUniform n hn, unitUniform_le p h0.le h1.le]
    constructor
    · intro k hk
      rw [e]
      have : 0 < n.choose k := Nat.choose_pos hk
      have : 0 < 1 - p := by linarith
      positivity
    · simp only [e]
      have := add_pow p (1 - p) n
      rw [add_sub_cancel, one_pow] at this
      refine Eq.trans (Finset.sum_congr rfl (fun k _ => ?_)) this.symm
      ring
  · rename_i hn
    split
    · rename_i hp
      have e : ∀ k ≤ n, resultProb (ProbabilityTheory.poissonMeasure (Real.toNNReal (poissonMean n p))) N (fun po => randomBinomial n p (binomialDev n p) [] po []) k = _ :=
        fun k hk => poisson_law n p (binomialDev n p) hp h1 [] [] N hN k hk
      have hx : 0 < n * p := mul_pos (by exact_mod_cast (by omega : 0 < n)) h0
      have hpos : ∀ k : Nat, 0 < (n * p) ^ k / (k.factorial : ℝ) := fun k => by positivity
      have hsum : 0 < ∑ j ∈ Finset.range (n + 1), (n * p) ^ j / (j.factorial : ℝ) := Finset.sum_pos (fun k _ => hpos k) ⟨0, by simp⟩
      constructor
      · intro k hk
        rw [e k hk]
        exact div_pos (hpos k) hsum
      · rw [Finset.sum_congr rfl (fun k hk => e k (by have := Finset.mem_range.mp hk; omega)), ← Finset.sum_div, div_self hsum.ne']
    · rename_i hp
      have hu : UsesNormal n p := by
        refine ⟨h0, h1, by omega, fun hc => hp ⟨h0, hc⟩⟩
      have hsd := binomialDev_pos n p hu
      have e : ∀ k ≤ n, resultProb stdNormal N (fun z => randomBinomial n p (binomialDev n p) z [] []) k = _ := fun k hk => normal_law n p (binomialDev n p) hu [] [] N hN k hk
      have hpos : ∀ k ≤ n, 0 < stdNormal.real (normalCell n p (binomialDev n p) k) := fun k hk => by
        rw [cell_core n p _ hsd k hk]; exact core_pos n p _ hsd k
      have hsum : 0 < stdNormal.real (normalAcc n p (binomialDev n p)) := by
        rw [acc_sum]
        exact Finset.sum_pos (fun k hk => hpos k (by have := Finset.mem_range.mp hk; omega)) ⟨0, by simp⟩
      constructor
      · intro k hk
        rw [e k hk]
        exact div_pos (hpos k hk) hsum
      · rw [Finset.sum_congr rfl (fun k hk => e k (by have := Finset.mem_range.mp hk; omega)), ← Finset.sum_div, ← acc_sum, div_self hsum.ne']

/-- The distribution of the random outcomes of `Flip`: the number of genes, and then with equal probabilities the integers drawn by `sampleUnique`. -/
noncomputable def flipLaw (n : Nat) (p : ℝ) (N : Nat) (many : Nat → Bool) : Measure FlipDraws :=
  ∑ k ∈ Finset.range (n + 1), ENNReal.ofReal (countLaw n p N k) • ProbabilityTheory.uniformOn {d : FlipDraws | d.count = k ∧ d.positions ∈ SampleInputs 0 n k (many k)}

/-- The `Flip` mutation with the random outcomes `d`. -/
def flipOp (many : Nat → Bool) (d : FlipDraws) (l : List Nat) : List Nat := (Model.flip d.count (many d.count) d.positions l).getD l

theorem flipSet_eq (n k : Nat) (many : Nat → Bool) : {d : FlipDraws | d.count = k ∧ d.positions ∈ SampleInputs 0 n k (many k)} = FlipDraws.mk k '' SampleInputs 0 n k (many k) := by
  ext ⟨c, p⟩
  simp only [Set.mem_setOf_eq, Set.mem_image, FlipDraws.mk.injEq]
  constructor
  · rintro ⟨rfl, h⟩; exact ⟨p, h, rfl, rfl⟩
  · rintro ⟨p', h, rfl, rfl⟩; exact ⟨rfl, h⟩

theorem flipSet_ncard (n k : Nat) (hk : k ≤ n) (hn : n < 65536) (many : Nat → Bool) (P : List Int → Prop) :
    Measure.count ({d : FlipDraws | d.count = k ∧ d.positions ∈ SampleInputs 0 n k (many k)} ∩ {d | P d.positions}) = (Set.ncard {draws ∈ SampleInputs 0 n k (many k) | P draws} : ENNReal) := by
  have e : {d : FlipDraws | d.count = k ∧ d.positions ∈ SampleInputs 0 n k (many k)} ∩ {d | P d.positions} = FlipDraws.mk k '' {draws ∈ SampleInputs 0 n k (many k) | P draws} := by
    rw [flipSet_eq]
    ext d
    constructor
    · rintro ⟨⟨q, hq, rfl⟩, hp⟩; exact ⟨q, ⟨hq, hp⟩, rfl⟩
    · rintro ⟨q, ⟨hq, hp⟩, rfl⟩; exact ⟨⟨q, hq, rfl⟩, hp⟩
  have hfin : ({draws ∈ SampleInputs 0 n k (many k) | P draws}).Finite := (sampleInputs_finite n k hk hn (many k)).subset (fun _ h => h.1)
  have hinj : Function.Injective (FlipDraws.mk k) := fun a b h => by cases h; rfl
  rw [Measure.count_apply .of_discrete, e, hinj.encard_image, ← hfin.cast_ncard_eq]
  rfl

theorem flipLaw_prob (n : Nat) (hn : n < 65536) (p : ℝ) (h0 : 0 < p) (h1 : p < 1) (N : Nat) (hN : 0 < N) (many : Nat → Bool) : IsProbabilityMeasure (flipLaw n p N many) := by
  obtain ⟨hpos, hsum⟩ := countLaw_spec n p h0 h1 N hN
  constructor
  unfold flipLaw
  rw [Measure.finsetSum_apply]
  have e : ∀ k ∈ Finset.range (n + 1), (ENNReal.ofReal (countLaw n p N k) • ProbabilityTheory.uniformOn {d : FlipDraws | d.count = k ∧ d.positions ∈ SampleInputs 0 n k (many k)}) Set.univ =
      ENNReal.ofReal (countLaw n p N k) := by
    intro k hk
    have hk : k ≤ n := by have := Finset.mem_range.mp hk; omega
    rw [Measure.smul_apply, smul_eq_mul]
    have : IsProbabilityMeasure (ProbabilityTheory.uniformOn {d : FlipDraws | d.count = k ∧ d.positions ∈ SampleInputs 0 n k (many k)}) := by
      apply ProbabilityTheory.uniformOn_isProbabilityMeasure
      · rw [flipSet_eq]; exact (sampleInputs_finite n k hk hn (many k)).image _
      · rw [flipSet_eq]
        refine Set.Nonempty.image _ ?_
        have h := (C76_sample_uniform_partial 0 n k (by omega) (by omega) (many k) ((Finset.Ico (0 : Int) k).toList) (by
          refine ⟨by simp, Finset.nodup_toList _, ?_⟩
          intro x hx
          rw [Finset.mem_toList, Finset.mem_Ico] at hx
          omega)).2
        rw [Set.nonempty_iff_ne_empty]
        intro he
        rw [he, Set.ncard_empty] at h
        omega
    rw [measure_univ, mul_one]
  rw [Finset.sum_congr rfl e, ← ENNReal.ofReal_sum_of_nonneg, hsum, ENNReal.ofReal_one]
  intro k hk
  exact (hpos k (by have := Finset.mem_range.mp hk; omega)).le

/-- `Flip` turns any bit string into any other one with a positive probability. -/
theorem flipLaw_hit (n : Nat) (hn : n < 65536) (p : ℝ) (N : Nat) (many : Nat → Bool) (c x : List Nat) (hc : IsBitString n c) (hx : IsBitString n x) :
    ENNReal.ofReal (countLaw n p N (hammingDist c x)) * (n.choose (hammingDist c x) : ENNReal)⁻¹ ≤ flipLaw n p N many {d | flipOp many d c = x} := by
  obtain ⟨rfl, hcb⟩ := hc
  obtain ⟨hxl, hxb⟩ := hx
  have hle : hammingDist c x ≤ c.length := by
    unfold hammingDist
    refine le_trans (List.length_filter_le _ _) (by simp)
  generalize hk : hammingDist c x = k at *
  obtain ⟨g1, g2⟩ := C76_flip_partial c (fun g hg => by rcases hcb g hg with h | h <;> omega) hn (many k) x hxl (fun g hg => by rcases hxb g hg with h | h <;> omega)
  rw [hk] at g1 g2
  unfold flipLaw
  rw [Measure.finsetSum_apply]
  refine le_trans ?_ (Finset.single_le_sum (f := fun k => (ENNReal.ofReal (countLaw c.length p N k) • ProbabilityTheory.uniformOn {d : FlipDraws | d.count = k ∧ d.positions ∈ SampleInputs 0 c.length k (many k)}) {d | flipOp many d c = x})
    (fun _ _ => bot_le) (Finset.mem_range.mpr (by omega : k < c.length + 1)))
  rw [Measure.smul_apply, smul_eq_mul]
  gcongr
  rw [ProbabilityTheory.uniformOn, ProbabilityTheory.cond_apply .of_discrete]
  have e1 : Measure.count {d : FlipDraws | d.count = k ∧ d.positions ∈ SampleInputs 0 c.length k (many k)} = (Set.ncard (SampleInputs 0 c.length k (many k)) : ENNReal) := by
    have := flipSet_ncard c.length k hle hn many (fun _ => True)
    simpa using this
  have e2 := flipSet_ncard c.length k hle hn many (fun draws => Model.flip k (many k) draws c = some x)
  have e3 : {d : FlipDraws | d.count = k ∧ d.positions ∈ SampleInputs 0 c.length k (many k)} ∩ {d | Model.flip k (many k) d.positions c = some x} ⊆
      {d : FlipDraws | d.count = k ∧ d.positions ∈ SampleInputs 0 c.length k (many k)} ∩ {d | flipOp many d c = x} := by
    rintro ⟨k', q⟩ ⟨⟨rfl, h2⟩, h3⟩
    refine ⟨⟨rfl, h2⟩, ?_⟩
    simp only [Set.mem_setOf_eq, flipOp] at h3 ⊢
    rw [h3]; rfl
  refine le_trans ?_ (mul_le_mul_right (measure_mono e3) _)
  rw [e1, e2, ← g1]
  have hz : (Set.ncard {draws ∈ SampleInputs 0 c.length k (many k) | Model.flip k (many k) draws c = some x} : ENNReal) ≠ 0 := by
    intro h
    rw [Nat.cast_eq_zero] at h
    rw [h] at g1
    omega
  rw [Nat.cast_mul, ENNReal.mul_inv (Or.inl hz) (Or.inl (ENNReal.natCast_ne_top _)), mul_comm, ← mul_assoc, ENNReal.mul_inv_cancel hz (ENNReal.natCast_ne_top _), one_mul]

theorem flipOp_bits (n : Nat) (many : Nat → Bool) (d : FlipDraws) (c : List Nat) (hc : IsBitString n c) : IsBitString n (flipOp many d c) := by
  unfold flipOp
  cases h : Model.flip d.count (many d.count) d.positions c with
  | none => exact hc
  | some r =>
    show IsBitString n r
    unfold Model.flip at h
    simp only [Option.bind_eq_bind, Option.bind_eq_some_iff] at h
    obtain ⟨idxs, -, h⟩ := h
    obtain ⟨h1, h2⟩ := updateAt_partial (fun _ x => x = 0 ∨ x = 1) _ _ _ h (by
      rintro idx _ g g' - hg hg'
      rw [← Option.some.inj hg']
      rcases hg with rfl | rfl
      · exact Or.inr rfl
      · exact Or.inl rfl) (fun i g hg => hc.2 g (List.mem_of_getElem? hg))
    refine ⟨h1.1.trans hc.1, fun g hg => ?_⟩
    obtain ⟨i, hi⟩ := List.getElem?_of_mem hg
    exact h2 i g hi

section
variable {K A S V : Type} [CommRing K] [LinearOrder K] [IsStrictOrderedRing K]

theorem bits_domain {env : GaEnv Nat K A S V} {n : Nat} (h : UsesBits env n) {initial : List (Cand Nat (FVec K))} (hu : UserParts env initial (IsBitString n)) (many : Nat → Bool) (draws : List FlipDraws) :
    KeepsDomain (withMutations env (flipOp many) draws) initial (IsBitString n) where
  generate := by
    intro k
    obtain ⟨pool, gen, bits, h1, h2⟩ := h.generate k
    show IsBitString n (env.generate k)
    rw [h2]
    have hb : bits.length = n := by
      unfold generateBinary at h1
      cases h3 : boolDraws n pool gen with
      | none => rw [h3] at h1; cases h1
      | some r => rw [h3] at h1; obtain rfl := Option.some.inj h1; exact boolDraws_length _ _ _ _ h3
    refine ⟨by simpa using hb, fun x hx => ?_⟩
    obtain ⟨b, -, rfl⟩ := List.mem_map.mp hx
    cases b
    · exact Or.inl rfl
    · exact Or.inr rfl
  cross := by
    intro g k p q hp hq
    have hr := h.cross g k p q hp hq
    rw [isBitString_iff] at hp hq
    obtain ⟨⟨a1, a2⟩, b1, b2⟩ := pointCross_genes hr (hp.1.trans hq.1.symm) (fun _ x => x = 0 ∨ x = 1) hp.2 hq.2
    rw [isBitString_iff, isBitString_iff]
    exact ⟨⟨a1.trans hp.1, a2⟩, b1.trans hp.1, b2⟩
  mutate := by
    intro g k c hc
    show IsBitString n (if k < env.popSize then _ else _)
    split
    · split
      · exact flipOp_bits n many _ _ hc
      · exact hc
    · exact hc
  user := ⟨hu.initial, hu.repair, hu.sort⟩

/-- The least probability with which `Flip` turns a bit string into a given other one. -/
noncomputable def flipChance (n : Nat) (p : ℝ) (N : Nat) : ENNReal :=
  (Finset.range (n + 1)).inf (fun k => ENNReal.ofReal (countLaw n p N k) * (n.choose k : ENNReal)⁻¹)

theorem flipChance_pos (n : Nat) (p : ℝ) (h0 : 0 < p) (h1 : p < 1) (N : Nat) (hN : 0 < N) : 0 < flipChance n p N := by
  unfold flipChance
  rw [Finset.lt_inf_iff (by simp)]
  intro k hk
  have := (countLaw_spec n p h0 h1 N hN).1 k (by have := Finset.mem_range.mp hk; omega)
  refine ENNReal.mul_pos (by rwa [ne_eq, ENNReal.ofReal_eq_zero, not_le]) ?_
  rw [ne_eq, ENNReal.inv_eq_zero]
  exact ENNReal.natCast_ne_top _

theorem flipChance_le (n : Nat) (hn : n < 65536) (p : ℝ) (N : Nat) (many : Nat → Bool) (c x : List Nat) (hc : IsBitString n c) (hx : IsBitString n x) :
    flipChance n p N ≤ flipLaw n p N many {d | flipOp many d c = x} := by
  refine le_trans (Finset.inf_le (Finset.mem_range.mpr ?_)) (flipLaw_hit n hn p N many c x hc hx)
  rw [← hc.1]
  unfold hammingDist
  exact Nat.lt_succ_of_le (le_trans (List.length_filter_le _ _) (by simp))

/-- C85 for a `BinaryGA`: a bound for the probability that a run with `n + 1` generations does not find a solution as good as `x`. -/
theorem C85_binary_not_found {env : GaEnv Nat K A S V} {len : Nat} (hlen : len < 65536) (hb : UsesBits env len) {prev : GaState Nat (FVec K) A V} {initial : List (Cand Nat (FVec K))}
    (hu : UserParts env initial (IsBitString len)) {I J : A → List (FVec K) → Prop} (h : ExactRun env prev initial I J) (hc : CompleteRun env I) (p : ℝ) (h0 : 0 < p) (h1 : p < 1)
    (N : Nat) (hN : 0 < N) (many : Nat → Bool) (x : List Nat) (hx : IsBitString len x) (hrep : ∀ r, env.repair = some r → r x = x) (k : Nat) (hk : k ≤ env.popSize) (hret : RetainsChildren env k)
    (hs : NeverStops env) (n : Nat) (hn : env.maxGen = n + 1) (hkeep : env.keepAll = true ∨ KeepsParents env) :
    drawProb (flipLaw len p N many) (n * env.popSize) (fun draws => ¬ Finds (withMutations env (flipOp many) draws) prev initial x) ≤ (1 - flipChance len p N) ^ (k * n) :=
  have := flipLaw_prob len hlen p h0 h1 N hN many
  C85_not_found _ h hc (flipOp many) (IsBitString len) (bits_domain hb hu many) x hrep _ (fun c hc => flipChance_le len hlen p N many c x hc hx) k hk hret hs n hn hkeep

/-- **C85.** A `BinaryGA` with one objective, the `Flip` mutation with a rate strictly between 0 and 1, and `KeepBest` or `Elitism` with fewer elites than candidates: the probability that `solve` only
returns best solutions of all the bit strings tends to one as the number of generations grows. This is so for all initial populations, crossovers, selections and outcomes of their random numbers. -/
theorem C85_binary {env : GaEnv Nat K A S V} {len : Nat} (hlen : len < 65536) (hb : UsesBits env len) (hr : UsesKeepBest env ∨ ∃ m, m < env.popSize ∧ UsesElitismOf env m)
    {prev : GaState Nat (FVec K) A V} {initial : List (Cand Nat (FVec K))}
    (hu : UserParts env initial (IsBitString len)) {I J : A → List (FVec K) → Prop} (h : ExactRun env prev initial I J) (hc : CompleteRun env I) (p : ℝ) (h0 : 0 < p) (h1 : p < 1)
    (N : Nat) (hN : 0 < N) (many : Nat → Bool) (x : List Nat) (hx : IsBitString len x) (hbest : ∀ y, IsBitString len y → AtLeastAsGood (env.fitness x) (env.fitness y))
    (hrep : ∀ r, env.repair = some r → r x = x) (hs : NeverStops env) :
    Tendsto (fun n => drawProb (flipLaw len p N many) (n * env.popSize) (fun draws => FindsBest (withMutations { env with maxGen := n + 1 } (flipOp many) draws) prev initial (IsBitString len)))
      atTop (nhds 1) := by
  have hprob := flipLaw_prob len hlen p h0 h1 N hN many
  obtain ⟨k, hk0, hk, hret, hkp, hone⟩ : ∃ k, 0 < k ∧ k ≤ env.popSize ∧ RetainsChildren env k ∧ KeepsParents env ∧ env.numObj = 1 := by
    rcases hr with hr | ⟨m, hm, hr⟩
    · obtain ⟨r1, r2⟩ := KeepsBest.retains hr.keeps
      exact ⟨env.popSize, hr.positive, le_rfl, r1, r2, hr.single⟩
    · obtain ⟨r1, r2⟩ := hr.retains
      exact ⟨env.popSize - m, by omega, by omega, r1, r2, hr.single⟩
  have hconv := C85_converges (flipLaw len p N many) h hc (flipOp many) (IsBitString len) (bits_domain hb hu many) x hrep _ (flipChance_pos len p h0 h1 N hN)
    (fun c hc => flipChance_le len hlen p N many c x hc hx) k hk0 hk hret hs (Or.inr hkp)
  refine tendsto_of_tendsto_of_tendsto_of_le_of_le hconv tendsto_const_nhds (fun n => ?_) (fun n => drawProb_le_one _ _ _)
  refine drawProb_mono_length _ _ ?_
  intro draws _ hf
  have e1 : ExactRun { env with maxGen := n + 1 } prev initial I J := ⟨⟨h.alg.init, h.alg.prepare, h.alg.select, h.alg.next⟩, h.exact, h.lengths, h.dynCache, h.initial, h.prevCache⟩
  have e2 : CompleteRun { env with maxGen := n + 1 } I := ⟨hc.evalSched, hc.mergeSched, hc.tol, hc.optimal, hc.sort⟩
  exact findsBest_of_finds (run_withMutations e1 _ draws) (complete_withMutations e2 _ draws) hone _ x hbest hf

/-- C85 for several objectives, if all the optimal solutions are kept, and all the children: the probability that a solution at least as good as a given one is returned tends to one. -/
theorem C85_binary_keep_all {env : GaEnv Nat K A S V} {len : Nat} (hlen : len < 65536) (hb : UsesBits env len) (hr : KeepsChildren env) (hka : env.keepAll = true) (hpos : 0 < env.popSize)
    {prev : GaState Nat (FVec K) A V} {initial : List (Cand Nat (FVec K))}
    (hu : UserParts env initial (IsBitString len)) {I J : A → List (FVec K) → Prop} (h : ExactRun env prev initial I J) (hc : CompleteRun env I) (p : ℝ) (h0 : 0 < p) (h1 : p < 1)
    (N : Nat) (hN : 0 < N) (many : Nat → Bool) (x : List Nat) (hx : IsBitString len x) (hrep : ∀ r, env.repair = some r → r x = x) (hs : NeverStops env) :
    Tendsto (fun n => drawProb (flipLaw len p N many) (n * env.popSize) (fun draws => Finds (withMutations { env with maxGen := n + 1 } (flipOp many) draws) prev initial x)) atTop (nhds 1) :=
  have := flipLaw_prob len hlen p h0 h1 N hN many
  C85_converges (flipLaw len p N many) h hc (flipOp many) (IsBitString len) (bits_domain hb hu many) x hrep _ (flipChance_pos len p h0 h1 N hN)
    (fun c hc => flipChance_le len hlen p N many c x hc hx) env.popSize hpos le_rfl hr.retains hs (Or.inl hka)
end

/-! ### Elites that fill the population -/

section
variable {G K A S V D : Type} [LinearOrder G] [CommRing K] [LinearOrder K] [IsStrictOrderedRing K]

/-- With as many elites as candidates, no child is ever kept. -/
theorem elitism_all_initial {env : GaEnv G K A S V} {m : Nat} (hm : UsesElitismOf env m) (hp : env.popSize ≤ m) {prev : GaState G (FVec K) A V} {initial : List (Cand G (FVec K))}
    {I J : A → List (FVec K) → Prop} (h : ExactRun env prev initial I J) (n : Nat) (st st0 : GaState G (FVec K) A V) (h0 : gaGens env prev initial 0 = some st0)
    (hst : gaGens env prev initial n = some st) : ∀ c ∈ st.pop, c ∈ st0.pop := by
  induction n generalizing st with
  | zero =>
    rw [h0] at hst
    obtain rfl := Option.some.inj hst
    exact fun c hc => hc
  | succ n ih =>
    rw [gaGens_succ, Option.bind_eq_some_iff] at hst
    obtain ⟨s, hs, hadv⟩ := hst
    have inv := (gaGens_inv env prev initial _ I J h.runOk n s hs).1
    obtain ⟨children, hlen, -, hfm, -, hat⟩ := advance_pool h s st inv hadv
    have hres := hm.elitism (env.algPrepare s.alg s.fmat) ((s.pop ++ children).map (·.fitness)) (s.gen + 1) (by rw [List.length_map, List.length_append, inv.size, hlen]; omega) (by have := hfm.1; rwa [hm.single] at this)
    obtain ⟨-, h2, -⟩ := C30_elitism_keeps_best _ _ _ _ _ hres
    intro c hc
    refine ih s hs c ?_
    have h3 : some c ∈ List.map (fun i => (s.pop ++ children)[i]?) (env.algNext (env.algPrepare s.alg s.fmat) ((s.pop ++ children).map (·.fitness)) (s.gen + 1)).1 := by
      rw [show _ = List.map some st.pop from hat]
      exact List.mem_map_of_mem hc
    obtain ⟨i, hi, hic⟩ := List.mem_map.mp h3
    have hip : i < env.popSize := by
      by_contra hge
      have := (h2 i (by omega)).mp hi
      omega
    rw [List.getElem?_append_left (by rw [inv.size]; exact hip)] at hic
    exact List.mem_of_getElem? hic

/-- C85 is violated by `Elitism(m)` when `m` is not less than the size of the population, which the library allows: if the initial population has no solution as good as `x`, then no run ever finds one,
however long it is. -/
theorem C85_elitism_violated [MeasurableSpace D] (μ : Measure D) {env : GaEnv G K A S V} {m : Nat} (hm : UsesElitismOf env m) (hp : env.popSize ≤ m) {prev : GaState G (FVec K) A V}
    {initial : List (Cand G (FVec K))} {I J : A → List (FVec K) → Prop} (h : ExactRun env prev initial I J) (hc : CompleteRun env I) (op : D → List G → List G) (x : List G)
    (hbad : ∀ st, gaGens env prev initial 0 = some st → ∀ c ∈ st.pop, ¬ AtLeastAsGood c.fitness (env.fitness x)) (n : Nat) :
    drawProb μ (n * env.popSize) (fun draws => Finds (withMutations { env with maxGen := n + 1 } op draws) prev initial x) = 0 := by
  rw [← drawProb_false μ (n * env.popSize)]
  apply drawProb_congr
  intro draws
  refine iff_of_false ?_ id
  rintro ⟨final, hfin, s, hs, hge⟩
  have e1 : ExactRun { env with maxGen := n + 1 } prev initial I J := ⟨⟨h.alg.init, h.alg.prepare, h.alg.select, h.alg.next⟩, h.exact, h.lengths, h.dynCache, h.initial, h.prevCache⟩
  have e2 : CompleteRun { env with maxGen := n + 1 } I := ⟨hc.evalSched, hc.mergeSched, hc.tol, hc.optimal, hc.sort⟩
  have r1 := run_withMutations e1 op draws
  have r2 := complete_withMutations e2 op draws
  have hm' : UsesElitismOf (withMutations { env with maxGen := n + 1 } op draws) m := ⟨⟨hm.single, hm.positive, hm.tol, hm.select, hm.replace, hm.optimal⟩, hm.pos, hm.elitism⟩
  obtain ⟨st0, hst0⟩ := C22_progress r1 r2 0
  have h0 : gaGens env prev initial 0 = some st0 := by
    rw [← hst0]
    simp only [gaGens, gaInit, generate_withMutations]
    have e : generatePopulation { env with maxGen := n + 1 } initial = generatePopulation env initial := by
      have e : ∀ m k pop, fillPopulation { env with maxGen := n + 1 } m k pop = fillPopulation env m k pop := by
        intro m
        induction m with
        | zero => intro k pop; rfl
        | succ m ih => intro k pop; exact ih _ _
      simp only [generatePopulation, e]
    rw [e]
    rfl
  have hin : ∃ i st, gaGens (withMutations { env with maxGen := n + 1 } op draws) prev initial i = some st ∧ s ∈ st.pop := by
    rcases Bool.eq_false_or_eq_true env.keepAll with hka | hka
    rotate_left
    · obtain ⟨k, ss, sts, t1, -, -, -, -, -, e2, -⟩ := C24_stops r1 final hfin
      have := ((C23_solutions_last_population r1 r2 hka final hfin).2.found s hs).1
      exact ⟨k, sts k, t1 k (Nat.le_refl _), by rw [← e2]; exact this⟩
    · obtain ⟨i, st, -, hst, hm⟩ := ((C23_solutions_all_populations_partial r1 r2 hka final hfin).1.found s hs).1
      exact ⟨i, st, hst, hm⟩
  obtain ⟨i, st, hst, hsm⟩ := hin
  exact hbad st0 h0 s (elitism_all_initial hm' hp r1 i st st0 hst0 hst s hsm) hge
end

/-! ### Cases that meet the assumptions -/

/-- A `BinaryGA` that looks for the bit string with the most ones, with `KeepBest`. -/
def demoOnes : GaEnv Nat ℤ Unit Unit (FVec ℤ) :=
  { demoBits with
    fitness := fun x => [.fin (x.sum : ℤ)]
    numObj := 1
    sortSols := fun l => l.insertionSort (fun a b => a.chrom ≤ b.chrom)
    algNext := demoElitism.algNext }

theorem demoOnes_uses : UsesKeepBest demoOnes where
  single := rfl
  positive := by decide
  tol := rfl
  select := fun _ _ _ k _ _ => Nat.mod_lt _ (by decide)
  replace := fun a all g hl hm => Or.inr (demoElitism_keeps a all g hl hm)
  optimal := fun _ => rfl
  keepBest := demoElitism_keeps

theorem demoOnes_run : ExactRun demoOnes (demoPrev Nat) [] (fun _ _ => True) (fun a fmat => ∃ a0, a = demoOnes.algPrepare a0 fmat) :=
  ⟨demoOnes_uses.contract, rfl, fun _ => rfl, fun h => (by cases h), (by simp), ⟨_, FifoCache.repr_init 0 0⟩⟩

theorem demoOnes_complete : CompleteRun demoOnes (fun _ _ => True) where
  evalSched := (demo_complete false 0 4).evalSched
  mergeSched := (demo_complete false 0 4).mergeSched
  tol := rfl
  optimal := fun _ _ _ _ _ => Or.inl rfl
  sort := fun l => by
    refine ⟨List.perm_insertionSort _ l, ?_⟩
    have ht : IsTrans (Cand Nat (FVec ℤ)) (fun a b => a.chrom ≤ b.chrom) := ⟨fun _ _ _ h1 h2 => le_trans h1 h2⟩
    have htot : Std.Total (fun a b : Cand Nat (FVec ℤ) => a.chrom ≤ b.chrom) := ⟨fun a b => le_total _ _⟩
    exact (List.pairwise_insertionSort (fun a b : Cand Nat (FVec ℤ) => a.chrom ≤ b.chrom) l).imp (fun h => not_lt.mpr h)

theorem demoOnes_bits : UsesBits demoOnes 4 := ⟨demoBits_uses.generate, demoBits_uses.cross, demoBits_uses.mutate⟩

theorem demoOnes_best (y : List Nat) (hy : IsBitString 4 y) : AtLeastAsGood (demoOnes.fitness [1, 1, 1, 1]) (demoOnes.fitness y) := by
  refine ⟨rfl, fun i ha hb => ?_⟩
  have hi0 : i = 0 := by
    have ha : i < 1 := ha
    omega
  subst hi0
  show Flt.fin (y.sum : ℤ) ≤ Flt.fin 4
  have h : y.sum ≤ y.length * 1 := List.sum_le_card_nsmul y 1 (fun g hg => by rcases hy.2 g hg with h | h <;> omega)
  rw [hy.1] at h
  exact Flt.fin_le_fin.mpr (by exact_mod_cast h)

-- the best bit string is found, if the run is long enough; a quarter of the bits are changed
example : Tendsto (fun n => drawProb (flipLaw 4 (1 / 4) 1 (fun k => decide (2 ≤ k))) (n * 2) (fun draws =>
    FindsBest (withMutations { demoOnes with maxGen := n + 1 } (flipOp (fun k => decide (2 ≤ k))) draws) (demoPrev Nat) [] (IsBitString 4))) atTop (nhds 1) :=
  C85_binary (by decide) demoOnes_bits (Or.inl demoOnes_uses) ⟨by simp, fun r h => (by cases h), fun l c h => (List.perm_insertionSort _ l).mem_iff.mp h⟩ demoOnes_run demoOnes_complete (1 / 4)
    (by norm_num) (by norm_num) 1 (by decide) _ [1, 1, 1, 1] ⟨rfl, by decide⟩ demoOnes_best (fun r h => by cases h) (fun _ _ => rfl)

/-- The same with `Elitism(2)` and two candidates. -/
def demoOnesElite : GaEnv Nat ℤ Unit Unit (FVec ℤ) :=
  { demoOnes with algNext := fun _ all _ => ((List.range 2).insertionSort (fun i j => (all.getD j []).getD 0 .ninf ≤ (all.getD i []).getD 0 .ninf), ()) }


theorem demoOnesElite_uses : UsesElitismOf demoOnesElite 2 := by
  have hel : ∀ (a : Unit) (all : List (FVec ℤ)) (g : Nat), all.length = 2 * demoOnesElite.popSize → IsMatrix 1 all →
      ElitismResult (⟨0, 0⟩ : Tol ℤ) 2 demoOnesElite.popSize all (demoOnesElite.algNext a all g).1 := by
    intro a all g hl hm
    have hl : all.length = 4 := hl
    refine ⟨by rw [hl]; decide, (List.range 2).insertionSort (fun i j => (all.getD j []).getD 0 .ninf ≤ (all.getD i []).getD 0 .ninf), ?_, ?_⟩
    · unfold IsPartialArgsortOf
      have h2 : (all.take demoOnesElite.popSize).length = 2 := by
        rw [List.length_take, hl]; decide
      rw [if_pos (by rw [h2]; decide)]
      show IsSortOf _ _ _
      rw [h2]
      refine ⟨List.perm_insertionSort _ _, ?_⟩
      have ht : IsTrans Nat (fun i j => (all.getD j []).getD 0 Flt.ninf ≤ (all.getD i []).getD 0 Flt.ninf) := ⟨fun _ _ _ h1 h2 => le_trans h2 h1⟩
      have htot : Std.Total (fun i j : Nat => (all.getD j []).getD 0 Flt.ninf ≤ (all.getD i []).getD 0 Flt.ninf) := ⟨fun a b => le_total _ _⟩
      refine (List.pairwise_insertionSort (fun i j => (all.getD j []).getD 0 Flt.ninf ≤ (all.getD i []).getD 0 Flt.ninf) (List.range 2)).imp ?_
      intro i j hij
      unfold compareAt
      split
      · rename_i x y hx hy
        have hsub : ∀ (k : Nat) (z : FVec ℤ), (all.take demoOnesElite.popSize)[k]? = some z → all[k]? = some z := by
          intro k z hz
          rw [List.getElem?_take] at hz
          split at hz
          · exact hz
          · cases hz
        have hx := hsub _ _ hx
        have hy := hsub _ _ hy
        obtain ⟨x', rfl⟩ := List.length_eq_one_iff.mp (hm x (List.mem_of_getElem? hx))
        obtain ⟨y', rfl⟩ := List.length_eq_one_iff.mp (hm y (List.mem_of_getElem? hy))
        simp only [List.getD_eq_getElem?_getD, hx, hy, Option.getD_some, List.getElem?_cons_zero] at hij
        rw [rowDescending, less_single, decide_eq_false_iff_not]
        exact not_lt.mpr hij
      · rfl
    · have : ((List.range 2).insertionSort (fun i j => (all.getD j []).getD 0 Flt.ninf ≤ (all.getD i []).getD 0 .ninf)).length = 2 := by simp
      simp [demoOnesElite, demoOnes, demoBits, demoEnv, List.take_of_length_le]
  exact ⟨⟨rfl, by decide, rfl, fun _ _ _ k _ _ => Nat.mod_lt _ (by decide), fun a all g hl hm => Or.inl ⟨2, by decide, hel a all g hl hm⟩, fun _ => rfl⟩, by decide, hel⟩

theorem demoOnesElite_run : ExactRun demoOnesElite (demoPrev Nat) [] (fun _ _ => True) (fun a fmat => ∃ a0, a = demoOnesElite.algPrepare a0 fmat) :=
  ⟨demoOnesElite_uses.contract, rfl, fun _ => rfl, fun h => (by cases h), (by simp), ⟨_, FifoCache.repr_init 0 0⟩⟩

-- the two candidates of the initial population are not the best bit string, and never replaced
example (n : Nat) : drawProb (flipLaw 4 (1 / 4) 1 (fun k => decide (2 ≤ k))) (n * 2) (fun draws =>
    Finds (withMutations { demoOnesElite with maxGen := n + 1 } (flipOp (fun k => decide (2 ≤ k))) draws) (demoPrev Nat) [] [1, 1, 1, 1]) = 0 := by
  refine C85_elitism_violated _ demoOnesElite_uses (by decide) demoOnesElite_run
    ⟨demoOnes_complete.evalSched, demoOnes_complete.mergeSched, rfl, demoOnes_complete.optimal, demoOnes_complete.sort⟩ _ [1, 1, 1, 1] ?_ n
  have hd : (gaGens demoOnesElite (demoPrev Nat) [] 0).map (fun st => st.pop.map (·.fitness)) = some [[.fin 2], [.fin 2]] := by decide +kernel
  intro st hst c hc hge
  rw [hst] at hd
  have hd : st.pop.map (·.fitness) = [[.fin 2], [.fin 2]] := Option.some.inj hd
  have hcm : c.fitness ∈ st.pop.map (·.fitness) := List.mem_map_of_mem hc
  rw [hd] at hcm
  have hcf : c.fitness = [.fin 2] := by simpa using hcm
  rw [hcf] at hge
  have := hge.2 0 (by decide) (by decide)
  revert this
  decide

end Gapp.Props
