import Verif.Proofs.Draws
import Verif.Proofs.GaDomain
import Verif.Props.GaBest
import Verif.Spec.Convergence
/-! # Runs with independent mutations -/

namespace Gapp.Proofs.Convergence
open MeasureTheory Gapp.Spec Gapp.Model Gapp.Props Gapp.Proofs.Draws

section
variable {D : Type} [MeasurableSpace D] (μ : Measure D)

theorem drawProb_mono_length : ∀ (N : Nat) {E E' : List D → Prop}, (∀ l, l.length = N → E l → E' l) → drawProb μ N E ≤ drawProb μ N E'
  | 0, E, E', h => by
      have := h [] rfl
      simp only [drawProb]
      by_cases h1 : E []
      · rw [if_pos h1, if_pos (this h1)]
      · rw [if_neg h1]; exact zero_le
  | N + 1, E, E', h => by
      unfold drawProb
      exact lintegral_mono (fun x => drawProb_mono_length N (fun l hl => h (x :: l) (by simp [hl])))

theorem drawProb_le_one [IsProbabilityMeasure μ] (N : Nat) (E : List D → Prop) : drawProb μ N E ≤ 1 := by
  rw [← drawProb_true μ N]
  exact drawProb_mono_length μ N (fun _ _ _ => trivial)

/-- The first `a` draws, then the other ones. -/
theorem drawProb_step (b : Nat) (B : ENNReal) (hB : B ≠ ⊤) : ∀ (a : Nat) (E P : List D → Prop),
    (∀ l1, l1.length = a → P l1 → drawProb μ b (fun l2 => E (l1 ++ l2)) ≤ B) →
    (∀ l1 l2, l1.length = a → l2.length = b → ¬ P l1 → ¬ E (l1 ++ l2)) → drawProb μ (a + b) E ≤ drawProb μ a P * B
  | 0, E, P, h1, h2 => by
      rw [Nat.zero_add]
      simp only [drawProb]
      by_cases hP : P []
      · rw [if_pos hP, one_mul]
        exact h1 [] rfl hP
      · rw [if_neg hP, zero_mul, ← drawProb_false μ b]
        exact drawProb_mono_length μ b (fun l hl he => h2 [] l rfl hl hP he)
  | a + 1, E, P, h1, h2 => by
      rw [show a + 1 + b = (a + b) + 1 by omega]
      unfold drawProb
      rw [← lintegral_mul_const' _ _ hB]
      exact lintegral_mono (fun x => drawProb_step b B hB a _ _ (fun l1 hl hp => h1 (x :: l1) (by simp [hl]) hp)
        (fun l1 l2 hl hl2 hp => h2 (x :: l1) l2 (by simp [hl]) hl2 hp))

variable {G : Type}

/-- None of the first `h` chromosomes is changed into `target`. -/
theorem noHit_le [IsProbabilityMeasure μ] [DiscreteMeasurableSpace D] (op : D → List G → List G) (target : List G) (ε : ENNReal) : ∀ (cs : List (List G)) (h : Nat), h ≤ cs.length →
    (∀ c ∈ cs, ε ≤ μ {d | op d c = target}) →
    drawProb μ cs.length (fun l => ∀ i < h, ∀ c d, cs[i]? = some c → l[i]? = some d → op d c ≠ target) ≤ (1 - ε) ^ h
  | [], h, hh, _ => by
      have : h = 0 := by simpa using hh
      subst this
      rw [pow_zero]
      exact drawProb_le_one μ _ _
  | c :: cs, 0, _, _ => by
      rw [pow_zero]
      exact drawProb_le_one μ _ _
  | c :: cs, h + 1, hh, hc => by
      have ih := noHit_le op target ε cs h (by simpa using hh) (fun c' hc' => hc c' (List.mem_cons_of_mem _ hc'))
      show drawProb μ (cs.length + 1) _ ≤ _
      unfold drawProb
      have hm : MeasurableSet {d | op d c = target} := MeasurableSet.of_discrete
      calc _ ≤ ∫⁻ d, Set.indicator {d | op d c = target}ᶜ (fun _ => (1 - ε) ^ h) d ∂μ := by
            apply lintegral_mono
            intro d
            by_cases hd : op d c = target
            · rw [Set.indicator_of_notMem (by simpa using hd)]
              rw [← drawProb_false μ cs.length]
              exact drawProb_mono_length μ _ (fun l _ he => he 0 (by omega) c d rfl rfl hd)
            · rw [Set.indicator_of_mem (by simpa using hd)]
              refine le_trans (drawProb_mono_length μ _ (fun l _ he => ?_)) ih
              intro i hi c' d' h1 h2
              exact he (i + 1) (by omega) c' d' (by simpa using h1) (by simpa using h2)
        _ = (1 - ε) ^ h * μ {d | op d c = target}ᶜ := by rw [lintegral_indicator hm.compl, setLIntegral_const]
        _ ≤ (1 - ε) ^ h * (1 - ε) := by
            gcongr
            rw [prob_compl_eq_one_sub hm]
            exact tsub_le_tsub_left (hc c List.mem_cons_self) 1
        _ = _ := by rw [pow_succ]
end

section
variable {G K A S V D : Type} [LinearOrder G] [CommRing K] [LinearOrder K] [IsStrictOrderedRing K]

theorem contract_withMutations {env : GaEnv G K A S V} {I J : A → List (FVec K) → Prop} (h : AlgContract env I J) (op : D → List G → List G) (draws : List D) :
    AlgContract (withMutations env op draws) I J := ⟨h.init, h.prepare, h.select, h.next⟩

theorem run_withMutations {env : GaEnv G K A S V} {prev : GaState G (FVec K) A V} {initial : List (Cand G (FVec K))} {I J : A → List (FVec K) → Prop} (h : ExactRun env prev initial I J)
    (op : D → List G → List G) (draws : List D) : ExactRun (withMutations env op draws) prev initial I J :=
  ⟨contract_withMutations h.alg op draws, h.exact, h.lengths, h.dynCache, h.initial, h.prevCache⟩

theorem complete_withMutations {env : GaEnv G K A S V} {I : A → List (FVec K) → Prop} (h : CompleteRun env I) (op : D → List G → List G) (draws : List D) :
    CompleteRun (withMutations env op draws) I :=
  ⟨h.evalSched, h.mergeSched, h.tol, h.optimal, h.sort⟩

theorem advance_congr (env : GaEnv G K A S V) (m1 m2 : Nat → Nat → Cand G (FVec K) → List G) (st : GaState G (FVec K) A V) (h : m1 (st.gen + 1) = m2 (st.gen + 1)) :
    advance { env with mutate := m1 } st = advance { env with mutate := m2 } st := by
  have e : ∀ m : Nat → Nat → Cand G (FVec K) → List G, advance { env with mutate := m } st = (fun x => advance { env with mutate := fun g => if g = st.gen + 1 then x else fun _ c => c.chrom } st) (m (st.gen + 1)) := by
    intro m
    simp only [advance, if_pos]
    rfl
  rw [e, e, h]

theorem fill_withMutations (env : GaEnv G K A S V) (op : D → List G → List G) (draws : List D) : ∀ m k pop,
    fillPopulation (withMutations env op draws) m k pop = fillPopulation env m k pop
  | 0, _, _ => rfl
  | m + 1, k, pop => fill_withMutations env op draws m (k + 1) _

theorem generate_withMutations (env : GaEnv G K A S V) (op : D → List G → List G) (draws : List D) (initial : List (Cand G (FVec K))) :
    generatePopulation (withMutations env op draws) initial = generatePopulation env initial := by
  simp only [generatePopulation, fill_withMutations]
  rfl

/-- A generation only uses the draws of this generation. -/
theorem gaGens_prefix (env : GaEnv G K A S V) {prev : GaState G (FVec K) A V} {initial : List (Cand G (FVec K))} {I J : A → List (FVec K) → Prop} (h : ExactRun env prev initial I J)
    (op : D → List G → List G) (l1 l2 : List D) : ∀ n, n * env.popSize ≤ l1.length →
    gaGens (withMutations env op (l1 ++ l2)) prev initial n = gaGens (withMutations env op l1) prev initial n
  | 0, _ => by simp only [gaGens, gaInit, generate_withMutations]; rfl
  | n + 1, hn => by
      have hle : n * env.popSize ≤ l1.length := by rw [Nat.add_mul] at hn; omega
      rw [gaGens_succ, gaGens_succ, gaGens_prefix env h op l1 l2 n hle]
      cases hg : gaGens (withMutations env op l1) prev initial n with
      | none => rfl
      | some st =>
        have hgen := (gaGens_inv _ prev initial _ I J (run_withMutations h op l1).runOk n st hg).2
        refine advance_congr env _ _ st ?_
        funext i c
        rw [hgen]
        by_cases hi : i < env.popSize
        · rw [if_pos hi, if_pos hi, Nat.add_sub_cancel, List.getElem?_append_left (by rw [Nat.add_mul] at hn; omega)]
        · rw [if_neg hi, if_neg hi]

theorem mutationOp_chrom {F : Type} (eq : List G → List G → Bool) (m : Cand G F → List G) (c : Cand G F) : (mutationOp eq m c).chrom = m c := by
  unfold mutationOp
  split <;> rfl

theorem repairOp_fixed {F : Type} (repair : Option (List G → List G)) (c : Cand G F) (h : ∀ r, repair = some r → r c.chrom = c.chrom) : (repairOp repair c).chrom = c.chrom := by
  unfold repairOp
  cases repair with
  | none => rfl
  | some f => simp [h f rfl]

/-- One generation after the draws `l1`: the children before their mutation do not depend on the further draws, and a child that is changed into the target is evaluated as such. -/
theorem advance_hit (env : GaEnv G K A S V) {prev : GaState G (FVec K) A V} {initial : List (Cand G (FVec K))} {I J : A → List (FVec K) → Prop} (h : ExactRun env prev initial I J)
    (op : D → List G → List G) (Dom : List G → Prop) (hdom : ∀ draws, KeepsDomain (withMutations env op draws) initial Dom) (target : List G) (hrep : ∀ r, env.repair = some r → r target = target)
    (n : Nat) (l1 : List D) (hl1 : l1.length = n * env.popSize) (st : GaState G (FVec K) A V) (hst : gaGens (withMutations env op l1) prev initial n = some st) :
    ∃ cs : List (List G), cs.length = env.popSize ∧ (∀ c ∈ cs, Dom c) ∧
      ∀ l2 st', gaGens (withMutations env op (l1 ++ l2)) prev initial (n + 1) = some st' →
        ∃ children : List (Cand G (FVec K)), children.length = env.popSize ∧ (∀ c ∈ children, c.evaluated = true ∧ c.fitness = env.fitness c.chrom) ∧
          FitMatrix env ((st.pop ++ children).map (·.fitness)) ∧
          AtPositions (st.pop ++ children) (env.algNext (env.algPrepare st.alg st.fmat) ((st.pop ++ children).map (·.fitness)) (n + 1)).1 st'.pop ∧
          ∀ (i : Nat) c d, cs[i]? = some c → l2[i]? = some d → op d c = target → ∃ child : Cand G (FVec K), children[i]? = some child ∧ child.chrom = target := by
  obtain ⟨inv, hgen⟩ := gaGens_inv _ prev initial _ I J (run_withMutations h op l1).runOk n st hst
  have hr := (run_withMutations h op l1).runOk
  obtain ⟨ch, hch, hcl, -, -⟩ := advance_steps _ _ I J hr.alg hr.eqOk hr.fitOk hr.dynCache hr.lenOk st inv
  have hchd := makeChildren_domain _ initial Dom (hdom l1) _ _ (gaGens_domain _ prev initial Dom (hdom l1) n st hst).pop ch hch
  refine ⟨ch.map (·.chrom), by rw [List.length_map]; exact hcl, ?_, ?_⟩
  · intro c hc
    obtain ⟨c0, h0, rfl⟩ := List.mem_map.mp hc
    exact hchd c0 h0
  · intro l2 st' hst'
    rw [gaGens_succ, gaGens_prefix env h op l1 l2 n (by omega), hst] at hst'
    have hadv : advance (withMutations env op (l1 ++ l2)) st = some st' := hst'
    have hr2 := (run_withMutations h op (l1 ++ l2)).runOk
    have inv2 : GaInv (withMutations env op (l1 ++ l2)) (TrueFitness (withMutations env op (l1 ++ l2))) I st := ⟨inv.size, inv.evaluated, inv.fmat, inv.cache, inv.alg⟩
    obtain ⟨children, hlen, hev, hfm, -, hat⟩ := advance_pool (run_withMutations h op (l1 ++ l2)) st st' inv2 hadv
    obtain ⟨-, ch', ec, hch', -, hev', ⟨idx, rfl, -, hat'⟩, -⟩ := advance_spec _ _ I J hr2.alg hr2.eqOk hr2.fitOk hr2.dynCache hr2.lenOk st st' inv2 hadv
    have hcc : ch' = ch := by
      have : some ch' = some ch := hch'.symm.trans hch
      exact Option.some.inj this
    subst hcc
    obtain ⟨e1, -, -⟩ := evalAll_spec _ hr2.dynCache _ _ _ _ _ _ hev'
    obtain ⟨ch2, hch2, -, -, hrest⟩ := advance_steps _ _ I J hr2.alg hr2.eqOk hr2.fitOk hr2.dynCache hr2.lenOk st inv2
    have hcc : ch2 = ch' := by
      have : some ch2 = some ch' := hch2.symm.trans hch
      exact Option.some.inj this
    subst hcc
    obtain ⟨hl, hevd, -⟩ := hrest _ _ hev'
    refine ⟨ec, hl, hevd, ?_, by rw [← hgen]; exact hat', ?_⟩
    · refine isMatrix_fitness _ _ hr2.lenOk _ ?_
      intro c hc
      rcases List.mem_append.mp hc with hc | hc
      · exact inv2.evaluated c hc
      · exact hevd c hc
    · intro i c d hc hd hop
      obtain ⟨c0, hc0, rfl⟩ := Option.map_eq_some_iff.mp ((List.getElem?_map (f := fun x : Cand G (FVec K) => x.chrom) (l := ch2) (i := i)).symm.trans hc)
      have hi : i < env.popSize := lt_of_lt_of_eq (List.getElem?_eq_some_iff.mp hc0).1 hcl
      have e1 : ec = _ := e1
      refine ⟨evalOne (withMutations env op (l1 ++ l2)) st.cache (repairOp env.repair (mutationOp env.eq ((withMutations env op (l1 ++ l2)).mutate (st.gen + 1) i) c0)), ?_, ?_⟩
      · rw [e1, List.getElem?_map, List.getElem?_map, List.getElem?_zipIdx, hc0]
        simp
        rfl
      · have hm : (mutationOp env.eq ((withMutations env op (l1 ++ l2)).mutate (st.gen + 1) i) c0).chrom = target := by
          rw [mutationOp_chrom]
          show (if i < env.popSize then _ else _) = _
          rw [if_pos hi, hgen, Nat.add_sub_cancel, List.getElem?_append_right (by omega), hl1, Nat.add_sub_cancel_left, hd]
          exact hop
        rw [evalOne_chrom, repairOp_fixed, hm]
        rw [hm]; exact hrep

/-- The probability that no population of the first generations has a candidate as good as the target. -/
theorem not_found_le [MeasurableSpace D] [DiscreteMeasurableSpace D] (μ : Measure D) [IsProbabilityMeasure μ] (env : GaEnv G K A S V) {prev : GaState G (FVec K) A V}
    {initial : List (Cand G (FVec K))} {I J : A → List (FVec K) → Prop} (h : ExactRun env prev initial I J) (hc : CompleteRun env I)
    (op : D → List G → List G) (Dom : List G → Prop) (hdom : ∀ draws, KeepsDomain (withMutations env op draws) initial Dom) (target : List G) (hrep : ∀ r, env.repair = some r → r target = target)
    (ε : ENNReal) (hε : ∀ c, Dom c → ε ≤ μ {d | op d c = target}) (k : Nat) (hk : k ≤ env.popSize) (hret : RetainsChildren env k) : ∀ n : Nat,
    drawProb μ (n * env.popSize) (fun draws => ¬ ∃ i ≤ n, ∃ st, gaGens (withMutations env op draws) prev initial i = some st ∧ ∃ c ∈ st.pop, AtLeastAsGood c.fitness (env.fitness target)) ≤
      (1 - ε) ^ (k * n)
  | 0 => by
      rw [Nat.mul_zero, pow_zero]
      exact drawProb_le_one μ _ _
  | n + 1 => by
      rw [Nat.add_mul, Nat.one_mul, Nat.mul_add, Nat.mul_one, pow_add]
      refine le_trans (drawProb_step μ env.popSize ((1 - ε) ^ k) (ENNReal.pow_ne_top (ne_top_of_le_ne_top ENNReal.one_ne_top tsub_le_self)) (n * env.popSize) _
        (fun draws => ¬ ∃ i ≤ n, ∃ st, gaGens (withMutations env op draws) prev initial i = some st ∧ ∃ c ∈ st.pop, AtLeastAsGood c.fitness (env.fitness target)) ?_ ?_) ?_
      · intro l1 hl1 _
        obtain ⟨st, hst⟩ := C22_progress (run_withMutations h op l1) (complete_withMutations hc op l1) n
        obtain ⟨cs, hcs, hcd, hall⟩ := advance_hit env h op Dom hdom target hrep n l1 hl1 st hst
        have hb := noHit_le μ op target ε cs k (by omega) (fun c hc => hε c (hcd c hc))
        rw [hcs] at hb
        refine le_trans (drawProb_mono_length μ _ ?_) hb
        intro l2 hl2 hE i hi c d hci hdi hop
        obtain ⟨st', hst'⟩ := C22_progress (run_withMutations h op (l1 ++ l2)) (complete_withMutations hc op (l1 ++ l2)) (n + 1)
        obtain ⟨children, hlen, hev, hfm, hat, hhit⟩ := hall l2 st' hst'
        obtain ⟨child, hch, hcht⟩ := hhit i c d hci hdi hop
        have inv := (gaGens_inv _ prev initial _ I J (run_withMutations h op l1).runOk n st hst).1
        have hsz : st.pop.length = env.popSize := inv.size
        obtain ⟨j, hj, r', hr', hge⟩ := hret (env.algPrepare st.alg st.fmat) _ (n + 1) i child.fitness (by rw [List.length_map, List.length_append, hsz, hlen]; omega) hfm hi
          (by rw [List.getElem?_map, List.getElem?_append_right (by omega), hsz, Nat.add_sub_cancel_left, hch]; rfl)
        rw [List.getElem?_map, Option.map_eq_some_iff] at hr'
        obtain ⟨c', hc', rfl⟩ := hr'
        refine hE ⟨n + 1, le_refl _, st', hst', c', atPositions_mem hat hj hc', ?_⟩
        rw [(hev child (List.mem_of_getElem? hch)).2, hcht] at hge
        exact hge
      · intro l1 l2 hl1 _ hP hE
        apply hE
        obtain ⟨i, hi, st, hst, hf⟩ := not_not.mp hP
        refine ⟨i, by omega, st, ?_, hf⟩
        rw [gaGens_prefix env h op l1 l2 i (by rw [hl1]; exact Nat.mul_le_mul_right _ hi)]
        exact hst
      · gcongr
        exact not_found_le μ env h hc op Dom hdom target hrep ε hε k hk hret n
end

end Gapp.Proofs.Convergence
