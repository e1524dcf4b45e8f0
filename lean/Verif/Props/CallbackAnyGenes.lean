import Verif.Props.AnyGenes
import Verif.Props.Callback
/-!
# The generation callback in runs whose genes are compared in any way (C83)
-/

namespace Gapp.Props
open Gapp.Model Gapp.Spec

section
variable {G K A S V : Type} [DecidableEq G] [CommRing K] [LinearOrder K]

/-- **C83** for every comparison of the genes, except for the number of the generation: the callback is called exactly once for each generation of the run, in their order, with the state at the end
of the generation. -/
theorem C83_once_per_generation_any_genes_partial {env : GaEnv G K A S V} {prev : GaState G (FVec K) A V} {initial : List (Cand G (FVec K))} {I J : A → List (FVec K) → Prop} (h : AnyRun env prev initial I J)
    (final : GaState G (FVec K) A V) (hf : gaSolve env prev initial = some final) :
    ∃ seen : List (GaState G (FVec K) A V),
      (∀ (U : Type) (f : U → GaState G (FVec K) A V → U) (u : U), gaSolveCb env (some f) prev initial u = some (final, seen.foldl f u)) ∧
      seen.length = final.gen + 1 ∧
      ∀ n st, seen[n]? = some st → ∃ g, gaGens env prev initial n = some g ∧ g.gen = n ∧ st = { g with gen := n - 1 } := by
  unfold gaSolve at hf
  simp only [Option.bind_eq_bind, Option.bind_eq_some_iff] at hf
  obtain ⟨st0, h0, st1, h1, hf⟩ := hf
  obtain ⟨seen, t1, t2, t3⟩ := solveLoopCb_seen env _ (gaGens_succ env prev initial) _ 0 _ st0 st1 h0 h1
  simp only [Nat.zero_add] at t1 t3
  have hgen : ∀ i g, gaGens env prev initial i = some g → g.gen = i := fun i g hi => (gaGens_inv env prev initial _ I J h.runOk i g hi).2
  have hst : (if env.keepAll then some st1 else updateOptimal env st1) = some final := by
    split at hf
    · rename_i hk; rw [if_pos hk]; exact hf
    · rename_i hk; rw [if_neg hk]; exact hf
  have hfg : final.gen = st1.gen := by
    split at hst
    · rw [Option.some.inj hst]
    · obtain ⟨sols, rfl⟩ := updateOptimal_same env _ _ hst
      rfl
  refine ⟨st0 :: seen, ?_, by rw [hfg, hgen _ _ t1, List.length_cons], ?_⟩
  · intro U f u
    unfold gaSolveCb gaInitCb
    simp only [Option.bind_eq_bind, h0, Option.bind_some, Option.pure_def]
    rw [show runCallback (some f) u st0 = f u st0 from rfl, t2 U f (f u st0)]
    simp only [Option.bind_some, hst]
    rfl
  · intro n st hn
    cases n with
    | zero =>
      simp only [List.getElem?_cons_zero, Option.some.injEq] at hn
      subst hn
      have : st0.gen = 0 := hgen 0 st0 h0
      refine ⟨st0, h0, this, ?_⟩
      rw [Nat.zero_sub, ← this]
    | succ n =>
      simp only [List.getElem?_cons_succ] at hn
      obtain ⟨g, g0, e1, e2, e3⟩ := t3 n st hn
      refine ⟨g, e1, hgen _ _ e1, ?_⟩
      rw [e3, hgen _ _ e2]; rfl

/-- C83 for every comparison of the genes: what a callback reads from the metrics. -/
theorem C83_metrics_seen_any_genes {env : GaEnv G K A S V} {prev : GaState G (FVec K) A V} {initial : List (Cand G (FVec K))} {I J : A → List (FVec K) → Prop} (h : AnyRun env prev initial I J)
    (final : GaState G (FVec K) A V) (hf : gaSolve env prev initial = some final) :
    ∃ seen : List (GaState G (FVec K) A V), seen.length = final.gen + 1 ∧
      (∀ (U : Type) (f : U → GaState G (FVec K) A V → U) (u : U), gaSolveCb env (some f) prev initial u = some (final, seen.foldl f u)) ∧
      ∀ n st, seen[n]? = some st → st.stats.length = prev.stats.length ∧ ∀ (j : Nat) (m m0 : Monitor (FVec K) V), st.stats[j]? = some m → prev.stats[j]? = some m0 →
        m.data.length = n + 1 ∧ m.data[n]? = some (m0.compute st.fmat) ∧
        ∃ read, seen[n - 1]? = some read ∧ m.data[st.gen]? = some (m0.compute read.fmat) := by
  obtain ⟨seen, h1, h2, h3⟩ := C83_once_per_generation_any_genes_partial h final hf
  refine ⟨seen, h2, h1, fun n st hn => ?_⟩
  obtain ⟨g, hg, -, rfl⟩ := h3 n st hn
  obtain ⟨sts, e1, e2, e3, -⟩ := C55_metrics_any_genes h n g hg
  refine ⟨e2, fun j m m0 hm hm0 => ?_⟩
  obtain ⟨a1, a2⟩ := e3 j m m0 hm hm0
  have hgn : g = sts n := by rw [e1 n (Nat.le_refl _)] at hg; exact (Option.some.inj hg).symm
  have hlt : n < seen.length := by
    rw [List.getElem?_eq_some_iff] at hn
    exact hn.1
  obtain ⟨read, hr⟩ : ∃ read, seen[n - 1]? = some read := ⟨_, List.getElem?_eq_getElem (by omega)⟩
  obtain ⟨g1, hg1, -, rfl⟩ := h3 (n - 1) read hr
  refine ⟨a1, by rw [a2 n (Nat.le_refl _), ← hgn], _, hr, ?_⟩
  rw [e1 (n - 1) (Nat.sub_le _ _)] at hg1
  rw [← Option.some.inj hg1]
  exact a2 (n - 1) (Nat.sub_le _ _)
end

-- a run with real genes: four calls, in which the counter of the generations is 0, 0, 1, 2
example (final) (hf : gaSolve (demoReal 4) (demoPrev (Flt ℤ)) [] = some final) := C83_once_per_generation_any_genes_partial (demoReal_run 4) final hf
example : (gaSolveCb (demoReal 4) (some (fun l st => l ++ [(st.gen, st.pop.map (·.chrom))])) (demoPrev (Flt ℤ)) [] []).map Prod.snd =
    some [(0, [[.fin 3, .fin 5], [.fin 3, .fin 5]]), (0, [[.fin 4, .fin 5], [.fin 4, .fin 5]]), (1, [[.fin 5, .fin 5], [.fin 5, .fin 5]]), (2, [[.fin 6, .fin 5], [.fin 6, .fin 5]])] := by
  decide +kernel

end Gapp.Props
