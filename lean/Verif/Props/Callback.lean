import Verif.Proofs.Callback
import Verif.Props.GaLoop
/-!
# The generation callback (C83)

The callback of `on_generation_end` is documented to be called exactly once at the end of each generation, the initial one being number 0 (ga_info.hpp:328-334, ga_info.hpp:128-132,
docs/introduction.md:243-262). It is, but from the second call on `generation_cntr()` is one too small in it: the counter is incremented after the call.
-/

namespace Gapp.Props
open Gapp.Model Gapp.Spec

section
variable {G K A S V : Type} [DecidableEq G] [CommRing K] [LinearOrder K]

/-- C83: a callback has no effect on the run. Whatever it does with its own state, and whether one is set or not, the run ends in the same state and returns the same solutions. -/
theorem C83_no_effect {U : Type} (env : GaEnv G K A S V) (cb : Option (U → GaState G (FVec K) A V → U)) (prev : GaState G (FVec K) A V) (initial : List (Cand G (FVec K))) (u : U) :
    (gaSolveCb env cb prev initial u).map Prod.fst = gaSolve env prev initial := by
  unfold gaSolveCb gaInitCb gaSolve
  simp only [Option.bind_eq_bind]
  cases gaInit env prev initial with
  | none => rfl
  | some st =>
    simp only [Option.bind_some, Option.pure_def]
    rw [← solveLoopCb_eq env cb _ _ st (runCallback cb u st)]
    cases solveLoopCb env cb (env.maxGen + 1) (env.stopInit st) st (runCallback cb u st) with
    | none => rfl
    | some q =>
      simp only [Option.bind_some, Option.map_some]
      split
      · rfl
      · cases updateOptimal env q.1 <;> rfl

/-- C83: without a callback nothing is called. -/
theorem C83_unset {U : Type} (env : GaEnv G K A S V) (prev : GaState G (FVec K) A V) (initial : List (Cand G (FVec K))) (u : U) :
    gaSolveCb env none prev initial u = (gaSolve env prev initial).map (fun st => (st, u)) := by
  have loop : ∀ (fuel : Nat) (s : S) (st : GaState G (FVec K) A V), solveLoopCb env (none : Option (U → GaState G (FVec K) A V → U)) fuel s st u = (solveLoop env fuel s st).map (fun st => (st, u)) := by
    intro fuel
    induction fuel with
    | zero => intro s st; rfl
    | succ fuel ih =>
      intro s st
      rw [solveLoopCb, solveLoop]
      split
      · rfl
      · simp only [Option.bind_eq_bind, advanceCb_eq]
        cases advance env st with
        | none => rfl
        | some st1 => exact ih _ st1
  unfold gaSolveCb gaInitCb gaSolve
  simp only [Option.bind_eq_bind]
  cases gaInit env prev initial with
  | none => rfl
  | some st =>
    simp only [Option.bind_some, Option.pure_def]
    rw [show runCallback none u st = u from rfl, loop]
    cases solveLoop env (env.maxGen + 1) (env.stopInit st) st with
    | none => rfl
    | some q =>
      simp only [Option.bind_some, Option.map_some]
      split
      · rfl
      · cases updateOptimal env q <;> rfl

/-- **C83**, except for the number of the generation: the callback is called exactly once for each generation of the run, in their order, the first call being the one for the initial generation.
The state it gets for generation `n` is the state of the algorithm at the end of this generation (its population, fitness values, solutions, metrics and numbers of evaluations), only
`generation_cntr()` is `n - 1` instead of `n` for all but the first. -/
theorem C83_once_per_generation_partial {env : GaEnv G K A S V} {prev : GaState G (FVec K) A V} {initial : List (Cand G (FVec K))} {I J : A → List (FVec K) → Prop} (h : ExactRun env prev initial I J)
    (final : GaState G (FVec K) A V) (hf : gaSolve env prev initial = some final) :
    ∃ seen : List (GaState G (FVec K) A V),
      (∀ (U : Type) (f : U → GaState G (FVec K) A V → U) (u : U), gaSolveCb env (some f) prev initial u = some (final, seen.foldl f u)) ∧
      seen.length = final.gen + 1 ∧
      ∀ n st, seen[n]? = some st → ∃ g, gaGens env prev initial n = some g ∧ g.gen = n ∧ st = { g with gen := n - 1 } := by
  unfold gaSolve at hf
  simp only [Option.bind_eq_bind, Option.bind_eq_some_iff] at hf
  obtain ⟨st0, h0, st1, h1, hf⟩ := hf
  obtain ⟨seen, t1, t2, t3⟩ := solveLoopCb_seen env _ (gaGens_succ env prev initial) _ 0 _ st0 st1 h0 h1
  simp only [Nat.zero_add] at t1 t3
  have hgen : ∀ i g, gaGens env prev initial i = some g → g.gen = i := fun i g hi => (gaGens_inv env prev initial _ I J h.runOk i g hi).2
  have hst : (if env.keepAll then some st1 else updateOptimal env st1) = some final := by
    split at hf
    · rename_i hk; rw [if_pos hk]; exact hf
    · rename_i hk; rw [if_neg hk]; exact hf
  have hfg : final.gen = st1.gen := by
    split at hst
    · rw [Option.some.inj hst]
    · obtain ⟨sols, rfl⟩ := updateOptimal_same env _ _ hst
      rfl
  refine ⟨st0 :: seen, ?_, by rw [hfg, hgen _ _ t1, List.length_cons], ?_⟩
  · intro U f u
    unfold gaSolveCb gaInitCb
    simp only [Option.bind_eq_bind, h0, Option.bind_some, Option.pure_def]
    rw [show runCallback (some f) u st0 = f u st0 from rfl, t2 U f (f u st0)]
    simp only [Option.bind_some, hst]
    rfl
  · intro n st hn
    cases n with
    | zero =>
      simp only [List.getElem?_cons_zero, Option.some.injEq] at hn
      subst hn
      have : st0.gen = 0 := hgen 0 st0 h0
      refine ⟨st0, h0, this, ?_⟩
      rw [Nat.zero_sub, ← this]
    | succ n =>
      simp only [List.getElem?_cons_succ] at hn
      obtain ⟨g, g0, e1, e2, e3⟩ := t3 n st hn
      refine ⟨g, e1, hgen _ _ e1, ?_⟩
      rw [e3, hgen _ _ e2]; rfl

/-- C83: in the call for generation `n` every metric has a value for each of the generations `0, …, n`, the last one computed from the fitness values that the callback sees. The values read at
the position `generation_cntr()` are, from the second call on, those of the previous generation. -/
theorem C83_metrics_seen {env : GaEnv G K A S V} {prev : GaState G (FVec K) A V} {initial : List (Cand G (FVec K))} {I J : A → List (FVec K) → Prop} (h : ExactRun env prev initial I J)
    (final : GaState G (FVec K) A V) (hf : gaSolve env prev initial = some final) :
    ∃ seen : List (GaState G (FVec K) A V), seen.length = final.gen + 1 ∧
      (∀ (U : Type) (f : U → GaState G (FVec K) A V → U) (u : U), gaSolveCb env (some f) prev initial u = some (final, seen.foldl f u)) ∧
      ∀ n st, seen[n]? = some st → st.stats.length = prev.stats.length ∧ ∀ (j : Nat) (m m0 : Monitor (FVec K) V), st.stats[j]? = some m → prev.stats[j]? = some m0 →
        m.data.length = n + 1 ∧ m.data[n]? = some (m0.compute st.fmat) ∧
        ∃ read, seen[n - 1]? = some read ∧ m.data[st.gen]? = some (m0.compute read.fmat) := by
  obtain ⟨seen, h1, h2, h3⟩ := C83_once_per_generation_partial h final hf
  refine ⟨seen, h2, h1, fun n st hn => ?_⟩
  obtain ⟨g, hg, -, rfl⟩ := h3 n st hn
  obtain ⟨sts, e1, e2, e3, -⟩ := C55_metrics h n g hg
  refine ⟨e2, fun j m m0 hm hm0 => ?_⟩
  obtain ⟨a1, a2⟩ := e3 j m m0 hm hm0
  have hgn : g = sts n := by rw [e1 n (Nat.le_refl _)] at hg; exact (Option.some.inj hg).symm
  have hlt : n < seen.length := by
    rw [List.getElem?_eq_some_iff] at hn
    exact hn.1
  obtain ⟨read, hr⟩ : ∃ read, seen[n - 1]? = some read := ⟨_, List.getElem?_eq_getElem (by omega)⟩
  obtain ⟨g1, hg1, -, rfl⟩ := h3 (n - 1) read hr
  refine ⟨a1, by rw [a2 n (Nat.le_refl _), ← hgn], _, hr, ?_⟩
  rw [e1 (n - 1) (Nat.sub_le _ _)] at hg1
  rw [← Option.some.inj hg1]
  exact a2 (n - 1) (Nat.sub_le _ _)
end

/-- The example of the documentation (docs/introduction.md:243-251): in each generation, the number of the generation and the value that the metric has for it. -/
def demoPrinter (out : List (Nat × Option (FVec ℤ))) (st : GaState ℤ (FVec ℤ) Unit (FVec ℤ)) : List (Nat × Option (FVec ℤ)) :=
  out ++ [(st.gen, (st.stats.head?.bind (fun m => m.data[st.gen]?)))]

/-- **C83 violated**: in a run of four generations the callback sees the generation numbers 0, 0, 1, 2 instead of 0, 1, 2, 3. The example of the documentation prints the values of generation 0
twice and never those of the last generation. -/
theorem C83_generation_number_violated :
    ∃ (env : GaEnv ℤ ℤ Unit Unit (FVec ℤ)) (prev final : GaState ℤ (FVec ℤ) Unit (FVec ℤ)) (I J : Unit → List (FVec ℤ) → Prop), ExactRun env prev [] I J ∧
      gaSolve env prev [] = some final ∧ final.gen = 3 ∧
      gaSolveCb env (some (fun (l : List Nat) st => l ++ [st.gen])) prev [] [] = some (final, [0, 0, 1, 2]) ∧
      final.stats.map (·.data) = [[[.fin 1, .fin (-1)], [.fin 2, .fin (-1)], [.fin 4, .fin (-1)], [.fin 7, .fin (-1)]]] ∧
      gaSolveCb env (some demoPrinter) prev [] [] =
        some (final, [(0, some [.fin 1, .fin (-1)]), (0, some [.fin 1, .fin (-1)]), (1, some [.fin 2, .fin (-1)]), (2, some [.fin 4, .fin (-1)])]) := by
  have he := demo_exact false 1 4 [] (by simp)
  obtain ⟨final, hf⟩ := C24_ends he (demo_complete false 1 4)
  have pair : ∀ {U : Type} [DecidableEq U] (f : U → GaState ℤ (FVec ℤ) Unit (FVec ℤ) → U) (u u' : U),
      (gaSolveCb (demoInt false 1 4) (some f) (demoPrev ℤ) [] u).map Prod.snd = some u' → gaSolveCb (demoInt false 1 4) (some f) (demoPrev ℤ) [] u = some (final, u') := by
    intro U _ f u u' h
    have h1 := C83_no_effect (demoInt false 1 4) (some f) (demoPrev ℤ) [] u
    rw [hf] at h1
    rw [Option.map_eq_some_iff] at h h1
    obtain ⟨p, hp, rfl⟩ := h
    obtain ⟨q, hq, rfl⟩ := h1
    rw [hp] at hq ⊢
    obtain rfl := Option.some.inj hq
    rfl
  have h3 : (gaSolve (demoInt false 1 4) (demoPrev ℤ) []).map (fun st => (st.gen, st.stats.map (·.data))) =
      some (3, [[[.fin 1, .fin (-1)], [.fin 2, .fin (-1)], [.fin 4, .fin (-1)], [.fin 7, .fin (-1)]]]) := by decide +kernel
  rw [hf] at h3
  simp only [Option.map_some, Option.some.injEq, Prod.mk.injEq] at h3
  exact ⟨_, _, final, _, _, he, hf, h3.1, pair _ _ _ (by decide +kernel), h3.2, pair _ _ _ (by decide +kernel)⟩

/-- A run to which the theorems above apply. -/
example : ∃ final, gaSolve (demoInt true 2 5) (demoPrev ℤ) [] = some final ∧ ∃ seen : List (GaState ℤ (FVec ℤ) Unit (FVec ℤ)),
    gaSolveCb (demoInt true 2 5) (some (fun (l : List (List (FVec ℤ))) st => l ++ [st.fmat])) (demoPrev ℤ) [] [] = some (final, seen.foldl (fun l st => l ++ [st.fmat]) []) ∧ seen.length = final.gen + 1 := by
  obtain ⟨final, hf⟩ := C24_ends (demo_exact true 2 5 [] (by simp)) (demo_complete true 2 5)
  obtain ⟨seen, h1, h2, -⟩ := C83_once_per_generation_partial (demo_exact true 2 5 [] (by simp)) final hf
  exact ⟨final, hf, seen, h1 _ _ _, h2⟩

end Gapp.Props
