import Verif.Model.Callback
import Verif.Proofs.GaSolve
/-! # Proofs about runs with a callback -/

namespace Gapp.Model
open Gapp.Spec Gapp.Props

section
variable {G K A S V U : Type} [DecidableEq G] [CommRing K] [LinearOrder K]

theorem advanceCb_eq (env : GaEnv G K A S V) (cb : Option (U → GaState G (FVec K) A V → U)) (st : GaState G (FVec K) A V) (u : U) :
    advanceCb env cb st u = (advance env st).map (fun st' => (st', runCallback cb u { st' with gen := st.gen })) := by
  unfold advanceCb advance
  split
  swap
  · rfl
  dsimp only
  simp only [Option.bind_eq_bind]
  cases makeChildren env { st with alg := env.algPrepare st.alg st.fmat } (env.algPrepare st.alg st.fmat) with
  | none => rfl
  | some ch =>
    simp only [Option.bind_some]
    cases evalAll env st.cache (ch.zipIdx.map (fun p => repairOp env.repair (mutationOp env.eq (env.mutate (st.gen + 1) p.2) p.1))) st.evals st.calls (env.evalSched (st.gen + 1)) with
    | none => rfl
    | some r =>
      obtain ⟨r1, r2, r3⟩ := r
      simp only [Option.bind_some]
      cases hu : updatePopulation env { st with alg := env.algPrepare st.alg st.fmat, evals := r2, calls := r3 } r1 with
      | none => rfl
      | some st2 =>
        simp only [Option.bind_some]
        have hg2 : st2.gen = st.gen := by
          unfold updatePopulation at hu
          simp only [Option.bind_eq_bind, Option.bind_eq_some_iff] at hu
          obtain ⟨ca, -, p, -, h⟩ := hu
          obtain rfl := Option.some.inj h
          rfl
        cases hc : collectOptimal env st2 with
        | none => rfl
        | some st3 =>
          have hg3 : st3.gen = st.gen := by
            unfold collectOptimal at hc
            split at hc
            · obtain ⟨sols, rfl⟩ := updateOptimal_same env _ _ hc
              exact hg2
            · obtain rfl := Option.some.inj hc
              exact hg2
          simp only [Option.bind_some, Option.pure_def, Option.map_some]
          rw [← hg3]
          rfl

/-- The states that the callback gets in the loop. -/
theorem solveLoopCb_eq (env : GaEnv G K A S V) (cb : Option (U → GaState G (FVec K) A V → U)) : ∀ (fuel : Nat) (s : S) (st : GaState G (FVec K) A V) (u : U),
    (solveLoopCb env cb fuel s st u).map Prod.fst = solveLoop env fuel s st
  | 0, _, _, _ => rfl
  | fuel + 1, s, st, u => by
      rw [solveLoopCb, solveLoop]
      split
      · rfl
      · simp only [Option.bind_eq_bind, advanceCb_eq]
        cases advance env st with
        | none => rfl
        | some st1 => exact solveLoopCb_eq env cb fuel _ st1 _

theorem solveLoopCb_seen (env : GaEnv G K A S V) (gens : Nat → Option (GaState G (FVec K) A V)) (hg : ∀ n, gens (n + 1) = (gens n).bind (advance env)) :
    ∀ (fuel n : Nat) (s : S) (st final : GaState G (FVec K) A V), gens n = some st → solveLoop env fuel s st = some final →
      ∃ seen : List (GaState G (FVec K) A V), gens (n + seen.length) = some final ∧
        (∀ (U : Type) (f : U → GaState G (FVec K) A V → U) (u : U), solveLoopCb env (some f) fuel s st u = some (final, seen.foldl f u)) ∧
        ∀ i x, seen[i]? = some x → ∃ g g0, gens (n + i + 1) = some g ∧ gens (n + i) = some g0 ∧ x = { g with gen := g0.gen }
  | 0, _, _, _, _, _, h => by simp [solveLoop] at h
  | fuel + 1, n, s, st, final, hn, h => by
      rw [solveLoop] at h
      split at h
      · rename_i hs
        cases h
        exact ⟨[], hn, fun U f u => by rw [solveLoopCb]; simp only [hs, if_true]; rfl, fun i x hx => by simp at hx⟩
      · rename_i hs
        simp only [Option.bind_eq_bind] at h
        rw [Option.bind_eq_some_iff] at h
        obtain ⟨a, h1, h⟩ := h
        have hn1 : gens (n + 1) = some a := by rw [hg, hn]; exact h1
        obtain ⟨seen, t2, t1, t3⟩ := solveLoopCb_seen env gens hg fuel (n + 1) _ a final hn1 h
        refine ⟨{ a with gen := st.gen } :: seen, by rw [← t2]; congr 1; simp only [List.length_cons]; omega, ?_, ?_⟩
        · intro U f u
          rw [solveLoopCb]
          simp only [hs, if_false, Option.bind_eq_bind, advanceCb_eq, h1, Option.map_some, Option.bind_some]
          exact t1 U f _
        · intro i x hx
          cases i with
          | zero =>
            simp only [List.getElem?_cons_zero, Option.some.injEq] at hx
            exact ⟨a, st, hn1, hn, hx.symm⟩
          | succ i =>
            simp only [List.getElem?_cons_succ] at hx
            obtain ⟨g, g0, e1, e2, e3⟩ := t3 i x hx
            exact ⟨g, g0, by rw [← e1]; congr 1; omega, by rw [← e2]; congr 1; omega, e3⟩
end

end Gapp.Model
