import Mathlib.Data.List.Lex
import Verif.Proofs.GaLoop
/-! # Proofs about whole runs -/

namespace Gapp.Model
open Gapp.Spec Gapp.Props

section
variable {G K A S V : Type} [DecidableEq G] [CommRing K] [LinearOrder K]

/-! ## The loop of `solve` -/

/-- The course of the loop: the stop condition was consulted once for each generation, and the first one at which it held or the limit was reached is the last one. -/
def StopTrace (env : GaEnv G K A S V) (gens : Nat → Option (GaState G (FVec K) A V)) (s0 : S) (n k : Nat) (final : GaState G (FVec K) A V) : Prop :=
  ∃ (ss : Nat → S) (sts : Nat → GaState G (FVec K) A V), ss 0 = s0 ∧ (∀ i, i ≤ k → gens (n + i) = some (sts i)) ∧ final = sts k ∧
    (∀ i, i < k → env.stop (ss i) (sts i) = (ss (i + 1), false) ∧ (sts i).gen + 1 < env.maxGen) ∧
    ((env.stop (ss k) (sts k)).2 = true ∨ env.maxGen ≤ (sts k).gen + 1)

theorem solveLoop_trace (env : GaEnv G K A S V) (gens : Nat → Option (GaState G (FVec K) A V)) (hg : ∀ n, gens (n + 1) = (gens n).bind (advance env)) :
    ∀ (fuel n : Nat) (s : S) (st final : GaState G (FVec K) A V), gens n = some st → solveLoop env fuel s st = some final → ∃ k, StopTrace env gens s n k final
  | 0, _, _, _, _, _, h => by simp [solveLoop] at h
  | fuel + 1, n, s, st, final, hn, h => by
      rw [solveLoop] at h
      split at h
      · rename_i hs
        cases h
        refine ⟨0, fun _ => s, fun _ => st, rfl, fun i hi => by rw [Nat.le_zero.mp hi]; exact hn, rfl, fun i hi => by omega, ?_⟩
        simpa using hs
      · rename_i hs
        simp only [Bool.or_eq_true, decide_eq_true_eq, not_or, Bool.not_eq_true, ge_iff_le, Nat.not_le] at hs
        simp only [Option.bind_eq_bind] at h
        rw [Option.bind_eq_some_iff] at h
        obtain ⟨st1, h1, h⟩ := h
        have hn1 : gens (n + 1) = some st1 := by rw [hg, hn]; exact h1
        obtain ⟨k, ss, sts, t1, t2, t3, t4, t5⟩ := solveLoop_trace env gens hg fuel (n + 1) _ st1 final hn1 h
        refine ⟨k + 1, fun i => if i = 0 then s else ss (i - 1), fun i => if i = 0 then st else sts (i - 1), rfl, ?_, by simpa using t3, ?_, by simpa using t5⟩
        · intro i hi
          cases i with
          | zero => simpa using hn
          | succ i =>
            have := t2 i (by omega)
            simp only [Nat.add_eq_zero_iff, one_ne_zero, and_false, if_false, Nat.add_sub_cancel]
            rw [← this]; congr 1; omega
        · intro i hi
          cases i with
          | zero =>
            refine ⟨?_, by simpa using hs.2⟩
            simp only [if_true]
            refine Prod.ext ?_ hs.1
            simpa using t1.symm
          | succ i => simpa using t4 i (by omega)

theorem gaGens_succ (env : GaEnv G K A S V) (prev : GaState G (FVec K) A V) (initial : List (Cand G (FVec K))) (n : Nat) :
    gaGens env prev initial (n + 1) = (gaGens env prev initial n).bind (advance env) := by
  simp only [gaGens, Option.bind_eq_bind]

/-- If no generation fails, the loop ends. -/
theorem solveLoop_ends (env : GaEnv G K A S V) (gens : Nat → Option (GaState G (FVec K) A V)) (hg : ∀ n, gens (n + 1) = (gens n).bind (advance env))
    (hgen : ∀ n st, gens n = some st → st.gen = n) (hok : ∀ n, ∃ st, gens n = some st) :
    ∀ (fuel n : Nat) (s : S) (st : GaState G (FVec K) A V), gens n = some st → env.maxGen ≤ fuel + n → 0 < fuel → ∃ final, solveLoop env fuel s st = some final
  | 0, _, _, _, _, _, h => by omega
  | fuel + 1, n, s, st, hn, hle, _ => by
      rw [solveLoop]
      split
      · exact ⟨_, rfl⟩
      · rename_i hs
        simp only [Bool.or_eq_true, decide_eq_true_eq, not_or, Bool.not_eq_true, ge_iff_le, Nat.not_le] at hs
        obtain ⟨st1, h1⟩ := hok (n + 1)
        have h2 : advance env st = some st1 := by rw [hg, hn] at h1; exact h1
        simp only [h2, Option.bind_eq_bind, Option.bind_some]
        have := hgen n st hn
        exact solveLoop_ends env gens hg hgen hok fuel (n + 1) _ st1 h1 (by omega) (by omega)

/-! ## Metrics -/

theorem gaGens_stats (env : GaEnv G K A S V) (prev : GaState G (FVec K) A V) (initial : List (Cand G (FVec K))) (P : List G → FVec K → Prop) (I J : A → List (FVec K) → Prop) (h : RunOk env prev initial P I J) :
    ∀ (n : Nat) (st : GaState G (FVec K) A V), gaGens env prev initial n = some st →
      ∃ sts : Nat → GaState G (FVec K) A V, (∀ i, i ≤ n → gaGens env prev initial i = some (sts i)) ∧
        st.stats = prev.stats.map (fun m => { m with data := (List.range (n + 1)).map (fun i => m.compute (sts i).fmat) }) ∧
        st.evalsMon.data.length = n + 1 ∧ st.evalsMon.sum = st.evals ∧ (∀ i, i ≤ n → (st.evalsMon.data.take (i + 1)).sum = (sts i).evals)
  | 0, st, hst => by
      obtain ⟨_, _, _, _, _, _, _, h1, h2⟩ := gaInit_spec env prev initial P I J h st hst
      refine ⟨fun _ => st, fun i hi => by rw [Nat.le_zero.mp hi]; exact hst, ?_, ?_, ?_, ?_⟩
      · rw [h1]; rfl
      · rw [h2]; rfl
      · rw [h2]; rfl
      · intro i hi
        rw [h2, Nat.le_zero.mp hi]; simp [EvalsMonitor.init, EvalsMonitor.update]
  | n + 1, st, hst => by
      rw [gaGens_succ, Option.bind_eq_some_iff] at hst
      obtain ⟨st0, h0, hadv⟩ := hst
      obtain ⟨i0, -⟩ := gaGens_inv env prev initial P I J h n st0 h0
      obtain ⟨sts, t1, t2, t3, t4, t5⟩ := gaGens_stats env prev initial P I J h n st0 h0
      obtain ⟨-, children, ec, -, -, hev, -, -, hs1, hs2, -⟩ := advance_spec env P I J h.alg h.eqOk h.fitOk h.dynCache h.lenOk st0 st i0 hadv
      obtain ⟨-, hmono, -⟩ := evalAll_spec env h.dynCache st0.cache _ _ _ _ _ hev
      dsimp only at hmono
      refine ⟨fun i => if i = n + 1 then st else sts i, ?_, ?_, ?_, ?_, ?_⟩
      · intro i hi
        by_cases hin : i = n + 1
        · subst hin; simp only [if_true]; rw [gaGens_succ, h0]; exact hadv
        · simp only [hin, if_false]; exact t1 i (by omega)
      · rw [hs1, t2, List.map_map]
        apply List.map_congr_left
        intro m _
        simp only [Function.comp, Monitor.update]
        congr 1
        rw [List.range_succ (n := n + 1), List.map_append]
        congr 1
        · apply List.map_congr_left
          intro i hi
          rw [List.mem_range] at hi
          have : i ≠ n + 1 := by omega
          simp [this]
        · simp
      · rw [hs2]; simp [EvalsMonitor.update, t3]
      · rw [hs2]; rfl
      · intro i hi
        rw [hs2]
        simp only [EvalsMonitor.update]
        by_cases hin : i = n + 1
        · subst hin
          have e0 := t5 n (Nat.le_refl _)
          rw [List.take_of_length_le (by omega)] at e0
          rw [List.take_of_length_le (by simp [t3]), List.sum_append, e0]
          have : sts n = st0 := by
            have := t1 n (Nat.le_refl _)
            rw [h0] at this; exact (Option.some.inj this).symm
          simp only [if_true, List.sum_singleton]
          rw [this, t4]; omega
        · rw [List.take_append_of_le_length (by omega)]
          simp only [hin, if_false]
          exact t5 i (by omega)

/-! ## Fitness evaluations -/

theorem gaGens_calls (env : GaEnv G K A S V) (prev : GaState G (FVec K) A V) (initial : List (Cand G (FVec K))) (P : List G → FVec K → Prop) (I J : A → List (FVec K) → Prop) (h : RunOk env prev initial P I J) :
    ∀ (n : Nat) (st : GaState G (FVec K) A V), gaGens env prev initial n = some st → st.calls.length = st.evals + 1
  | 0, st, hst => by
      obtain ⟨_, _, he, _⟩ := gaInit_spec env prev initial P I J h st hst
      obtain ⟨-, h1, l, h2, h3⟩ := evalAll_spec env h.dynCache st.cache _ _ _ _ _ he
      dsimp only at h1 h2
      rw [h1, h2, List.length_append, h3.length_eq]
      simp [Nat.add_comm]
  | n + 1, st, hst => by
      rw [gaGens_succ, Option.bind_eq_some_iff] at hst
      obtain ⟨st0, h0, hadv⟩ := hst
      obtain ⟨i0, -⟩ := gaGens_inv env prev initial P I J h n st0 h0
      have ih := gaGens_calls env prev initial P I J h n st0 h0
      obtain ⟨-, children, ec, -, -, hev, -⟩ := advance_spec env P I J h.alg h.eqOk h.fitOk h.dynCache h.lenOk st0 st i0 hadv
      obtain ⟨-, h1, l, h2, h3⟩ := evalAll_spec env h.dynCache st0.cache _ _ _ _ _ hev
      dsimp only at h1 h2
      rw [h1, h2, List.length_append, h3.length_eq, ih]
      simp only [List.length_map]
      omega
end

/-! ## Optimal solutions -/

section
variable {F : Type} {G : Type} [LinearOrder G]

theorem uniqueChroms_go_spec : ∀ (l : List (Cand G F)) (x : Cand G F), (x :: l).Pairwise (fun a b => ¬ b.chrom < a.chrom) →
    ((x :: uniqueChroms.go x l).map (·.chrom)).Nodup ∧ (∀ y ∈ x :: uniqueChroms.go x l, y ∈ x :: l) ∧ ∀ y ∈ x :: l, ∃ z ∈ x :: uniqueChroms.go x l, z.chrom = y.chrom
  | [], x, _ => by simp [uniqueChroms.go]
  | y :: l, x, h => by
      have hx := List.pairwise_cons.mp h
      rw [uniqueChroms.go]
      split
      · rename_i heq
        have h' : (x :: l).Pairwise (fun a b => ¬ b.chrom < a.chrom) := List.pairwise_cons.mpr ⟨fun b hb => hx.1 b (List.mem_cons_of_mem _ hb), (List.pairwise_cons.mp hx.2).2⟩
        obtain ⟨h1, h2, h3⟩ := uniqueChroms_go_spec l x h'
        refine ⟨h1, ?_, ?_⟩
        · intro z hz
          rcases List.mem_cons.mp (h2 z hz) with rfl | hz
          · exact List.mem_cons_self
          · exact List.mem_cons_of_mem _ (List.mem_cons_of_mem _ hz)
        · intro z hz
          rcases List.mem_cons.mp hz with rfl | hz
          · exact h3 _ List.mem_cons_self
          · rcases List.mem_cons.mp hz with rfl | hz
            · exact ⟨x, List.mem_cons_self, heq⟩
            · exact h3 _ (List.mem_cons_of_mem _ hz)
      · rename_i hne
        obtain ⟨h1, h2, h3⟩ := uniqueChroms_go_spec l y hx.2
        refine ⟨?_, ?_, ?_⟩
        · rw [List.map_cons, List.nodup_cons]
          refine ⟨?_, h1⟩
          intro hmem
          simp only [List.mem_map] at hmem
          obtain ⟨z, hz, he⟩ := hmem
          have hz' := h2 z hz
          have hlt : x.chrom < y.chrom := lt_of_le_of_ne (not_lt.mp (hx.1 y List.mem_cons_self)) hne
          rcases List.mem_cons.mp hz' with rfl | hz'
          · exact hne he.symm
          · have := (List.pairwise_cons.mp hx.2).1 z hz'
            rw [he] at this; exact this hlt
        · intro z hz
          rcases List.mem_cons.mp hz with rfl | hz
          · exact List.mem_cons_self
          · exact List.mem_cons_of_mem _ (h2 z hz)
        · intro z hz
          rcases List.mem_cons.mp hz with rfl | hz
          · exact ⟨_, List.mem_cons_self, rfl⟩
          · obtain ⟨w, hw, he⟩ := h3 z hz
            exact ⟨w, List.mem_cons_of_mem _ hw, he⟩

theorem uniqueChroms_spec (l : List (Cand G F)) (h : l.Pairwise (fun a b => ¬ b.chrom < a.chrom)) :
    ((uniqueChroms l).map (·.chrom)).Nodup ∧ (∀ y ∈ uniqueChroms l, y ∈ l) ∧ ∀ y ∈ l, ∃ z ∈ uniqueChroms l, z.chrom = y.chrom := by
  cases l with
  | nil => simp [uniqueChroms]
  | cons x l => exact uniqueChroms_go_spec l x h
end

section
variable {G K A S V : Type} [LinearOrder G] [CommRing K] [LinearOrder K] [IsStrictOrderedRing K]

/-- `a` dominates `b`. -/
abbrev CDom (a b : Cand G (FVec K)) : Prop := ExactDominates a.fitness b.fitness

/-- The contract of `std::sort` with the comparison of the chromosomes. -/
def SortSolsOk (env : GaEnv G K A S V) : Prop := ∀ l, (env.sortSols l).Perm l ∧ (env.sortSols l).Pairwise (fun a b => ¬ b.chrom < a.chrom)

/-- The algorithm reports no optimal solutions, or exactly the non-dominated ones of the population. -/
def OptimalContract (env : GaEnv G K A S V) (I : A → List (FVec K) → Prop) : Prop :=
  ∀ a fmat, fmat.length = env.popSize → FitMatrix env fmat → I a fmat → env.algOptimal a = [] ∨ IsParetoFront (RowDominates fmat) fmat.length (env.algOptimal a)

omit [IsStrictOrderedRing K] [CommRing K] in
theorem exists_nondominated (m : Nat) (l : List (Cand G (FVec K))) (hl : ∀ c ∈ l, c.fitness.length = m) (x : Cand G (FVec K)) (hx : x ∈ l) :
    ∃ y ∈ l, (y = x ∨ CDom y x) ∧ ∀ z ∈ l, ¬ CDom z y := by
  classical
  have key : ∀ (k : Nat) (x : Cand G (FVec K)), x ∈ l → l.countP (fun z => decide (CDom z x)) ≤ k → ∃ y ∈ l, (y = x ∨ CDom y x) ∧ ∀ z ∈ l, ¬ CDom z y := by
    intro k
    induction k with
    | zero =>
      intro x hx hk
      refine ⟨x, hx, Or.inl rfl, fun z hz => ?_⟩
      have := List.countP_eq_zero.1 (Nat.le_zero.1 hk) z hz
      simpa using this
    | succ k ih =>
      intro x hx hk
      by_cases hnd : ∀ z ∈ l, ¬ CDom z x
      · exact ⟨x, hx, Or.inl rfl, hnd⟩
      · push Not at hnd
        obtain ⟨z, hz, hzx⟩ := hnd
        have htr : ∀ w ∈ l, CDom w z → CDom w x := fun w hw h =>
          exactDominates_trans ((hl x hx).trans (hl z hz).symm) ((hl z hz).trans (hl w hw).symm) hzx h
        have hlt : l.countP (fun w => decide (CDom w z)) < l.countP (fun w => decide (CDom w x)) := by
          have hle : l.countP (fun w => decide (CDom w z)) = (l.filter (fun w => decide (CDom w x))).countP (fun w => decide (CDom w z)) := by
            rw [List.countP_filter]
            apply List.countP_congr
            intro w hw
            simp only [decide_eq_true_eq, Bool.and_eq_true]
            exact ⟨fun h => ⟨h, htr w hw h⟩, fun h => h.1⟩
          rw [hle, List.countP_eq_length_filter, List.countP_eq_length_filter]
          refine Nat.lt_of_le_of_ne (List.length_filter_le _ _) ?_
          intro he
          have := List.length_filter_eq_length_iff.1 he z (List.mem_filter.2 ⟨hz, by simpa using hzx⟩)
          exact exactDominates_irrefl _ (by simpa using this)
        obtain ⟨y, hy, hzy, hny⟩ := ih z hz (by omega)
        refine ⟨y, hy, Or.inr ?_, hny⟩
        rcases hzy with rfl | hzy
        · exact hzx
        · exact htr y hy hzy
  exact key _ x hx (Nat.le_refl _)

omit [IsStrictOrderedRing K] [CommRing K] in
theorem pareto_positions (pop : List (Cand G (FVec K))) (idx : List Nat) (h : IsParetoFront (RowDominates (pop.map (·.fitness))) pop.length idx) :
    ∃ o, selectCopy pop idx = some o ∧ ∀ c, c ∈ o ↔ c ∈ pop ∧ ∀ x ∈ pop, ¬ CDom x c := by
  obtain ⟨o, h1, h2⟩ := C48_select_copy pop idx (fun i hi => ((h.2 i).mp hi).1)
  refine ⟨o, h1, ?_⟩
  have hget : ∀ (i : Nat) (c : Cand G (FVec K)), pop[i]? = some c → (pop.map (·.fitness)).getD i [] = c.fitness := by
    intro i c hc; simp [List.getD, hc]
  have hnd : ∀ (i : Nat) (c : Cand G (FVec K)), pop[i]? = some c → (i ∈ idx ↔ ∀ x ∈ pop, ¬ CDom x c) := by
    intro i c hc
    rw [h.2 i]
    have hi : i < pop.length := (List.getElem?_eq_some_iff.mp hc).1
    constructor
    · rintro ⟨-, hn⟩ x hx hd
      obtain ⟨j, hj⟩ := List.getElem?_of_mem hx
      refine hn j (List.getElem?_eq_some_iff.mp hj).1 ?_
      show ExactDominates _ _
      rw [hget j x hj, hget i c hc]; exact hd
    · intro hn
      refine ⟨hi, fun j hj hd => ?_⟩
      have hj' : pop[j]? = some pop[j] := List.getElem?_eq_getElem hj
      refine hn pop[j] (List.getElem_mem hj) ?_
      have : ExactDominates ((pop.map (·.fitness)).getD j []) ((pop.map (·.fitness)).getD i []) := hd
      rwa [hget j _ hj', hget i c hc] at this
  intro c
  constructor
  · intro hc
    obtain ⟨j, hj⟩ := List.getElem?_of_mem hc
    have := congrArg (fun l : List (Option (Cand G (FVec K))) => l[j]?) h2
    simp only [List.getElem?_map, hj, Option.map_some] at this
    rw [Option.map_eq_some_iff] at this
    obtain ⟨i, hi, hp⟩ := this
    exact ⟨List.mem_of_getElem? hp, (hnd i c hp).mp (List.mem_of_getElem? hi)⟩
  · rintro ⟨hc, hn⟩
    obtain ⟨i, hi⟩ := List.getElem?_of_mem hc
    have hidx := (hnd i c hi).mpr hn
    obtain ⟨j, hj⟩ := List.getElem?_of_mem hidx
    have := congrArg (fun l : List (Option (Cand G (FVec K))) => l[j]?) h2
    simp only [List.getElem?_map, hj, Option.map_some] at this
    rw [hi] at this
    obtain ⟨c', hc', he⟩ := Option.map_eq_some_iff.mp this.symm
    have : c' = c := Option.some.inj he
    subst this
    exact List.mem_of_getElem? hc'

theorem popParetoFront_spec (env : GaEnv G K A S V) (ht : env.tol = ⟨0, 0⟩) (pop : List (Cand G (FVec K))) (hm : IsMatrix env.numObj (pop.map (·.fitness))) :
    ∃ o, popParetoFront env pop = some o ∧ ∀ c, c ∈ o ↔ c ∈ pop ∧ ∀ x ∈ pop, ¬ CDom x c := by
  obtain ⟨⟨res, h1, h2⟩, -⟩ := C08_pareto_front_exact hm
  unfold popParetoFront
  rw [ht, h1]
  exact pareto_positions pop res (by simpa using h2)

theorem optimalSolutions_spec (env : GaEnv G K A S V) (ht : env.tol = ⟨0, 0⟩) (P : List G → FVec K → Prop) (I : A → List (FVec K) → Prop) (hO : OptimalContract env I) (hlen : ∀ x v, P x v → v.length = env.numObj ∧ ∃ y, v = env.fitness y)
    (st : GaState G (FVec K) A V) (inv : GaInv env P I st) : ∃ o, optimalSolutions env st.alg st.pop = some o ∧ ∀ c, c ∈ o ↔ c ∈ st.pop ∧ ∀ x ∈ st.pop, ¬ CDom x c := by
  have hm := isMatrix_fitness env P hlen st.pop inv.evaluated
  unfold optimalSolutions
  dsimp only
  split
  · exact popParetoFront_spec env ht st.pop hm.1
  · rename_i hne
    have hI := inv.alg
    rw [inv.fmat] at hI
    rcases hO _ _ (by simpa using inv.size) hm hI with h | h
    · simp [h] at hne
    · exact pareto_positions st.pop _ (by simpa using h)

/-- What `updateOptimalSolutions` does. -/
theorem updateOptimal_spec (env : GaEnv G K A S V) (ht : env.tol = ⟨0, 0⟩) (P : List G → FVec K → Prop) (I : A → List (FVec K) → Prop) (hO : OptimalContract env I) (hlen : ∀ x v, P x v → v.length = env.numObj ∧ ∃ y, v = env.fitness y)
    (hs : SortSolsOk env) (st st' : GaState G (FVec K) A V) (inv : GaInv env P I st) (hl : ∀ c ∈ st.sols, c.fitness.length = env.numObj) (hn : ∀ x ∈ st.sols, ∀ y ∈ st.sols, ¬ CDom x y)
    (h : updateOptimal env st = some st') :
    (st'.sols.map (·.chrom)).Nodup ∧ (∀ c ∈ st'.sols, (c ∈ st.sols ∨ c ∈ st.pop) ∧ (∀ x ∈ st.pop, ¬ CDom x c) ∧ ∀ x ∈ st.sols, ¬ CDom x c) ∧
      ∀ x, x ∈ st.sols ∨ x ∈ st.pop → (∀ y ∈ st.pop, ¬ CDom y x) → (∀ y ∈ st.sols, ¬ CDom y x) → ∃ c ∈ st'.sols, c.chrom = x.chrom := by
  obtain ⟨o, ho1, ho2⟩ := optimalSolutions_spec env ht P I hO hlen st inv
  unfold updateOptimal at h
  simp only [Option.bind_eq_bind, ho1, Option.bind_some] at h
  rw [Option.bind_eq_some_iff] at h
  obtain ⟨merged, hm, h⟩ := h
  obtain rfl := Option.some.inj h
  have hpl : ∀ c ∈ st.pop, c.fitness.length = env.numObj := fun c hc => (hlen _ _ (inv.evaluated c hc).2).1
  rw [ht] at hm
  have hmerge := C09_merge_pareto_sets (·.fitness) env.numObj st.sols o hl (fun c hc => hpl c ((ho2 c).mp hc).1) hn (fun x hx y hy => ((ho2 y).mp hy).2 x ((ho2 x).mp hx).1) _ _ hm
  have hmem : ∀ x, x ∈ merged ↔ (x ∈ st.sols ∧ ∀ y ∈ o, ¬ CDom y x) ∨ (x ∈ o ∧ ∀ y ∈ st.sols, ¬ CDom y x) := by
    intro x
    rw [hmerge]
    split <;> simp only [List.mem_append, survivors, List.mem_filter, decide_eq_true_eq, not_exists, not_and] <;> tauto
  obtain ⟨hp, hsorted⟩ := hs merged
  obtain ⟨u1, u2, u3⟩ := uniqueChroms_spec _ hsorted
  -- being dominated by the population is the same as being dominated by its optimal solutions
  have hdom : ∀ c, c.fitness.length = env.numObj → (∀ y ∈ o, ¬ CDom y c) → ∀ x ∈ st.pop, ¬ CDom x c := by
    intro c hc hno x hx hd
    obtain ⟨y, hy, hyx, hyn⟩ := exists_nondominated env.numObj st.pop hpl x hx
    refine hno y ((ho2 y).mpr ⟨hy, hyn⟩) ?_
    rcases hyx with rfl | hyx
    · exact hd
    · exact exactDominates_trans (hc.trans (hpl x hx).symm) ((hpl x hx).trans (hpl y hy).symm) hd hyx
  refine ⟨u1, ?_, ?_⟩
  · intro c hc
    have := (hmem c).mp (hp.mem_iff.mp (u2 c hc))
    rcases this with ⟨h1, h2⟩ | ⟨h1, h2⟩
    · exact ⟨Or.inl h1, hdom c (hl c h1) h2, fun x hx => hn x hx c h1⟩
    · exact ⟨Or.inr ((ho2 c).mp h1).1, ((ho2 c).mp h1).2, h2⟩
  · intro x hx hxp hxs
    have : x ∈ merged := (hmem x).mpr (by
      rcases hx with hx | hx
      · exact Or.inl ⟨hx, fun y hy => hxp y ((ho2 y).mp hy).1⟩
      · exact Or.inr ⟨(ho2 x).mpr ⟨hx, hxp⟩, hxs⟩)
    exact u3 x (hp.mem_iff.mpr this)

theorem updateOptimal_ok (env : GaEnv G K A S V) (ht : env.tol = ⟨0, 0⟩) (P : List G → FVec K → Prop) (I : A → List (FVec K) → Prop) (hO : OptimalContract env I) (hlen : ∀ x v, P x v → v.length = env.numObj ∧ ∃ y, v = env.fitness y)
    (hsched : ∀ g l r i, i < max l r → 2 * min l r ≤ (env.mergeSched g l r).count i) (st : GaState G (FVec K) A V) (inv : GaInv env P I st) : ∃ st', updateOptimal env st = some st' := by
  obtain ⟨o, ho1, ho2⟩ := optimalSolutions_spec env ht P I hO hlen st inv
  obtain ⟨m, hm⟩ := C09_merge_completes (·.fitness) env.tol st.sols o (env.mergeSched st.gen st.sols.length o.length) (hsched _ _ _)
  unfold updateOptimal
  simp only [Option.bind_eq_bind, ho1, Option.bind_some, hm]
  exact ⟨_, rfl⟩

/-- The archive of a run with `keep_all_optimal_solutions`, after the generation `n`. -/
structure Archive (pops : Nat → List (Cand G (FVec K))) (n : Nat) (sols : List (Cand G (FVec K))) : Prop where
  seen : ∀ c ∈ sols, ∃ i, i ≤ n ∧ c ∈ pops i
  optimal : ∀ c ∈ sols, ∀ i, i ≤ n → ∀ x ∈ pops i, ¬ CDom x c
  complete : ∀ i, i ≤ n → ∀ x ∈ pops i, (∀ j, j ≤ n → ∀ y ∈ pops j, ¬ CDom y x) → ∃ c ∈ sols, c.chrom = x.chrom

theorem gaGens_archive (env : GaEnv G K A S V) (prev : GaState G (FVec K) A V) (initial : List (Cand G (FVec K))) (P : List G → FVec K → Prop) (I J : A → List (FVec K) → Prop) (h : RunOk env prev initial P I J)
    (hfun : ∀ x v w, P x v → P x w → v = w) (ht : env.tol = ⟨0, 0⟩) (hO : OptimalContract env I) (hs : SortSolsOk env) (hk : env.keepAll = true) :
    ∀ (n : Nat) (st : GaState G (FVec K) A V), gaGens env prev initial n = some st →
      Archive (fun i => ((gaGens env prev initial i).map (·.pop)).getD []) n st.sols ∧ (1 ≤ n → (st.sols.map (·.chrom)).Nodup)
  | 0, st, hst => by
      obtain ⟨_, _, _, _, hsol, _⟩ := gaInit_spec env prev initial P I J h st hst
      have inv := gaInit_inv env prev initial P I J h st hst
      obtain ⟨o, ho1, ho2⟩ := popParetoFront_spec env ht st.pop (isMatrix_fitness env P h.lenOk _ inv.evaluated).1
      unfold initialSols at hsol
      rw [hk, if_pos rfl, ho1] at hsol
      obtain rfl := Option.some.inj hsol
      have hp0 : ((gaGens env prev initial 0).map (·.pop)).getD [] = st.pop := by rw [hst]; rfl
      refine ⟨⟨?_, ?_, ?_⟩, fun h => by omega⟩
      · intro c hc; exact ⟨0, Nat.le_refl _, by rw [hp0]; exact ((ho2 c).mp hc).1⟩
      · intro c hc i hi x hx
        rw [Nat.le_zero.mp hi, hp0] at hx
        exact ((ho2 c).mp hc).2 x hx
      · intro i hi x hx hn
        rw [Nat.le_zero.mp hi, hp0] at hx
        refine ⟨x, (ho2 x).mpr ⟨hx, ?_⟩, rfl⟩
        intro y hy; exact hn 0 (Nat.le_refl _) y (by rw [hp0]; exact hy)
  | n + 1, st, hst => by
      have hst' := hst
      rw [gaGens_succ, Option.bind_eq_some_iff] at hst
      obtain ⟨st0, h0, hadv⟩ := hst
      obtain ⟨i0, -⟩ := gaGens_inv env prev initial P I J h n st0 h0
      obtain ⟨harch, -⟩ := gaGens_archive env prev initial P I J h hfun ht hO hs hk n st0 h0
      obtain ⟨i1, _, _, _, _, _, _, _, _, _, _, hkk⟩ := advance_spec env P I J h.alg h.eqOk h.fitOk h.dynCache h.lenOk st0 st i0 hadv
      obtain ⟨st1, st2, e1, e2, e3, e4, inv1, hu, e5⟩ := hkk hk
      generalize hpops : (fun i => ((gaGens env prev initial i).map (·.pop)).getD []) = pops at harch ⊢
      obtain ⟨a1, a2, a3⟩ := harch
      have hpn : pops (n + 1) = st.pop := by rw [← hpops]; simp [hst']
      have hev : ∀ i, ∀ c ∈ pops i, Evaluated P c := by
        intro i c hc
        rw [← hpops] at hc
        dsimp only at hc
        cases hg : gaGens env prev initial i with
        | none => rw [hg] at hc; simp at hc
        | some sti =>
          rw [hg] at hc
          exact (gaGens_inv env prev initial P I J h i sti hg).1.evaluated c hc
      have hlen : ∀ i, ∀ c ∈ pops i, c.fitness.length = env.numObj := fun i c hc => (h.lenOk _ _ (hev i c hc).2).1
      have hsl : ∀ c ∈ st1.sols, c.fitness.length = env.numObj := by
        rw [e1]; intro c hc
        obtain ⟨i, -, hi⟩ := a1 c hc
        exact hlen i c hi
      obtain ⟨u1, u2, u3⟩ := updateOptimal_spec env ht P I hO h.lenOk hs st1 st2 inv1 hsl (by
        rw [e1]; intro x hx y hy
        obtain ⟨i, hi, hxi⟩ := a1 x hx
        exact a2 y hy i hi x hxi) hu
      rw [e5, e1, e2] at u2
      rw [e5, e1, e2] at u3
      rw [e5] at u1
      -- a candidate dominated by one from the earlier generations is dominated by the archive
      have hold : ∀ c, c.fitness.length = env.numObj → (∀ x ∈ st0.sols, ¬ CDom x c) → ∀ i, i ≤ n → ∀ x ∈ pops i, ¬ CDom x c := by
        intro c hc hno i hi x hx hd
        have hall : ∀ z ∈ (List.range (n + 1)).flatMap pops, z.fitness.length = env.numObj := by
          intro z hz
          obtain ⟨j, -, hj⟩ := List.mem_flatMap.mp hz
          exact hlen j z hj
        obtain ⟨y, hy, hyx, hyn⟩ := exists_nondominated env.numObj _ hall x (List.mem_flatMap.mpr ⟨i, List.mem_range.mpr (by omega), hx⟩)
        obtain ⟨j, hj, hyj⟩ := List.mem_flatMap.mp hy
        obtain ⟨c', hc', he⟩ := a3 j (by rw [List.mem_range] at hj; omega) y hyj
          (fun k hk z hz => hyn z (List.mem_flatMap.mpr ⟨k, List.mem_range.mpr (by omega), hz⟩))
        have hfe : c'.fitness = y.fitness := by
          obtain ⟨i', -, hi'⟩ := a1 c' hc'
          exact hfun _ _ _ (hev i' c' hi').2 (by rw [he]; exact (hev j y hyj).2)
        refine hno c' hc' ?_
        show ExactDominates c'.fitness c.fitness
        rw [hfe]
        rcases hyx with rfl | hyx
        · exact hd
        · exact exactDominates_trans (hc.trans (hlen i x hx).symm) ((hlen i x hx).trans (hlen j y hyj).symm) hd hyx
      refine ⟨⟨?_, ?_, ?_⟩, fun _ => u1⟩
      · intro c hc
        rcases (u2 c hc).1 with hc | hc
        · obtain ⟨i, hi, hci⟩ := a1 c hc; exact ⟨i, by omega, hci⟩
        · exact ⟨n + 1, Nat.le_refl _, by rw [hpn]; exact hc⟩
      · intro c hc i hi x hx
        by_cases hin : i = n + 1
        · subst hin; rw [hpn] at hx; exact (u2 c hc).2.1 x hx
        · refine hold c ?_ (u2 c hc).2.2 i (by omega) x hx
          rcases (u2 c hc).1 with hc | hc
          · rw [← e1] at hc; exact hsl c hc
          · exact hlen (n + 1) c (by rw [hpn]; exact hc)
      · intro i hi x hx hn
        have hns : ∀ y ∈ st0.sols, ¬ CDom y x := by
          intro y hy
          obtain ⟨j, hj, hyj⟩ := a1 y hy
          exact hn j (by omega) y hyj
        have hnp : ∀ y ∈ st.pop, ¬ CDom y x := fun y hy => hn (n + 1) (Nat.le_refl _) y (by rw [hpn]; exact hy)
        by_cases hin : i = n + 1
        · subst hin; rw [hpn] at hx; exact u3 x (Or.inr hx) hnp hns
        · obtain ⟨c, hc, he⟩ := a3 i (by omega) x hx (fun j hj y hy => hn j (by omega) y hy)
          have hfe : c.fitness = x.fitness := by
            obtain ⟨i', -, hi'⟩ := a1 c hc
            exact hfun _ _ _ (hev i' c hi').2 (by rw [he]; exact (hev i x hx).2)
          obtain ⟨c', hc', he'⟩ := u3 c (Or.inl hc) (fun y hy => by show ¬ ExactDominates y.fitness c.fitness; rw [hfe]; exact hnp y hy)
            (fun y hy => by show ¬ ExactDominates y.fitness c.fitness; rw [hfe]; exact hns y hy)
          exact ⟨c', hc', he'.trans he⟩

/-- Nothing goes wrong in a run. -/
theorem gaGens_ok (env : GaEnv G K A S V) (prev : GaState G (FVec K) A V) (initial : List (Cand G (FVec K))) (P : List G → FVec K → Prop) (I J : A → List (FVec K) → Prop) (h : RunOk env prev initial P I J)
    (hev : ∀ g i, i < env.popSize → 3 ≤ (env.evalSched g).count i)
    (hk : env.keepAll = true → env.tol = ⟨0, 0⟩ ∧ OptimalContract env I ∧ ∀ g l r i, i < max l r → 2 * min l r ≤ (env.mergeSched g l r).count i) :
    ∀ n, ∃ st, gaGens env prev initial n = some st
  | 0 => by
      obtain ⟨d, hd⟩ := h.prevCache
      obtain ⟨c', hc1, hc2⟩ := hd.reset ((if env.dynamic then 0 else 1) * env.cachedGens * env.popSize) env.cacheExtra
      have hct : CacheTrue P c' := ⟨_, hc2, by simp⟩
      obtain ⟨r, hr⟩ := evalAll_completes env h.dynCache c' (generatePopulation env initial) 0 [env.generate 0] (env.evalSched 0)
        (by rw [generatePopulation_length]; exact hev 0)
      obtain ⟨e1, -, -⟩ := evalAll_spec env h.dynCache c' _ _ _ _ _ hr
      have hevd : ∀ c ∈ r.1, Evaluated P c := by
        intro c hc
        rw [e1] at hc
        simp only [List.mem_map] at hc
        obtain ⟨c0, h0, rfl⟩ := hc
        exact (evalOne_evaluated env P h.fitOk h.dynCache _ hct c0 (generatePopulation_trusted env P initial h.initialOk c0 h0)).1
      have hsol : ∃ s, initialSols env r.1 = some s := by
        unfold initialSols
        split
        · rename_i hkt
          obtain ⟨o, ho, -⟩ := popParetoFront_spec env (hk hkt).1 r.1 (isMatrix_fitness env P h.lenOk _ hevd).1
          exact ⟨o, ho⟩
        · exact ⟨_, rfl⟩
      obtain ⟨s, hs⟩ := hsol
      rw [gaGens]
      unfold gaInit
      simp only [Option.bind_eq_bind, hc1, Option.bind_some, hr, hs]
      exact ⟨_, rfl⟩
  | n + 1 => by
      obtain ⟨st0, h0⟩ := gaGens_ok env prev initial P I J h hev hk n
      obtain ⟨i0, -⟩ := gaGens_inv env prev initial P I J h n st0 h0
      obtain ⟨children, hch, hcl, hct, hrest⟩ := advance_steps env P I J h.alg h.eqOk h.fitOk h.dynCache h.lenOk st0 i0
      obtain ⟨r, hr⟩ := evalAll_completes env h.dynCache st0.cache (children.zipIdx.map (fun p => repairOp env.repair (mutationOp env.eq (env.mutate (st0.gen + 1) p.2) p.1)))
        st0.evals st0.calls (env.evalSched (st0.gen + 1)) (by rw [List.length_map, List.length_zipIdx, hcl]; exact hev _)
      obtain ⟨-, -, st1, hu, inv1, -⟩ := hrest _ r hr
      have hcol : ∃ st2, collectOptimal env st1 = some st2 := by
        unfold collectOptimal
        split
        · rename_i hkt
          obtain ⟨k1, k2, k3⟩ := hk hkt
          exact updateOptimal_ok env k1 P I k2 h.lenOk k3 st1 inv1
        · exact ⟨_, rfl⟩
      obtain ⟨st2, hst2⟩ := hcol
      rw [gaGens_succ, h0]
      simp only [Option.bind_some]
      unfold advance
      rw [if_pos i0.size]
      dsimp only
      simp only [Option.bind_eq_bind, hch, Option.bind_some, hr, hu, hst2]
      exact ⟨_, rfl⟩
end

end Gapp.Model
