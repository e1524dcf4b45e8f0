import Verif.Proofs.TolRun
import Verif.Props.GaAlgorithms
import Verif.Props.Float
/-!
# C74: Pareto comparisons with the tolerances

The theorems C08, C09, C10 and C23 are about exact comparisons. By default the library compares with tolerances. Here is what holds for every tolerance, and what does not.
-/

namespace Gapp.Props
open Gapp.Model Gapp.Spec

section
variable {K : Type} [CommRing K] [LinearOrder K]

theorem lexBefore_of_not_lexGreater : ∀ (b a : FVec K), a.length = b.length → a ≠ b → lexGreater b a = false → LexBefore a b
  | [], [], _, h, _ => absurd rfl h
  | [], _ :: _, h, _, _ => by simp at h
  | _ :: _, [], h, _, _ => by simp at h
  | b :: bs, a :: as, hl, hne, h => by
      unfold lexGreater at h
      by_cases he : b = a
      · subst he
        rw [if_neg (by simp)] at h
        obtain ⟨k, ha, hb, h1, h2⟩ := lexBefore_of_not_lexGreater bs as (by simpa using hl) (fun hh => hne (by rw [hh])) h
        exact ⟨k + 1, by simpa using ha, by simpa using hb, by simpa using h1, by simpa using h2⟩
      · rw [if_pos he] at h
        have : ¬ b > a := of_decide_eq_false h
        exact ⟨0, by simp, by simp, by simp, lt_of_le_of_ne (not_lt.1 this) he⟩

end

section
variable {K : Type} [CommRing K] [LinearOrder K] [IsStrictOrderedRing K]

/-- **C74 (the Pareto front of a population).** For all tolerances and every fitness matrix, `findParetoFront` and its implementation for several objectives end without an error. Every row that they do
not list is beaten by some row, and a chain of rows, each of which beats the previous one, leads to a listed row. In particular every row that no row beats is listed, and the front is not empty.
Missing: no listed row is dominated. This is false, see `C74_front_clearly_dominated`. -/
theorem C74_front_partial {t : Tol K} (ht : t.Valid) (hr : t.rel ≤ 1) {m : Nat} {fmat : FMat K} (hm : IsMatrix m fmat) :
    (∃ res, findParetoFront t m fmat = some res ∧ FrontTol t fmat res) ∧ (∃ res, findParetoFrontBest t fmat = some res ∧ FrontTol t fmat res) :=
  ⟨findParetoFront_tol ht hr hm, findParetoFrontBest_tol ht fmat⟩

/-- **C74 (the Pareto front with one objective).** Here the front is the right one: it has exactly the rows that no row dominates, within the tolerances, and the rows of the greatest value are among them. -/
theorem C74_front_single_objective {t : Tol K} (ht : t.Valid) (hr : t.rel ≤ 1) {fmat : FMat K} (hm : IsMatrix 1 fmat) (hne : fmat ≠ []) :
    ∃ res, findParetoFront t 1 fmat = some res ∧ IsParetoFront (fun j i => Dominates t (fmat.getD j []) (fmat.getD i [])) fmat.length res ∧
      ∃ i ∈ res, ∀ j, j < fmat.length → (fmat.getD j []).headD .ninf ≤ (fmat.getD i []).headD .ninf := by
  obtain ⟨res, h1, h2⟩ := C08_pareto_front_single_objective ht hr hm
  exact ⟨res, h1, h2, (frontTol_one ht hr hm hne h2).2⟩

/-- **C74 (the non-dominated sort).** For all tolerances, every fitness matrix and every result of `std::sort`, the default non-dominated sort ends without an error. Every row is ranked once; every
row is beaten by a row of each of the lower ranks; a row that is at least as good everywhere and somewhere better by more than the tolerances has the lower rank; and of two rows of the same rank only the
lexicographically greater one can be beaten by the other one.
Missing: no row is dominated by a row of its own rank. This is false, see `C74_dominated_row_ranked_first`. -/
theorem C74_nd_sort_partial {t : Tol K} (ht : t.Valid) (hr : t.rel ≤ 1) {m : Nat} {fmat : FMat K} (hm : IsMatrix m fmat) {indices : List Nat} (hs : IsArgsort (rowLexLess fmat) fmat.length indices) :
    ∃ res, efficientNonDominatedSort t fmat indices = some res ∧ RankingTol t fmat res := by
  obtain ⟨res, h1, h2, h3⟩ := ens_tol ht hr hm hs
  have hb : ∀ i j, rowLess t fmat i j = true ↔ RowBeats t fmat j i := fun i j => less_iff_beats ht _ _
  have hlen : ∀ i, i < fmat.length → (fmat.getD i []).length = m := by
    intro i hi
    rw [List.getD_eq_getElem?_getD, List.getElem?_eq_getElem hi]; exact hm _ (List.getElem_mem hi)
  refine ⟨res, h1, h2, h3.sorted, ?_, h3.clear, ?_⟩
  · intro i r hi q hq
    obtain ⟨j, hj, hl⟩ := h3.lower i r hi q hq
    exact ⟨j, hj, (hb i j).1 hl⟩
  · intro i j r hi hj hbt
    refine lexBefore_of_not_lexGreater _ _ (by rw [hlen i (h3.lt i r hi), hlen j (h3.lt j r hj)]) ?_ (h3.same i j r hi hj ((hb i j).2 hbt))
    intro he
    obtain ⟨-, k, k1, k2, hg⟩ := hbt
    have hlt := greaterBy_lt ht hg
    have hee : (fmat.getD i [])[k] = (fmat.getD j [])[k] := getElem_congr_coll he
    rw [hee] at hlt
    exact lt_irrefl _ hlt

/-- **C74 (the union of two Pareto sets).** For all tolerances, all sets and every schedule of the parallel loop: the union has only points of the two sets, a point that it leaves out is beaten by a
point of the other set, and is beaten, directly or through a chain, by a point of the union.
Missing: no point of the union is dominated, and the union does not depend on the schedule. This is false, see `C74_merge_schedule`. -/
theorem C74_merge_partial {α : Type} {t : Tol K} (ht : t.Valid) (fitness : α → FVec K) (lhs rhs : List α) (sched : List Nat) (res : List α) (hres : mergeParetoSets t fitness lhs rhs sched = some res) :
    UnionTol t fitness lhs rhs res := by
  obtain ⟨⟨h1, h2, h3, h4⟩, -⟩ := mergeParetoSets_tol ht fitness lhs rhs sched res hres
  refine ⟨h1, h2, h3, ?_⟩
  intro x hx
  obtain ⟨y, hy, hp⟩ := h4 x hx
  rcases Relation.reflTransGen_iff_eq_or_transGen.1 hp with rfl | hp
  · exact Or.inl hy
  · refine Or.inr ⟨y, hy, Relation.TransGen.lift fitness ?_ _ _ hp⟩
    rintro a b ⟨ha, hb, hab⟩
    exact ⟨⟨a, ha, rfl⟩, ⟨b, hb, rfl⟩, hab⟩

/-- **C74 (the union with one objective).** If no point of either set dominates another one of the same set, within the tolerances, then no point of the two sets dominates a point of the union, and a point
of the greatest value is in the union. -/
theorem C74_merge_single_objective {α : Type} {t : Tol K} (ht : t.Valid) (hr : t.rel ≤ 1) (fitness : α → FVec K) (lhs rhs : List α) (h1 : ∀ x, x ∈ lhs ∨ x ∈ rhs → (fitness x).length = 1)
    (hl : ∀ x ∈ lhs, ∀ y ∈ lhs, ¬ Dominates t (fitness x) (fitness y)) (hh : ∀ x ∈ rhs, ∀ y ∈ rhs, ¬ Dominates t (fitness x) (fitness y)) (sched : List Nat) (res : List α)
    (hres : mergeParetoSets t fitness lhs rhs sched = some res) :
    (∀ x ∈ res, ∀ y, y ∈ lhs ∨ y ∈ rhs → ¬ Dominates t (fitness y) (fitness x)) ∧
    (∀ x, x ∈ lhs ∨ x ∈ rhs → (∀ y, y ∈ lhs ∨ y ∈ rhs → (fitness y).headD .ninf ≤ (fitness x).headD .ninf) → x ∈ res) := by
  obtain ⟨⟨-, m2, m3, -⟩, hd⟩ := mergeParetoSets_tol ht fitness lhs rhs sched res hres
  refine ⟨hd hl hh (fun a b c ha hb hc => dominates_chain ht hr (h1 a ha) (h1 b hb) (h1 c hc)), ?_⟩
  intro x hx hmax
  have hno : ∀ y, y ∈ lhs ∨ y ∈ rhs → ¬ Beats t (fitness y) (fitness x) := by
    intro y hy hb
    have := hmax y hy
    obtain ⟨v, hv⟩ := List.length_eq_one_iff.1 (h1 x hx)
    obtain ⟨w, hw⟩ := List.length_eq_one_iff.1 (h1 y hy)
    rw [hv, hw] at hb this
    exact absurd (greaterBy_lt ht (beats_one hb)) (not_lt.2 this)
  rcases hx with hx | hx
  · exact (m2 x hx).resolve_right (fun ⟨y, hy, hb⟩ => hno y (Or.inr hy) hb)
  · exact (m3 x hx).resolve_right (fun ⟨y, hy, hb⟩ => hno y (Or.inl hy) hb)
end

/-! ## Whole runs -/

section
variable {G K A S V : Type} [LinearOrder G] [CommRing K] [LinearOrder K] [IsStrictOrderedRing K]

/-- The assumptions on a run with any tolerances: the schedules of the parallel loops are complete, the relative tolerance is at most one, the optimal solutions that the algorithm reports, if any, are a
front of the population, and `std::sort` sorts. -/
structure TolerantRun (env : GaEnv G K A S V) (I : A → List (FVec K) → Prop) : Prop where
  evalSched : ∀ g i, i < env.popSize → 3 ≤ (env.evalSched g).count i
  mergeSched : ∀ g l r i, i < max l r → 2 * min l r ≤ (env.mergeSched g l r).count i
  valid : env.tol.Valid
  rel : env.tol.rel ≤ 1
  optimal : TolOptimal env I
  sort : SortSolsOk env

/-- **C74 (progress).** With any tolerances, no generation of a run fails. -/
theorem C74_progress {env : GaEnv G K A S V} {prev : GaState G (FVec K) A V} {initial : List (Cand G (FVec K))} {I J : A → List (FVec K) → Prop}
    (h : ExactRun env prev initial I J) (hc : TolerantRun env I) (n : Nat) : ∃ st, gaGens env prev initial n = some st :=
  gaGens_ok_tol env prev initial _ I J h.runOk hc.evalSched (fun _ => ⟨⟨hc.valid, hc.rel⟩, hc.optimal, hc.mergeSched⟩) n

/-- **C74 (termination).** With any tolerances, every run ends without an error. -/
theorem C74_ends {env : GaEnv G K A S V} {prev : GaState G (FVec K) A V} {initial : List (Cand G (FVec K))} {I J : A → List (FVec K) → Prop}
    (h : ExactRun env prev initial I J) (hc : TolerantRun env I) : ∃ final, gaSolve env prev initial = some final := by
  obtain ⟨st0, h0⟩ := C74_progress h hc 0
  obtain ⟨st1, h1⟩ := solveLoop_ends env _ (gaGens_succ env prev initial) (fun n st hn => (gaGens_inv env prev initial _ I J h.runOk n st hn).2) (C74_progress h hc) (env.maxGen + 1) 0
    (env.stopInit st0) st0 h0 (by omega) (by omega)
  have h0' : gaInit env prev initial = some st0 := h0
  unfold gaSolve
  simp only [Option.bind_eq_bind, h0', Option.bind_some, h1]
  split
  · exact ⟨_, rfl⟩
  · obtain ⟨k, ss, sts, -, t2, t3, -⟩ := solveLoop_trace env _ (gaGens_succ env prev initial) _ 0 _ st0 st1 h0 h1
    have := t2 k (Nat.le_refl _)
    rw [← t3] at this
    exact updateOptimal_ok_tol env hc.valid hc.rel _ I hc.optimal h.runOk.lenOk hc.mergeSched st1 (gaGens_inv env prev initial _ I J h.runOk _ _ this).1

/-- A chain between candidates as a statement about their fitness. -/
theorem candRel_through {t : Tol K} {Q : Cand G (FVec K) → Prop} {a b : FVec K} (h : Relation.ReflTransGen (CandRel t Q) a b) :
    b = a ∨ BeatsThrough t (fun v => ∃ z, Q z ∧ z.fitness = v) b a :=
  Relation.reflTransGen_iff_eq_or_transGen.1 h

/-- Without `keep_all_optimal_solutions` there are no solutions before the end. -/
theorem no_solutions_before_end {env : GaEnv G K A S V} {prev : GaState G (FVec K) A V} {initial : List (Cand G (FVec K))} {I J : A → List (FVec K) → Prop}
    (h : ExactRun env prev initial I J) (hk : env.keepAll = false) : ∀ n st, gaGens env prev initial n = some st → st.sols = [] := by
  intro n
  induction n with
  | zero =>
    intro st hst
    obtain ⟨_, _, _, _, hs, _⟩ := gaInit_spec env prev initial _ I J h.runOk st hst
    unfold initialSols at hs
    rw [if_neg (by simp [hk])] at hs
    exact (Option.some.inj hs).symm
  | succ n ih =>
    intro st hst
    rw [gaGens_succ, Option.bind_eq_some_iff] at hst
    obtain ⟨st0, h0, hadv⟩ := hst
    obtain ⟨i0, -⟩ := gaGens_inv env prev initial _ I J h.runOk n st0 h0
    obtain ⟨_, _, _, _, _, _, _, _, _, _, hs, _⟩ := advance_spec env _ I J h.alg h.runOk.eqOk h.runOk.fitOk h.dynCache h.runOk.lenOk st0 st i0 hadv
    rw [hs hk]; exact ih st0 h0

/-- The candidates that the solutions of a run are taken from: those of all the populations, or those of the last one. -/
def Considered (env : GaEnv G K A S V) (prev : GaState G (FVec K) A V) (initial : List (Cand G (FVec K))) (final : GaState G (FVec K) A V) (c : Cand G (FVec K)) : Prop :=
  if env.keepAll then ∃ i st, i ≤ final.gen ∧ gaGens env prev initial i = some st ∧ c ∈ st.pop else c ∈ final.pop

/-- **C74 (the returned solutions).** With any tolerances and any number of objectives: the solutions are candidates of the run, with their fitness; a candidate that is not beaten by any candidate is among
them; and every candidate has the fitness of a solution, or is beaten by a solution directly or through a chain of candidates. The candidates are those of all the generations with
`keep_all_optimal_solutions`, and those of the last population without it.
Missing: no candidate dominates a solution. This holds with one objective (`C74_solutions_single_objective`); for more of them see `C74_front_clearly_dominated`. -/
theorem C74_solutions_partial {env : GaEnv G K A S V} {prev : GaState G (FVec K) A V} {initial : List (Cand G (FVec K))} {I J : A → List (FVec K) → Prop}
    (h : ExactRun env prev initial I J) (hc : TolerantRun env I) (final : GaState G (FVec K) A V) (hf : gaSolve env prev initial = some final) :
    SolutionsTol env.tol env.fitness (Considered env prev initial final) final.sols ∧ (env.keepAll = false ∨ 1 ≤ final.gen → (final.sols.map (·.chrom)).Nodup) := by
  have hfun : ∀ x v w, TrueFitness env x v → TrueFitness env x w → v = w := fun x v w hv hw => hv.trans hw.symm
  obtain ⟨k, ss, sts, t1, -, -, -, -, e1, e2, -, -, -, -, -, e7⟩ := C24_stops h final hf
  have hev : ∀ i, i ≤ k → ∀ c ∈ (sts i).pop, c.evaluated = true ∧ c.fitness = env.fitness c.chrom := fun i hi =>
    (gaGens_inv env prev initial _ I J h.runOk i _ (t1 i hi)).1.evaluated
  cases hk : env.keepAll with
  | true =>
    rw [if_pos hk] at e7
    obtain ⟨⟨a1, a2, a3⟩, a4⟩ := gaGens_tolArchive env prev initial _ I J h.runOk hfun hc.valid hc.rel hc.optimal hc.sort hk k _ (t1 k (Nat.le_refl _))
    have hcons : Considered env prev initial final = SeenUpTo env prev initial k := by
      funext c; simp only [Considered, hk, if_true, e1, SeenUpTo]
    have htrue : ∀ c, SeenUpTo env prev initial k c → c.evaluated = true ∧ c.fitness = env.fitness c.chrom := by
      rintro c ⟨i, st, hi, hst, hc⟩
      rw [t1 i hi] at hst
      obtain rfl := Option.some.inj hst
      exact hev i hi c hc
    rw [hcons, e7, e1]
    refine ⟨⟨fun c hc => ⟨a1 c hc, htrue c (a1 c hc)⟩, ?_, ?_⟩, fun hh => a4 (by simpa using hh)⟩
    · intro x hx
      refine (a2 x hx).imp (fun ⟨c, hc, he⟩ => ⟨c, hc, he, ?_⟩) id
      rw [(htrue c (a1 c hc)).2, (htrue x hx).2, he]
    · intro x hx
      obtain ⟨c, hc, hp⟩ := a3 x hx
      exact ⟨c, hc, candRel_through hp⟩
  | false =>
    rw [if_neg (by simp [hk])] at e7
    obtain ⟨st', hu, e8⟩ := e7
    have inv := (gaGens_inv env prev initial _ I J h.runOk k _ (t1 k (Nat.le_refl _))).1
    have hs0 := no_solutions_before_end h hk k _ (t1 k (Nat.le_refl _))
    obtain ⟨⟨u1, u2, u3, u4⟩, -⟩ := updateOptimal_tol env hc.valid hc.rel _ hfun I hc.optimal h.runOk.lenOk hc.sort (sts k) st' inv (by rw [hs0]; simp) hu
    rw [← e8, hs0, ← e2] at u2 u3 u4
    rw [← e8] at u1
    simp only [List.not_mem_nil, false_or] at u2 u3 u4
    have hcons : Considered env prev initial final = (· ∈ final.pop) := by
      funext c; simp [Considered, hk]
    have htrue : ∀ c ∈ final.pop, c.evaluated = true ∧ c.fitness = env.fitness c.chrom := by rw [e2]; exact hev k (Nat.le_refl _)
    rw [hcons]
    refine ⟨⟨fun c hc => ⟨u2 c hc, htrue c (u2 c hc)⟩, ?_, ?_⟩, fun _ => u1⟩
    · intro x hx
      refine (u3 x hx).imp (fun ⟨c, hc, he⟩ => ⟨c, hc, he, ?_⟩) id
      rw [(htrue c (u2 c hc)).2, (htrue x hx).2, he]
    · intro x hx
      obtain ⟨c, hc, hp⟩ := u4 x hx
      exact ⟨c, hc, candRel_through hp⟩

/-- C74: there is at least one solution. -/
theorem C74_solutions_nonempty {env : GaEnv G K A S V} {prev : GaState G (FVec K) A V} {initial : List (Cand G (FVec K))} {I J : A → List (FVec K) → Prop}
    (h : ExactRun env prev initial I J) (hc : TolerantRun env I) (hpos : 0 < env.popSize) (final : GaState G (FVec K) A V) (hf : gaSolve env prev initial = some final) : final.sols ≠ [] := by
  obtain ⟨⟨-, -, s3⟩, -⟩ := C74_solutions_partial h hc final hf
  obtain ⟨k, ss, sts, t1, -, -, -, -, e1, e2, -⟩ := C24_stops h final hf
  have hp := (C22_population_invariant_partial h k _ (t1 k (Nat.le_refl _))).1
  obtain ⟨x, hx⟩ : ∃ x, x ∈ (sts k).pop := List.exists_mem_of_length_pos (by omega)
  obtain ⟨c, hcs, -⟩ := s3 x (by
    unfold Considered
    split
    · exact ⟨k, sts k, by omega, t1 k (Nat.le_refl _), hx⟩
    · rw [e2]; exact hx)
  exact List.ne_nil_of_mem hcs

/-- **C74 (the solutions with one objective).** With any tolerances: no candidate dominates a solution, within the tolerances, and the candidates with the greatest fitness are among the solutions: at least one
solution has exactly the greatest fitness that any of the candidates has. -/
theorem C74_solutions_single_objective {env : GaEnv G K A S V} {prev : GaState G (FVec K) A V} {initial : List (Cand G (FVec K))} {I J : A → List (FVec K) → Prop}
    (h : ExactRun env prev initial I J) (hc : TolerantRun env I) (h1 : env.numObj = 1) (hone : TolOptimalOne env I) (final : GaState G (FVec K) A V) (hf : gaSolve env prev initial = some final) :
    (∀ c ∈ final.sols, ∀ y, Considered env prev initial final y → ¬ Dominates env.tol y.fitness c.fitness) ∧
    (∀ x, Considered env prev initial final x → (∀ y, Considered env prev initial final y → y.fitness.headD .ninf ≤ x.fitness.headD .ninf) → ∃ c ∈ final.sols, c.chrom = x.chrom ∧ c.fitness = x.fitness) := by
  have hfun : ∀ x v w, TrueFitness env x v → TrueFitness env x w → v = w := fun x v w hv hw => hv.trans hw.symm
  obtain ⟨⟨-, s2, -⟩, -⟩ := C74_solutions_partial h hc final hf
  obtain ⟨k, ss, sts, t1, -, -, -, -, e1, e2, -, -, -, -, -, e7⟩ := C24_stops h final hf
  have hseen : ∀ y, Considered env prev initial final y → SeenUpTo env prev initial k y := by
    intro y hy
    unfold Considered at hy
    split at hy
    · rwa [e1] at hy
    · exact ⟨k, sts k, Nat.le_refl _, t1 k (Nat.le_refl _), by rwa [e2] at hy⟩
  have hlen : ∀ y, Considered env prev initial final y → y.fitness.length = 1 := by
    intro y hy
    obtain ⟨i, st, -, hst, hym⟩ := hseen y hy
    rw [((gaGens_inv env prev initial _ I J h.runOk i st hst).1.evaluated y hym).2, h.lengths, h1]
  refine ⟨?_, ?_⟩
  · cases hk : env.keepAll with
    | true =>
      rw [if_pos hk] at e7
      intro c hcs y hy
      rw [e7] at hcs
      exact gaGens_tolArchive_one env prev initial _ I J h.runOk hfun hc.valid hc.rel h1 hc.optimal hone hc.sort hk k _ (t1 k (Nat.le_refl _)) c hcs y (hseen y hy)
    | false =>
      rw [if_neg (by simp [hk])] at e7
      obtain ⟨st', hu, e8⟩ := e7
      have inv := (gaGens_inv env prev initial _ I J h.runOk k _ (t1 k (Nat.le_refl _))).1
      have hs0 := no_solutions_before_end h hk k _ (t1 k (Nat.le_refl _))
      intro c hcs y hy
      rw [e8] at hcs
      refine updateOptimal_one env hc.valid hc.rel h1 _ hfun I hc.optimal hone h.runOk.lenOk hc.sort (sts k) st' inv (by rw [hs0]; simp) (by rw [hs0]; simp) hu c hcs y (Or.inr ?_)
      simpa [Considered, hk, e2] using hy
  · intro x hx hmax
    refine (s2 x hx).resolve_right ?_
    rintro ⟨y, hy, hb⟩
    have := hmax y hy
    obtain ⟨v, hv⟩ := List.length_eq_one_iff.1 (hlen x hx)
    obtain ⟨w, hw⟩ := List.length_eq_one_iff.1 (hlen y hy)
    rw [hv, hw] at hb this
    exact absurd (greaterBy_lt hc.valid (beats_one hb)) (not_lt.2 this)
end

/-! ## NSGA-II -/

section
variable {G K S V : Type} [LinearOrder G] [Field K] [LinearOrder K] [IsStrictOrderedRing K]

/-- nd_sort.cpp:367-377 `nonDominatedSort`, with the tolerances `t`. `argsort` gives the result of the sort of the rows. -/
def nonDominatedSortTol (t : Tol K) (argsort : FMat K → List Nat) (fmat : FMat K) : List (Nat × Nat) := (efficientNonDominatedSort t fmat (argsort fmat)).getD []

theorem nonDominatedSortTol_ok {t : Tol K} (ht : t.Valid) (hr : t.rel ≤ 1) {m : Nat} {argsort : FMat K → List Nat} (h : ArgsortOk m argsort) {fmat : FMat K} (hm : IsMatrix m fmat) :
    RankingTol t fmat (nonDominatedSortTol t argsort fmat) := by
  obtain ⟨res, h1, h2⟩ := C74_nd_sort_partial ht hr hm (h fmat hm)
  unfold nonDominatedSortTol
  rw [h1]
  exact h2

/-- The run uses NSGA-II, with any tolerances. The fitness values are finite. `sort` and `argsort` are `std::sort`; `draw1` and `draw2` are the random indices of the tournaments. -/
structure UsesNsga2Tol (env : GaEnv G K (Nsga2 K) S V) (f : List G → List K) (sort : SortFn) (argsort : FMat K → List Nat) (eps : K) (draw1 draw2 : Nat → Nat → Nat) : Prop where
  finite : ∀ x, env.fitness x = (f x).map Flt.fin
  positive : 0 < env.popSize
  valid : env.tol.Valid
  rel : env.tol.rel ≤ 1
  init : ∀ fmat, env.algInit fmat = (Nsga2.init sort eps env.numObj (valueRows fmat) (nonDominatedSortTol env.tol argsort fmat)).getD ⟨[], []⟩
  prepare : ∀ a fmat, env.algPrepare a fmat = a
  select : ∀ a fmat g k, env.algSelect a fmat g k = (a.select (draw1 g k) (draw2 g k)).getD env.popSize
  next : ∀ a fmat g, env.algNext a fmat g = (nsga2Next sort eps env.numObj (valueRows fmat) (nonDominatedSortTol env.tol argsort fmat) env.popSize).getD ([], ⟨[], []⟩)
  optimal : ∀ a, env.algOptimal a = a.optimal
  sortOk : SortContract sort
  argsortOk : ArgsortOk env.numObj argsort
  draws : ∀ g k, draw1 g k < env.popSize ∧ draw2 g k < env.popSize

/-- The rows `res` of a matrix are such that every other row is beaten by one of them, and that no row clearly dominates one of them. -/
structure StrongFrontTol (t : Tol K) (fmat : FMat K) (res : List Nat) : Prop where
  nodup : res.Nodup
  lt : ∀ i ∈ res, i < fmat.length
  cover : ∀ i, i < fmat.length → i ∈ res ∨ ∃ j ∈ res, RowBeats t fmat j i
  clear : ∀ i ∈ res, ∀ j, j < fmat.length → ¬ ClearlyDominates t (fmat.getD j []) (fmat.getD i [])

omit [IsStrictOrderedRing K] in
theorem StrongFrontTol.front {t : Tol K} {fmat : FMat K} {res : List Nat} (h : StrongFrontTol t fmat res) : FrontTol t fmat res where
  nodup := h.nodup
  lt := h.lt
  cover i hi := (h.cover i hi).imp id (fun ⟨j, hj, hb⟩ => ⟨j, h.lt j hj, hb⟩)
  leads i hi := by
    rcases h.cover i hi with hh | ⟨j, hj, hb⟩
    · exact ⟨i, hh, .refl⟩
    · exact ⟨j, hj, .single ⟨hi, h.lt j hj, hb⟩⟩

/-- The state of NSGA-II fits the fitness matrix of the population. -/
def Nsga2FitsTol (t : Tol K) (popSize : Nat) (a : Nsga2 K) (fmat : List (FVec K)) : Prop :=
  a.ranks.length = popSize ∧ a.dists.length = popSize ∧ StrongFrontTol t fmat a.optimal

omit [IsStrictOrderedRing K] in
/-- The members of rank zero of a selection, if it is closed under better ranks. -/
theorem strongFront_of_ranks {t : Tol K} {all fmat' : FMat K} {els : List (Nat × Nat)} (hr : RankingTol t all els) {sel ranks : List Nat} (hat : AtPositions all sel fmat') (hlen : ranks.length = sel.length)
    (hin : ∀ p i r : Nat, sel[p]? = some i → ranks[p]? = some r → (i, r) ∈ els)
    (hclosed : ∀ p i r : Nat, sel[p]? = some i → ranks[p]? = some r → ∀ j q, (j, q) ∈ els → q < r → ∃ p' : Nat, sel[p']? = some j ∧ ranks[p']? = some q) :
    StrongFrontTol t fmat' (findIndices (fun r => r == 0) ranks) := by
  have hl : fmat'.length = sel.length := (atPositions_length hat).symm
  have hget : ∀ (p i : Nat), sel[p]? = some i → fmat'.getD p [] = all.getD i [] := by
    intro p i hp
    have := congrArg (fun l : List (Option (FVec K)) => l[p]?) hat
    simp only [List.getElem?_map, hp, Option.map_some] at this
    rw [List.getD_eq_getElem?_getD, List.getD_eq_getElem?_getD]
    cases hq : fmat'[p]? with
    | none => rw [hq] at this; cases this
    | some y => rw [hq] at this; rw [Option.some.inj this]
  obtain ⟨hc1, hc2⟩ := C48_find_indices (fun r => r == 0) ranks
  have hmem : ∀ p, p ∈ findIndices (fun r => r == 0) ranks ↔ ranks[p]? = some 0 := by
    intro p
    rw [hc2]
    constructor
    · rintro ⟨x, hx, h0⟩
      rw [beq_iff_eq] at h0
      rw [hx, h0]
    · intro h; exact ⟨0, h, rfl⟩
  refine ⟨hc1.imp (fun h => Nat.ne_of_lt h), ?_, ?_, ?_⟩
  · intro p hp
    rw [hl, ← hlen]
    exact (List.getElem?_eq_some_iff.1 ((hmem p).1 hp)).1
  · intro p hp
    have hps : p < sel.length := by omega
    have h1 : sel[p]? = some sel[p] := List.getElem?_eq_getElem hps
    have h2 : ranks[p]? = some (ranks[p]'(by omega)) := List.getElem?_eq_getElem (by omega)
    obtain ⟨r, hreq⟩ : ∃ r, r = ranks[p]'(by omega) := ⟨_, rfl⟩
    rw [← hreq] at h2
    rcases Nat.eq_zero_or_pos r with h0 | h0
    · left; rw [hmem, h2, h0]
    · right
      obtain ⟨j, hj, hb⟩ := hr.lower _ _ (hin p _ _ h1 h2) 0 h0
      obtain ⟨p', hp1, hp2⟩ := hclosed p _ _ h1 h2 j 0 hj h0
      refine ⟨p', (hmem p').2 hp2, ?_⟩
      unfold RowBeats
      rw [hget p _ h1, hget p' j hp1]
      exact hb
  · intro p hp q hq hd
    have hr0 := (hmem p).1 hp
    have hps : p < sel.length := by rw [← hlen]; exact (List.getElem?_eq_some_iff.1 hr0).1
    have hqs : q < sel.length := by omega
    have h1 : sel[p]? = some sel[p] := List.getElem?_eq_getElem hps
    have h2 : sel[q]? = some sel[q] := List.getElem?_eq_getElem hqs
    have h3 : ranks[q]? = some (ranks[q]'(by omega)) := List.getElem?_eq_getElem (by omega)
    rw [hget p _ h1, hget q _ h2] at hd
    exact absurd (hr.clear _ _ _ _ (hin p _ _ h1 hr0) (hin q _ _ h2 h3) hd) (by omega)

/-- NSGA-II meets the contract with any tolerances. -/
theorem UsesNsga2Tol.contract {env : GaEnv G K (Nsga2 K) S V} {f : List G → List K} {sort : SortFn} {argsort : FMat K → List Nat} {eps : K} {draw1 draw2 : Nat → Nat → Nat}
    (h : UsesNsga2Tol env f sort argsort eps draw1 draw2) : AlgContract env (Nsga2FitsTol env.tol env.popSize) (Nsga2FitsTol env.tol env.popSize) where
  init := by
    intro fmat hl hm
    obtain ⟨e1, e2, e3⟩ := valueRows_fin h.finite fmat hm
    obtain ⟨els, hels, hnd⟩ : ∃ els, nonDominatedSortTol env.tol argsort fmat = els ∧ RankingTol env.tol fmat els := ⟨_, rfl, nonDominatedSortTol_ok h.valid h.rel h.argsortOk hm.1⟩
    have hpos := h.positive
    have hlen : els.length = fmat.length := by simpa using hnd.perm.length_eq
    obtain ⟨⟨rs, hrs1, hrs2, hrs3⟩, -, -⟩ := C11_front_bookkeeping els hnd.sorted (by rw [hlen]; exact hnd.perm)
    obtain ⟨fs, hf1, hf2, hf3, hf4, hf5⟩ := frontsList_spec els hnd.sorted (by intro hc; rw [hc] at hlen; simp at hlen; omega)
    obtain ⟨d, hd1, hd2, hd3⟩ := crowdingDistances_isCrowding sort h.sortOk eps env.numObj (valueRows fmat) e2 fs hf3 (by rw [hf2]; exact hnd.perm.nodup_iff.mpr List.nodup_range)
      (by rw [hf2, e3]; intro e he; have := hnd.perm.mem_iff.mp (List.mem_map.mpr ⟨e, he, rfl⟩); simpa using this)
    have hinit : Nsga2.init sort eps env.numObj (valueRows fmat) els = some ⟨rs, d⟩ := by simp [Nsga2.init, hrs1, hf1, hd1]
    rw [h.init, hels, hinit, Option.getD_some]
    refine ⟨by show rs.length = _; omega, by show d.length = _; omega, ?_⟩
    refine strongFront_of_ranks (all := fmat) (sel := List.range fmat.length) hnd ?_ (by show rs.length = _; rw [List.length_range]; omega) ?_ ?_
    · show (List.range fmat.length).map (fun i => fmat[i]?) = fmat.map some
      apply List.ext_getElem?
      intro i
      simp only [List.getElem?_map]
      by_cases hi : i < fmat.length
      · rw [List.getElem?_range hi]; simp [hi]
      · rw [List.getElem?_eq_none (by simpa using hi), List.getElem?_eq_none (by simpa using hi)]; rfl
    · intro p i r hp hr
      have hpl : p < (List.range fmat.length).length := (List.getElem?_eq_some_iff.1 hp).1
      rw [List.getElem?_eq_getElem hpl, List.getElem_range] at hp
      obtain rfl := Option.some.inj hp
      exact (hrs3 _ _).2 hr
    · intro p i r hp hr j q hj hq
      have hjl : j < fmat.length := by simpa using hnd.perm.mem_iff.mp (List.mem_map.mpr ⟨_, hj, rfl⟩)
      exact ⟨j, List.getElem?_range hjl, (hrs3 _ _).1 hj⟩
  prepare := by
    intro a fmat _ _ hI
    rw [h.prepare]; exact hI
  select := by
    intro a fmat g k hl hm hJ
    rw [h.select]
    obtain ⟨d1, d2⟩ := h.draws g k
    obtain ⟨j1, j2, -⟩ := hJ
    obtain ⟨x, hx, hxe, -⟩ := C31_selection a (draw1 g k) (draw2 g k) _ _ _ _ (List.getElem?_eq_getElem (by omega)) (List.getElem?_eq_getElem (by omega)) (List.getElem?_eq_getElem (by omega))
      (List.getElem?_eq_getElem (by omega))
    rw [hx]
    rcases hxe with rfl | rfl
    · exact d1
    · exact d2
  next := by
    intro a all g hl hm _
    obtain ⟨e1, e2, e3⟩ := valueRows_fin h.finite all hm
    obtain ⟨els, hels, hnd⟩ : ∃ els, nonDominatedSortTol env.tol argsort all = els ∧ RankingTol env.tol all els := ⟨_, rfl, nonDominatedSortTol_ok h.valid h.rel h.argsortOk hm.1⟩
    obtain ⟨els', kept, dists, g1, g2, g3, g4, g5⟩ := nsga2Next_steps sort h.sortOk eps env.numObj (valueRows all) e2 els (by rw [e3]; exact hnd.perm) hnd.sorted env.popSize h.positive (by rw [e3, hl]; omega)
    have hlen : els.length = all.length := by simpa using hnd.perm.length_eq
    obtain ⟨els'', h1, h2, h3, -⟩ := sortPartialFront_spec sort h.sortOk eps env.numObj (valueRows all) e2 els (by rw [e3]; exact hnd.perm) hnd.sorted env.popSize h.positive (by rw [hlen, hl]; omega)
    obtain rfl : els' = els'' := by rw [g1] at h1; exact Option.some.inj h1
    have hs' : els'.Pairwise (fun a b => a.2 ≤ b.2) := by
      have : (els.map (·.2)).Pairwise (· ≤ ·) := List.pairwise_map.mpr hnd.sorted
      rw [← h3] at this
      exact List.pairwise_map.mp this
    have hp' : (els'.map (·.1)).Perm (List.range all.length) := (h2.map (·.1)).trans hnd.perm
    have hnd' : (els'.map (·.1)).Nodup := hp'.nodup_iff.mpr List.nodup_range
    have hlen' : els'.length = all.length := by rw [h2.length_eq, hlen]
    have hkl : kept.length = env.popSize := by rw [g2.length_eq, List.length_take, hlen', hl]; omega
    rw [h.next, hels, g4, Option.getD_some]
    have hget : ∀ (p i r : Nat), (kept.map (·.1))[p]? = some i → (kept.map (·.2))[p]? = some r → (i, r) ∈ kept := by
      intro p i r hi hr
      rw [List.getElem?_map, Option.map_eq_some_iff] at hi hr
      obtain ⟨e, he, rfl⟩ := hi
      obtain ⟨e', he', rfl⟩ := hr
      rw [he] at he'
      obtain rfl := Option.some.inj he'
      exact List.mem_of_getElem? he
    refine ⟨⟨by simpa using hkl, ?_, ?_⟩, ?_⟩
    · exact ((g2.map (·.1)).nodup_iff).mpr (hnd'.sublist ((List.take_sublist _ _).map _))
    · intro i hi
      obtain ⟨e, he, rfl⟩ := List.mem_map.1 hi
      have := hp'.mem_iff.1 (List.mem_map.2 ⟨e, List.mem_of_mem_take (g2.mem_iff.1 he), rfl⟩)
      rw [← hl]
      simpa using this
    · intro fmat' hat
      refine ⟨by simpa using hkl, g5, ?_⟩
      refine strongFront_of_ranks hnd hat (by simp) ?_ ?_
      · intro p i r hi hr
        exact h2.mem_iff.1 (List.mem_of_mem_take (g2.mem_iff.1 (hget p i r hi hr)))
      · intro p i r hi hr j q hj hq
        have hk := g2.mem_iff.1 (hget p i r hi hr)
        have hje : (j, q) ∈ els' := h2.mem_iff.2 hj
        have hjt : (j, q) ∈ els'.take env.popSize := by
          rw [← List.take_append_drop env.popSize els', List.mem_append] at hje
          refine hje.resolve_right (fun hd => ?_)
          have hpw : (els'.take env.popSize ++ els'.drop env.popSize).Pairwise (fun a b => a.2 ≤ b.2) := by rw [List.take_append_drop]; exact hs'
          have := (List.pairwise_append.1 hpw).2.2 _ hk _ hd
          simp only at this
          omega
        obtain ⟨p', hp'⟩ := List.getElem?_of_mem (g2.mem_iff.2 hjt)
        exact ⟨p', by simp [hp'], by simp [hp']⟩

theorem UsesNsga2Tol.optimalContract {env : GaEnv G K (Nsga2 K) S V} {f : List G → List K} {sort : SortFn} {argsort : FMat K → List Nat} {eps : K} {draw1 draw2 : Nat → Nat → Nat}
    (h : UsesNsga2Tol env f sort argsort eps draw1 draw2) : TolOptimal env (Nsga2FitsTol env.tol env.popSize) := by
  intro a fmat _ _ hI
  rw [h.optimal]
  exact Or.inr hI.2.2.front

/-- **C74 (runs with NSGA-II).** With any tolerances a run with NSGA-II ends without an error and returns at least one solution. Without `keep_all_optimal_solutions` the solutions have different chromosomes
and are candidates of the last population, with their fitness; every candidate of this population is a copy of a solution or is beaten by a solution; and no candidate of this population clearly
dominates a solution. -/
theorem C74_nsga2_run {env : GaEnv G K (Nsga2 K) S V} {f : List G → List K} {sort : SortFn} {argsort : FMat K → List Nat} {eps : K} {draw1 draw2 : Nat → Nat → Nat}
    (h : UsesNsga2Tol env f sort argsort eps draw1 draw2)
    (hexact : env.eq = exactEq) (hlen : ∀ x, (f x).length = env.numObj) (hdyn : env.dynamic = true → env.cachedGens = 0) (prev : GaState G (FVec K) (Nsga2 K) V) (hprev : ∃ d, prev.cache.Repr d)
    (initial : List (Cand G (FVec K))) (hinit : ∀ c ∈ initial, c.evaluated = false)
    (hes : ∀ g i, i < env.popSize → 3 ≤ (env.evalSched g).count i) (hms : ∀ g l r i, i < max l r → 2 * min l r ≤ (env.mergeSched g l r).count i) (hsort : SortSolsOk env) :
    ∃ final, gaSolve env prev initial = some final ∧ final.pop.length = env.popSize ∧ final.sols ≠ [] ∧
      SolutionsTol env.tol env.fitness (Considered env prev initial final) final.sols ∧
      (env.keepAll = false → (final.sols.map (·.chrom)).Nodup ∧ (∀ c ∈ final.sols, c ∈ final.pop ∧ c.fitness = env.fitness c.chrom) ∧
        (∀ x ∈ final.pop, ∃ c ∈ final.sols, (c.chrom = x.chrom ∧ c.fitness = x.fitness) ∨ Beats env.tol c.fitness x.fitness) ∧
        (∀ c ∈ final.sols, ∀ x ∈ final.pop, ¬ ClearlyDominates env.tol x.fitness c.fitness)) := by
  have he : ExactRun env prev initial (Nsga2FitsTol env.tol env.popSize) (Nsga2FitsTol env.tol env.popSize) :=
    ⟨h.contract, hexact, fun x => by rw [h.finite]; simpa using hlen x, hdyn, fun c hc hev => (by rw [hinit c hc] at hev; cases hev), hprev⟩
  have hc : TolerantRun env (Nsga2FitsTol env.tol env.popSize) := ⟨hes, hms, h.valid, h.rel, h.optimalContract, hsort⟩
  obtain ⟨final, hf⟩ := C74_ends he hc
  obtain ⟨s1, s2⟩ := C74_solutions_partial he hc final hf
  obtain ⟨k, _, sts, t1, _, _, _, _, _, e2, _, _, _, _, _, e7⟩ := C24_stops he final hf
  refine ⟨final, hf, ?_, C74_solutions_nonempty he hc h.positive final hf, s1, ?_⟩
  · rw [e2]
    exact (C22_population_invariant_partial he k _ (t1 k (Nat.le_refl _))).1
  intro hk
  have hcons : Considered env prev initial final = (· ∈ final.pop) := by
    funext c; simp [Considered, hk]
  rw [hcons] at s1
  rw [if_neg (by simp [hk])] at e7
  obtain ⟨st', hu, e8⟩ := e7
  have inv := (gaGens_inv env prev initial _ _ _ he.runOk k _ (t1 k (Nat.le_refl _))).1
  have hs0 := no_solutions_before_end he hk k _ (t1 k (Nat.le_refl _))
  have hm := isMatrix_fitness env _ he.runOk.lenOk (sts k).pop inv.evaluated
  have hstrong : StrongFrontTol env.tol ((sts k).pop.map (·.fitness)) (sts k).alg.optimal := by
    have := inv.alg
    rw [inv.fmat] at this
    exact this.2.2
  -- the reported solutions
  obtain ⟨o, ho1, ho2, ho3⟩ := front_positions (sts k).pop _ hstrong.front
  have hposlen : 0 < (sts k).pop.length := by rw [inv.size]; exact h.positive
  have hopt : optimalSolutions env (sts k).alg (sts k).pop = some o := by
    unfold optimalSolutions
    dsimp only
    rw [h.optimal, if_neg, ho1]
    rw [List.isEmpty_iff]
    intro hem
    rcases hstrong.cover 0 (by simpa using hposlen) with hh | ⟨j, hj, -⟩
    · rw [hem] at hh; cases hh
    · rw [hem] at hj; cases hj
  have hget : ∀ (i : Nat) (c : Cand G (FVec K)), (sts k).pop[i]? = some c → ((sts k).pop.map (·.fitness)).getD i [] = c.fitness := by
    intro i c hc; simp [List.getD, hc]
  have hcover : ∀ x ∈ (sts k).pop, x ∈ o ∨ ∃ y ∈ o, Beats env.tol y.fitness x.fitness := by
    intro x hx
    obtain ⟨i, hi⟩ := List.getElem?_of_mem hx
    rcases hstrong.cover i (by simpa using (List.getElem?_eq_some_iff.1 hi).1) with hh | ⟨j, hj, hb⟩
    · exact Or.inl ((ho3 x).2 ⟨i, hh, hi⟩)
    · have hjl : j < (sts k).pop.length := by simpa using hstrong.lt j hj
      have hje := List.getElem?_eq_getElem hjl
      refine Or.inr ⟨_, (ho3 _).2 ⟨j, hj, hje⟩, ?_⟩
      have hb' : Beats env.tol (((sts k).pop.map (·.fitness)).getD j []) (((sts k).pop.map (·.fitness)).getD i []) := hb
      rwa [hget i x hi, hget j _ hje] at hb'
  have hclear : ∀ c ∈ o, ∀ x ∈ (sts k).pop, ¬ ClearlyDominates env.tol x.fitness c.fitness := by
    intro c hc x hx hd
    obtain ⟨i, hi, hic⟩ := (ho3 c).1 hc
    obtain ⟨j, hj⟩ := List.getElem?_of_mem hx
    refine hstrong.clear i hi j (by simpa using (List.getElem?_eq_some_iff.1 hj).1) ?_
    rwa [hget i c hic, hget j x hj]
  -- the merge with the empty set, the sort and the removal of duplicates
  have hfun : ∀ x v w, TrueFitness env x v → TrueFitness env x w → v = w := fun x v w hv hw => hv.trans hw.symm
  obtain ⟨-, o', merged, q1, -, q3, q4⟩ := updateOptimal_tol env h.valid h.rel _ hfun _ hc.optimal he.runOk.lenOk hsort (sts k) st' inv (by rw [hs0]; simp) hu
  rw [hopt] at q1
  obtain rfl := Option.some.inj q1
  obtain ⟨⟨m1, -, m3, -⟩, -⟩ := mergeParetoSets_tol h.valid _ _ _ _ _ q3
  have hsub : ∀ c ∈ final.sols, c ∈ o := by
    intro c hcs
    rw [e8] at hcs
    have := m1 c (q4 c hcs)
    rw [hs0] at this
    simpa using this
  refine ⟨s2 (Or.inl hk), fun c hcs => ⟨(s1.found c hcs).1, (s1.found c hcs).2.2⟩, ?_, ?_⟩
  · have hrep : ∀ y ∈ o, ∃ c ∈ final.sols, c.chrom = y.chrom ∧ c.fitness = y.fitness := by
      intro y hy
      have hym : y ∈ merged := by
        refine (m3 y hy).resolve_right ?_
        rintro ⟨z, hz, -⟩
        rw [hs0] at hz; cases hz
      unfold updateOptimal at hu
      simp only [Option.bind_eq_bind, hopt, Option.bind_some, q3] at hu
      obtain rfl := Option.some.inj hu
      obtain ⟨hp, hsorted⟩ := hsort merged
      obtain ⟨u1, u2, u3⟩ := uniqueChroms_spec _ hsorted
      obtain ⟨c, hcm, hce⟩ := u3 y (hp.mem_iff.mpr hym)
      have hcf : c ∈ final.sols := by rw [e8]; exact hcm
      refine ⟨c, hcf, hce, ?_⟩
      rw [(s1.found c hcf).2.2, hce]
      have hyp : y ∈ (sts k).pop := ho2.sub y hy
      exact ((inv.evaluated y hyp).2).symm
    intro x hx
    rw [e2] at hx
    rcases hcover x hx with hxo | ⟨y, hy, hb⟩
    · obtain ⟨c, hcs, h1, h2⟩ := hrep x hxo
      exact ⟨c, hcs, Or.inl ⟨h1, h2⟩⟩
    · obtain ⟨c, hcs, h1, h2⟩ := hrep y hy
      exact ⟨c, hcs, Or.inr (by rw [h2]; exact hb)⟩
  · intro c hcs x hx
    rw [e2] at hx
    exact hclear c (hsub c hcs) x hx
end

/-! ## What does not hold, with the default tolerances

The values of the examples are multiples of `1e-13`, a tenth of the default absolute tolerance. -/

/-- A row of multiples of `1e-13`. -/
def tinyRow (l : List ℤ) : FVec ℚ := l.map (fun (x : ℤ) => Flt.fin ((x : ℚ) / 10 ^ 13))

theorem tinyRow_matrix (m : Nat) (l : List (List ℤ)) (h : ∀ r ∈ l, r.length = m) : IsMatrix m (l.map tinyRow) := by
  intro r hr
  obtain ⟨x, hx, rfl⟩ := List.mem_map.1 hr
  simpa [tinyRow] using h x hx

theorem defaultTol_ok : defaultTol.Valid ∧ defaultTol.rel ≤ 1 := by
  refine ⟨⟨?_, ?_⟩, ?_⟩ <;> (unfold defaultTol; norm_num)

-- the default tolerances meet the hypotheses of the theorems above, on a matrix whose first row is beaten
example : (∃ res, findParetoFront defaultTol 2 [tinyRow [0, 0], tinyRow [5, 20], tinyRow [-40, 40]] = some res ∧ FrontTol defaultTol [tinyRow [0, 0], tinyRow [5, 20], tinyRow [-40, 40]] res) :=
  (C74_front_partial defaultTol_ok.1 defaultTol_ok.2 (tinyRow_matrix 2 [[0, 0], [5, 20], [-40, 40]] (by decide))).1
example : findParetoFront defaultTol 2 [tinyRow [0, 0], tinyRow [5, 20], tinyRow [-40, 40]] = some [1, 2] := by decide +kernel
example : findParetoFront defaultTol 1 [tinyRow [0], tinyRow [12], tinyRow [3]] = some [1, 2] := by decide +kernel
example : efficientNonDominatedSort defaultTol [tinyRow [0, 0], tinyRow [5, 20], tinyRow [-40, 40]] [1, 0, 2] = some [(2, 0), (1, 0), (0, 1)] := by
  decide +kernel
example : mergeParetoSets defaultTol id [tinyRow [0, 0]] [tinyRow [5, 20]] [0, 0] = some [tinyRow [5, 20]] := by decide +kernel
example : mergeParetoSets defaultTol id [tinyRow [0]] [tinyRow [5], tinyRow [9]] [0, 1, 1, 0] = some [tinyRow [5], tinyRow [9], tinyRow [0]] := by decide +kernel

/-- C74: dominance within the default tolerances is not transitive, it even has cycles. The fast non-dominated sort then reads past the end of its (empty) first front. -/
theorem C74_dominance_cycle : ∃ a b c : FVec ℚ, a.length = 3 ∧ b.length = 3 ∧ c.length = 3 ∧ Dominates defaultTol a b ∧ Dominates defaultTol b c ∧ Dominates defaultTol c a ∧
    fastNonDominatedSort defaultTol [a, b, c] = none := by
  have hd : ∀ x y : FVec ℚ, paretoCompare defaultTol x y = 1 → Dominates defaultTol x y := fun x y => (C07_pareto_compare defaultTol_ok.1 x y).2.1.1
  exact ⟨tinyRow [0, -18, -9], tinyRow [-18, -9, 0], tinyRow [-9, 0, -18], rfl, rfl, rfl, hd _ _ (by decide +kernel), hd _ _ (by decide +kernel), hd _ _ (by decide +kernel), by decide +kernel⟩

/-- C74: the default non-dominated sort puts a row into the first front although another row of the first front dominates it within the default tolerances. -/
theorem C74_dominated_row_ranked_first : ∃ (fmat : FMat ℚ) (indices : List Nat) (res : List (Nat × Nat)), IsMatrix 2 fmat ∧ IsArgsort (rowLexLess fmat) fmat.length indices ∧
    efficientNonDominatedSort defaultTol fmat indices = some res ∧ (0, 0) ∈ res ∧ (1, 0) ∈ res ∧ Dominates defaultTol (fmat.getD 1 []) (fmat.getD 0 []) := by
  refine ⟨[tinyRow [0, -50], tinyRow [-1, 0]], [0, 1], [(1, 0), (0, 0)], tinyRow_matrix 2 [[0, -50], [-1, 0]] (by decide), ⟨by decide, by decide +kernel⟩, by decide +kernel, by simp, by simp, ?_⟩
  exact (C07_pareto_compare defaultTol_ok.1 _ _).2.1.1 (by decide +kernel)

/-- C74: `findParetoFront` with two objectives lists a row although another row clearly dominates it: it is as good in the first objective and better by twice the default tolerance in the second one. -/
theorem C74_front_clearly_dominated : ∃ (fmat : FMat ℚ) (res : List Nat), IsMatrix 2 fmat ∧ findParetoFront defaultTol 2 fmat = some res ∧
    3 ∈ res ∧ ClearlyDominates defaultTol (fmat.getD 0 []) (fmat.getD 3 []) := by
  refine ⟨[tinyRow [0, 20], tinyRow [-9, 35], tinyRow [-18, 50], tinyRow [0, 0]], [2, 3], tinyRow_matrix 2 [[0, 20], [-9, 35], [-18, 50], [0, 0]] (by decide), by decide +kernel, by simp, ?_, ?_⟩
  · intro i ha hb
    have hi : i < 2 := ha
    have h2 : ∀ i : Fin 2, (tinyRow [0, 0])[i.1]'i.2 ≤ (tinyRow [0, 20])[i.1]'i.2 := by decide +kernel
    exact h2 ⟨i, hi⟩
  · refine ⟨1, by decide, by decide, ?_⟩
    show (20 : ℤ) / 10 ^ 13 - (0 : ℤ) / 10 ^ 13 > defaultTol.abs ∧ (20 : ℤ) / 10 ^ 13 - (0 : ℤ) / 10 ^ 13 > defaultTol.rel * |((0 : ℤ) : ℚ) / 10 ^ 13| ∧
      (20 : ℤ) / 10 ^ 13 - (0 : ℤ) / 10 ^ 13 > defaultTol.rel * |((20 : ℤ) : ℚ) / 10 ^ 13|
    unfold defaultTol
    refine ⟨?_, ?_, ?_⟩ <;> norm_num [abs_of_pos]

/-- C74: the union of two Pareto sets depends on the schedule of the parallel loop, and may have a point that another point of it dominates within the default tolerances. Both schedules are complete, and within
each of the two sets no point dominates another one. -/
theorem C74_merge_schedule : ∃ (lhs rhs res res' : List (FVec ℚ)) (sched sched' : List Nat), (∀ x ∈ lhs, ∀ y ∈ lhs, ¬ Dominates defaultTol x y) ∧ (∀ x ∈ rhs, ∀ y ∈ rhs, ¬ Dominates defaultTol x y) ∧
    mergeParetoSets defaultTol id lhs rhs sched = some res ∧ mergeParetoSets defaultTol id lhs rhs sched' = some res' ∧ ¬ res.Perm res' ∧ ∃ x ∈ res', ∃ y ∈ res', Dominates defaultTol x y := by
  have hnd : ∀ l : List (FVec ℚ), (∀ x ∈ l, ∀ y ∈ l, paretoCompare defaultTol x y ≠ 1) → ∀ x ∈ l, ∀ y ∈ l, ¬ Dominates defaultTol x y := fun l h x hx y hy hd =>
    h x hx y hy ((C07_pareto_compare defaultTol_ok.1 x y).2.1.2 hd)
  refine ⟨[tinyRow [-18, 40], tinyRow [0, 0]], [tinyRow [-9, 20]], [tinyRow [-18, 40], tinyRow [0, 0]], [tinyRow [-18, 40], tinyRow [-9, 20]], [0, 0, 1, 1], [1, 1, 0, 0],
    hnd _ (by decide +kernel), hnd _ (by decide +kernel), by decide +kernel, by decide +kernel, ?_, tinyRow [-18, 40], by simp, tinyRow [-9, 20], by simp, ?_⟩
  · intro hp
    have h1 : tinyRow [0, 0] ∈ [tinyRow [-18, 40], tinyRow [-9, 20]] := hp.mem_iff.1 (by simp)
    norm_num [tinyRow] at h1
  · exact (C07_pareto_compare defaultTol_ok.1 _ _).2.1.1 (by decide +kernel)

/-! ## Runs that meet the hypotheses -/

/-- The demo with an absolute tolerance of two. -/
def demoTol (keepAll : Bool) (maxGen : Nat) : GaEnv ℤ ℤ Unit Unit (FVec ℤ) := { demoInt keepAll 0 maxGen with tol := ⟨2, 0⟩ }

/-- The demo with an absolute tolerance of two and with one objective. -/
def demoTolOne (keepAll : Bool) (maxGen : Nat) : GaEnv ℤ ℤ Unit Unit (FVec ℤ) := { demoTol keepAll maxGen with numObj := 1, fitness := fun x => [.fin (x.getD 0 0)] }

theorem demoTol_exact (keepAll : Bool) (maxGen : Nat) : ExactRun (demoTol keepAll maxGen) (demoPrev ℤ) [] (fun _ _ => True) (fun _ _ => True) where
  alg := ⟨fun _ _ _ => trivial, fun _ _ _ _ _ => trivial, fun _ _ _ k _ _ _ => Nat.mod_lt _ (by decide), fun _ _ _ _ _ _ => ⟨⟨rfl, (by decide : [2, 3].Nodup), (by decide : ∀ i ∈ [2, 3], i < 4)⟩, fun _ _ => trivial⟩⟩
  exact := rfl
  lengths := fun _ => rfl
  dynCache := fun _ => rfl
  initial := fun c hc => by cases hc
  prevCache := ⟨_, FifoCache.repr_init 0 0⟩

theorem demoTolOne_exact (keepAll : Bool) (maxGen : Nat) : ExactRun (demoTolOne keepAll maxGen) (demoPrev ℤ) [] (fun _ _ => True) (fun _ _ => True) where
  alg := ⟨fun _ _ _ => trivial, fun _ _ _ _ _ => trivial, fun _ _ _ k _ _ _ => Nat.mod_lt _ (by decide), fun _ _ _ _ _ _ => ⟨⟨rfl, (by decide : [2, 3].Nodup), (by decide : ∀ i ∈ [2, 3], i < 4)⟩, fun _ _ => trivial⟩⟩
  exact := rfl
  lengths := fun _ => rfl
  dynCache := fun _ => rfl
  initial := fun c hc => by cases hc
  prevCache := ⟨_, FifoCache.repr_init 0 0⟩

theorem demoTol_run (keepAll : Bool) (maxGen : Nat) : TolerantRun (demoTol keepAll maxGen) (fun _ _ => True) :=
  ⟨(demo_complete keepAll 0 maxGen).evalSched, (demo_complete keepAll 0 maxGen).mergeSched, ⟨(by decide : (0 : ℤ) ≤ 2), (by decide : (0 : ℤ) ≤ 0)⟩, (by decide : (0 : ℤ) ≤ 1), fun _ _ _ _ _ => Or.inl rfl, (demo_complete keepAll 0 maxGen).sort⟩

theorem demoTolOne_run (keepAll : Bool) (maxGen : Nat) : TolerantRun (demoTolOne keepAll maxGen) (fun _ _ => True) :=
  ⟨(demo_complete keepAll 0 maxGen).evalSched, (demo_complete keepAll 0 maxGen).mergeSched, ⟨(by decide : (0 : ℤ) ≤ 2), (by decide : (0 : ℤ) ≤ 0)⟩, (by decide : (0 : ℤ) ≤ 1), fun _ _ _ _ _ => Or.inl rfl, (demo_complete keepAll 0 maxGen).sort⟩

example : ∃ final, gaSolve (demoTol true 4) (demoPrev ℤ) [] = some final ∧ final.sols ≠ [] := by
  obtain ⟨final, hf⟩ := C74_ends (demoTol_exact true 4) (demoTol_run true 4)
  exact ⟨final, hf, C74_solutions_nonempty (demoTol_exact true 4) (demoTol_run true 4) (by decide) final hf⟩
-- the best value is seven; the other candidates of the run are beaten by it
example : (gaSolve (demoTol true 4) (demoPrev ℤ) []).map (fun st => st.sols.map (·.chrom)) = some [[7, 1]] := by decide +kernel
example : ∃ final, gaSolve (demoTolOne true 4) (demoPrev ℤ) [] = some final ∧ ∀ c ∈ final.sols, ∀ y, Considered (demoTolOne true 4) (demoPrev ℤ) [] final y → ¬ Dominates ⟨2, 0⟩ y.fitness c.fitness := by
  obtain ⟨final, hf⟩ := C74_ends (demoTolOne_exact true 4) (demoTolOne_run true 4)
  exact ⟨final, hf, (C74_solutions_single_objective (demoTolOne_exact true 4) (demoTolOne_run true 4) rfl (fun _ _ _ _ _ i hi => by cases hi) final hf).1⟩
example : (gaSolve (demoTolOne true 4) (demoPrev ℤ) []).map (fun st => st.sols.map (·.chrom)) = some [[7, 1]] := by decide +kernel

/-- NSGA-II with the default tolerances. -/
def demoNsga2Tol : GaEnv ℤ ℚ (Nsga2 ℚ) Unit Unit :=
  { demoNsga2 with
    tol := defaultTol
    algInit := fun fmat => (Nsga2.init insertSort (1 / 100000000) 2 (valueRows fmat) (nonDominatedSortTol defaultTol lexArgsort fmat)).getD ⟨[], []⟩
    algNext := fun _ fmat _ => (nsga2Next insertSort (1 / 100000000) 2 (valueRows fmat) (nonDominatedSortTol defaultTol lexArgsort fmat) 3).getD ([], ⟨[], []⟩) }

theorem demoNsga2Tol_uses : UsesNsga2Tol demoNsga2Tol (fun x => [(x.getD 0 0 : ℚ), - (x.getD 1 0 : ℚ)]) insertSort lexArgsort (1 / 100000000) (fun g k => (g + k) % 3) (fun _ k => k % 3) where
  finite := fun _ => rfl
  positive := by decide
  valid := defaultTol_ok.1
  rel := defaultTol_ok.2
  init := fun _ => rfl
  prepare := fun _ _ => rfl
  select := fun _ _ _ _ => rfl
  next := fun _ _ _ => rfl
  optimal := fun _ => rfl
  sortOk := insertSort_contract
  argsortOk := lexArgsort_ok 2
  draws := fun _ _ => ⟨Nat.mod_lt _ (by decide), Nat.mod_lt _ (by decide)⟩

example : ∃ final, gaSolve demoNsga2Tol ⟨[], [], [], FifoCache.init 0 0, 0, [], 0, ⟨[], []⟩, [], ⟨0, []⟩⟩ [] = some final ∧ final.pop.length = 3 ∧ final.sols ≠ [] := by
  obtain ⟨final, h1, h2, h3, -⟩ := C74_nsga2_run demoNsga2Tol_uses rfl (fun _ => rfl) (fun h => by cases h) ⟨[], [], [], FifoCache.init 0 0, 0, [], 0, ⟨[], []⟩, [], ⟨0, []⟩⟩ ⟨_, FifoCache.repr_init 0 0⟩ [] (by simp)
    (fun _ i hi => by
      have hi : i < 3 := hi
      show 3 ≤ List.count i [2, 1, 0, 0, 1, 0, 2, 1, 2]
      match i, hi with
      | 0, _ => decide
      | 1, _ => decide
      | 2, _ => decide)
    (demo_complete false 0 4).mergeSched insertionSort_sols
  exact ⟨final, h1, h2, h3⟩

end Gapp.Props
