import Verif.Props.GaLoop
import Verif.Props.Nsga2
import Verif.Props.Nsga3
import Verif.Props.NdSort
import Verif.Props.Selection
import Verif.Props.Replacement
/-!
# C22, C23, C30, C31, C32: whole runs with the algorithms of the library

The theorems about runs assume that the algorithm meets `AlgContract` and `OptimalContract`. Here this is shown for NSGA-II, NSGA-III and for single-objective algorithms, so that the theorems hold for
runs with these.
-/

namespace Gapp.Props
open Gapp.Model Gapp.Spec

/-! ## NSGA-II -/

section
variable {G K S V : Type} [LinearOrder G] [Field K] [LinearOrder K] [IsStrictOrderedRing K]

/-- The values of a matrix of finite numbers. -/
def valueRows (fmat : List (FVec K)) : List (List K) := fmat.map (fun r => r.map (fun v => match v with | .fin x => x | _ => 0))

/-- nd_sort.cpp:367-377 `nonDominatedSort`, with exact comparisons. `argsort` gives the result of the sort of the rows. -/
def nonDominatedSort (argsort : FMat K → List Nat) (fmat : FMat K) : List (Nat × Nat) := (efficientNonDominatedSort ⟨0, 0⟩ fmat (argsort fmat)).getD []

/-- The results of the sort of the rows of matrices with `m` columns are allowed ones. -/
def ArgsortOk (m : Nat) (argsort : FMat K → List Nat) : Prop := ∀ fmat, IsMatrix m fmat → IsArgsort (rowLexLess fmat) fmat.length (argsort fmat)

theorem nonDominatedSort_ok {m : Nat} {argsort : FMat K → List Nat} (h : ArgsortOk m argsort) {fmat : FMat K} (hm : IsMatrix m fmat) :
    IsNdSort (RowDominates fmat) fmat.length (nonDominatedSort argsort fmat) := by
  obtain ⟨-, -, h3⟩ := C10_nd_sort_exact hm
  obtain ⟨res, h1, h2⟩ := h3 _ (h fmat hm)
  unfold nonDominatedSort
  rw [h1]
  exact h2

/-- The run uses NSGA-II. The fitness values are finite. `sort` and `argsort` are `std::sort`; `draw1` and `draw2` are the random indices of the tournaments. -/
structure UsesNsga2 (env : GaEnv G K (Nsga2 K) S V) (f : List G → List K) (sort : SortFn) (argsort : FMat K → List Nat) (eps : K) (draw1 draw2 : Nat → Nat → Nat) : Prop where
  finite : ∀ x, env.fitness x = (f x).map Flt.fin
  positive : 0 < env.popSize
  init : ∀ fmat, env.algInit fmat = (Nsga2.init sort eps env.numObj (valueRows fmat) (nonDominatedSort argsort fmat)).getD ⟨[], []⟩
  prepare : ∀ a fmat, env.algPrepare a fmat = a
  select : ∀ a fmat g k, env.algSelect a fmat g k = (a.select (draw1 g k) (draw2 g k)).getD env.popSize
  next : ∀ a fmat g, env.algNext a fmat g = (nsga2Next sort eps env.numObj (valueRows fmat) (nonDominatedSort argsort fmat) env.popSize).getD ([], ⟨[], []⟩)
  optimal : ∀ a, env.algOptimal a = a.optimal
  sortOk : SortContract sort
  argsortOk : ArgsortOk env.numObj argsort
  draws : ∀ g k, draw1 g k < env.popSize ∧ draw2 g k < env.popSize

/-- The state of NSGA-II fits the fitness matrix of the population. -/
def Nsga2Fits (popSize : Nat) (a : Nsga2 K) (fmat : List (FVec K)) : Prop :=
  a.ranks.length = popSize ∧ a.dists.length = popSize ∧ IsParetoFront (RowDominates fmat) fmat.length a.optimal

theorem valueRows_fin {A : Type} {env : GaEnv G K A S V} {f : List G → List K} (hf : ∀ x, env.fitness x = (f x).map Flt.fin) (fmat : List (FVec K)) (h : FitMatrix env fmat) :
    finRows (valueRows fmat) = fmat ∧ IsMatrix env.numObj (valueRows fmat) ∧ (valueRows fmat).length = fmat.length := by
  refine ⟨?_, ?_, by simp [valueRows]⟩
  · unfold finRows valueRows
    rw [List.map_map]
    conv_rhs => rw [← List.map_id fmat]
    apply List.map_congr_left
    intro r hr
    obtain ⟨x, rfl⟩ := h.2 r hr
    simp [hf, Function.comp_def]
  · intro r hr
    obtain ⟨r0, h0, rfl⟩ := List.mem_map.mp hr
    simpa using h.1 r0 h0

/-- The non-dominated members of a selection, as positions in the selected rows. -/
theorem optimal_of_positions {all fmat' : List (FVec K)} {sel opt : List Nat} (hat : AtPositions all sel fmat')
    (h8 : ∀ p, p ∈ opt ↔ ∃ i, sel[p]? = some i ∧ ∀ j ∈ sel, ¬ RowDominates all j i) :
    ∀ p, p ∈ opt ↔ p < fmat'.length ∧ ∀ q, q < fmat'.length → ¬ RowDominates fmat' q p := by
  have hlen : fmat'.length = sel.length := (atPositions_length hat).symm
  have hget : ∀ (p i : Nat), sel[p]? = some i → fmat'[p]? = all[i]? := by
    intro p i hp
    have := congrArg (fun l : List (Option (FVec K)) => l[p]?) hat
    simp only [List.getElem?_map, hp, Option.map_some] at this
    cases hq : fmat'[p]? with
    | none => rw [hq] at this; cases this
    | some y => rw [hq] at this; exact (Option.some.inj this).symm
  have hdom : ∀ (p q i j : Nat), sel[p]? = some i → sel[q]? = some j → (RowDominates fmat' q p ↔ RowDominates all j i) := by
    intro p q i j hp hq
    unfold RowDominates
    simp only [List.getD_eq_getElem?_getD, hget p i hp, hget q j hq]
  intro p
  rw [h8, hlen]
  constructor
  · rintro ⟨i, hi, hn⟩
    refine ⟨(List.getElem?_eq_some_iff.mp hi).1, fun q hq hd => ?_⟩
    exact hn sel[q] (List.getElem_mem hq) ((hdom p q i _ hi (List.getElem?_eq_getElem hq)).mp hd)
  · rintro ⟨hp, hn⟩
    refine ⟨sel[p], List.getElem?_eq_getElem hp, fun j hj hd => ?_⟩
    obtain ⟨q, hq⟩ := List.getElem?_of_mem hj
    exact hn q (List.getElem?_eq_some_iff.mp hq).1 ((hdom p q _ _ (List.getElem?_eq_getElem hp) hq).mpr hd)

/-- NSGA-II meets the contract. -/
theorem UsesNsga2.contract {env : GaEnv G K (Nsga2 K) S V} {f : List G → List K} {sort : SortFn} {argsort : FMat K → List Nat} {eps : K} {draw1 draw2 : Nat → Nat → Nat} (h : UsesNsga2 env f sort argsort eps draw1 draw2) :
    AlgContract env (Nsga2Fits env.popSize) (Nsga2Fits env.popSize) where
  init := by
    intro fmat hl hm
    obtain ⟨e1, e2, e3⟩ := valueRows_fin h.finite fmat hm
    obtain ⟨els, hels, hnd⟩ : ∃ els, nonDominatedSort argsort fmat = els ∧ IsNdSort (RowDominates fmat) fmat.length els := ⟨_, rfl, nonDominatedSort_ok h.argsortOk hm.1⟩
    have hpos := h.positive
    obtain ⟨s, hs, h1, h2, h3, -⟩ := C31_initialize sort h.sortOk eps env.numObj (valueRows fmat) e2 (by intro hc; rw [hc] at e3; simp at e3; omega) els (by rw [e1, e3]; exact hnd)
    rw [h.init, hels, hs, Option.getD_some]
    rw [e1, e3] at h3
    obtain ⟨hc1, hc2⟩ := C48_find_indices (fun r => r == 0) s.ranks
    refine ⟨by rw [h1, e3, hl], by rw [h2, e3, hl], (hc1.imp (fun h => Nat.ne_of_lt h)), ?_⟩
    intro i
    unfold Nsga2.optimal
    rw [hc2]
    constructor
    · rintro ⟨r, hr, h0⟩
      rw [beq_iff_eq] at h0
      subst h0
      obtain ⟨k1, k2⟩ := (h3 i 0).mp hr
      exact ⟨k1, fun j hj hd => k2 ⟨k1, j, hj, hd⟩⟩
    · rintro ⟨hi, hn⟩
      refine ⟨0, (h3 i 0).mpr ⟨hi, ?_⟩, rfl⟩
      rintro ⟨-, j, hj, hd⟩
      exact hn j hj hd
  prepare := by
    intro a fmat _ _ hI
    rw [h.prepare]; exact hI
  select := by
    intro a fmat g k hl hm hJ
    rw [h.select]
    obtain ⟨d1, d2⟩ := h.draws g k
    obtain ⟨j1, j2, -⟩ := hJ
    obtain ⟨x, hx, hxe, -⟩ := C31_selection a (draw1 g k) (draw2 g k) _ _ _ _ (List.getElem?_eq_getElem (by omega)) (List.getElem?_eq_getElem (by omega)) (List.getElem?_eq_getElem (by omega))
      (List.getElem?_eq_getElem (by omega))
    rw [hx]
    rcases hxe with rfl | rfl
    · exact d1
    · exact d2
  next := by
    intro a all g hl hm _
    obtain ⟨e1, e2, e3⟩ := valueRows_fin h.finite all hm
    obtain ⟨els, hels, hnd⟩ : ∃ els, nonDominatedSort argsort all = els ∧ IsNdSort (RowDominates all) all.length els := ⟨_, rfl, nonDominatedSort_ok h.argsortOk hm.1⟩
    have hels' : IsNdSort (RowDominates (finRows (valueRows all))) (valueRows all).length els := by rw [e1, e3]; exact hnd
    obtain ⟨sel, s, h1, h2, -, -, h5, h6, -⟩ := C31_replacement sort h.sortOk eps env.numObj (valueRows all) e2 els hels' env.popSize h.positive (by rw [e3, hl]; omega)
    obtain ⟨sel', s', h1', h7, h8⟩ := C31_optimal_solutions sort h.sortOk eps env.numObj (valueRows all) e2 els hels' env.popSize h.positive (by rw [e3, hl]; omega)
    rw [h1] at h1'
    obtain ⟨rfl, rfl⟩ := Prod.mk.inj (Option.some.inj h1')
    rw [h.next, hels, h1, Option.getD_some]
    rw [e1] at h8
    rw [e3, hl] at h2
    refine ⟨h2, ?_⟩
    intro fmat' hat
    exact ⟨h5, h6, h7.imp (fun h => Nat.ne_of_lt h), optimal_of_positions hat h8⟩

theorem UsesNsga2.optimalContract {env : GaEnv G K (Nsga2 K) S V} {f : List G → List K} {sort : SortFn} {argsort : FMat K → List Nat} {eps : K} {draw1 draw2 : Nat → Nat → Nat} (h : UsesNsga2 env f sort argsort eps draw1 draw2) :
    OptimalContract env (Nsga2Fits env.popSize) := by
  intro a fmat _ _ hI
  rw [h.optimal]
  exact Or.inr hI.2.2

/-- C23, C31: a run with NSGA-II. Every run ends; the population of every generation has the right size and the candidates have their fitness; the returned solutions have different chromosomes
and are the non-dominated ones of the last population. -/
theorem C31_run {env : GaEnv G K (Nsga2 K) S V} {f : List G → List K} {sort : SortFn} {argsort : FMat K → List Nat} {eps : K} {draw1 draw2 : Nat → Nat → Nat} (h : UsesNsga2 env f sort argsort eps draw1 draw2)
    (hexact : env.eq = exactEq) (hlen : ∀ x, (f x).length = env.numObj) (hdyn : env.dynamic = true → env.cachedGens = 0) (prev : GaState G (FVec K) (Nsga2 K) V) (hprev : ∃ d, prev.cache.Repr d)
    (initial : List (Cand G (FVec K))) (hinit : ∀ c ∈ initial, c.evaluated = false)
    (hes : ∀ g i, i < env.popSize → 3 ≤ (env.evalSched g).count i) (hms : ∀ g l r i, i < max l r → 2 * min l r ≤ (env.mergeSched g l r).count i) (htol : env.tol = ⟨0, 0⟩)
    (hsort : SortSolsOk env) (hkeep : env.keepAll = false) :
    ∃ final, gaSolve env prev initial = some final ∧ final.pop.length = env.popSize ∧ (final.sols.map (·.chrom)).Nodup ∧ OptimalAmong env.fitness (· ∈ final.pop) final.sols := by
  have he : ExactRun env prev initial (Nsga2Fits env.popSize) (Nsga2Fits env.popSize) :=
    ⟨h.contract, hexact, fun x => by rw [h.finite]; simpa using hlen x, hdyn, fun c hc hev => (by rw [hinit c hc] at hev; cases hev), hprev⟩
  have hc : CompleteRun env (Nsga2Fits env.popSize) := ⟨hes, hms, htol, h.optimalContract, hsort⟩
  obtain ⟨final, hf⟩ := C24_ends he hc
  obtain ⟨k, _, sts, t1, _, _, _, _, _, e2, _⟩ := C24_stops he final hf
  obtain ⟨s1, s2⟩ := C23_solutions_last_population he hc hkeep final hf
  refine ⟨final, hf, ?_, s1, s2⟩
  rw [e2]
  exact (C22_population_invariant_partial he k _ (t1 k (Nat.le_refl _))).1
end

/-! ## NSGA-III -/

section
variable {G K S V : Type} [LinearOrder G] [Field K] [LinearOrder K] [IsStrictOrderedRing K]

/-- The run uses NSGA-III. The fitness values are finite. `sort` and `argsort` are `std::sort`; `draw1` and `draw2` are the random indices of the tournaments, `coin` the random bits of the comparisons and
`pick` the random choices of the niching. `old` is the state that an earlier run has left. -/
structure UsesNsga3 (env : GaEnv G K (Nsga3 K) S V) (f : List G → List K) (refLines : List (List K)) (old : Nsga3 K) (sort : SortNat) (argsort : FMat K → List Nat) (pick : Nat → Nat → Nat → Nat)
    (coin : Nat → Nat → Bool) (draw1 draw2 : Nat → Nat → Nat) : Prop where
  finite : ∀ x, env.fitness x = (f x).map Flt.fin
  positive : 0 < env.popSize
  objectives : 0 < env.numObj
  lines : IsMatrix env.numObj refLines
  linesNonempty : refLines ≠ []
  init : ∀ fmat, env.algInit fmat = (nsga3Init refLines old.nadir old.info old.nicheCounts (valueRows fmat) (nonDominatedSort argsort fmat)).getD old
  prepare : ∀ a fmat, env.algPrepare a fmat = a
  select : ∀ a fmat g k, env.algSelect a fmat g k = (a.select (coin g k) (draw1 g k) (draw2 g k)).getD env.popSize
  next : ∀ a fmat g, env.algNext a fmat g = (nsga3Next sort (pick g) a (valueRows fmat) (nonDominatedSort argsort fmat) env.popSize).getD ([], a)
  optimal : ∀ a, env.algOptimal a = a.optimal
  sortOk : SortNatContract sort
  argsortOk : ArgsortOk env.numObj argsort
  picks : ∀ g i n, 0 < n → pick g i n < n
  draws : ∀ g k, draw1 g k < env.popSize ∧ draw2 g k < env.popSize

/-- The state of NSGA-III fits the fitness matrix of the population. -/
def Nsga3Fits (popSize m : Nat) (a : Nsga3 K) (fmat : List (FVec K)) : Prop :=
  Nsga3Ok m a ∧ a.info.length = popSize ∧ IsParetoFront (RowDominates fmat) fmat.length a.optimal

/-- NSGA-III meets the contract. -/
theorem UsesNsga3.contract {env : GaEnv G K (Nsga3 K) S V} {f : List G → List K} {refLines : List (List K)} {old : Nsga3 K} {sort : SortNat} {argsort : FMat K → List Nat}
    {pick : Nat → Nat → Nat → Nat} {coin : Nat → Nat → Bool} {draw1 draw2 : Nat → Nat → Nat} (h : UsesNsga3 env f refLines old sort argsort pick coin draw1 draw2) :
    AlgContract env (Nsga3Fits env.popSize env.numObj) (Nsga3Fits env.popSize env.numObj) where
  init := by
    intro fmat hl hm
    obtain ⟨e1, e2, e3⟩ := valueRows_fin h.finite fmat hm
    have hnd := nonDominatedSort_ok h.argsortOk hm.1
    have hpos := h.positive
    obtain ⟨s, hs, h1, -, h2, h3, -⟩ := C32_initialize env.numObj h.objectives refLines h.lines h.linesNonempty old.nadir old.info old.nicheCounts (valueRows fmat) e2
      (by intro hc; rw [hc] at e3; simp at e3; omega) (nonDominatedSort argsort fmat) (by rw [e1, e3]; exact hnd)
    rw [h.init, hs, Option.getD_some]
    rw [e1, e3] at h3
    obtain ⟨hc1, hc2⟩ := C48_find_indices (fun c : CandInfo K => c.rank == 0) s.info
    refine ⟨h1, by rw [h2, e3, hl], hc1.imp (fun h => Nat.ne_of_lt h), ?_⟩
    intro i
    unfold Nsga3.optimal
    rw [hc2]
    constructor
    · rintro ⟨c, hr, h0⟩
      rw [beq_iff_eq] at h0
      obtain ⟨⟨k1, k2⟩, -⟩ := h3 i c hr
      rw [h0] at k1 k2
      exact ⟨k1, fun j hj hd => k2 ⟨k1, j, hj, hd⟩⟩
    · rintro ⟨hi, hn⟩
      have hi' : i < s.info.length := by rw [h2, e3]; exact hi
      refine ⟨s.info[i], List.getElem?_eq_getElem hi', ?_⟩
      obtain ⟨hr, -⟩ := h3 i _ (List.getElem?_eq_getElem hi')
      have h0 : HasRank (RowDominates fmat) fmat.length 0 i := ⟨hi, by rintro ⟨-, j, hj, hd⟩; exact hn j hj hd⟩
      simpa using hasRank_unique hr h0
  prepare := by
    intro a fmat _ _ hI
    rw [h.prepare]; exact hI
  select := by
    intro a fmat g k hl hm hJ
    rw [h.select]
    obtain ⟨d1, d2⟩ := h.draws g k
    obtain ⟨-, j1, -⟩ := hJ
    obtain ⟨x, c, d, hx, hxe, -⟩ := C32_selection a (coin g k) (draw1 g k) (draw2 g k) _ _ (List.getElem?_eq_getElem (by omega)) (List.getElem?_eq_getElem (by omega))
    rw [hx]
    rcases hxe with ⟨rfl, -⟩ | ⟨rfl, -⟩
    · exact d1
    · exact d2
  next := by
    intro a all g hl hm hJ
    have hpos := h.positive
    obtain ⟨e1, e2, e3⟩ := valueRows_fin h.finite all hm
    have hnd := nonDominatedSort_ok h.argsortOk hm.1
    have hels' : IsNdSort (RowDominates (finRows (valueRows all))) (valueRows all).length (nonDominatedSort argsort all) := by rw [e1, e3]; exact hnd
    obtain ⟨sel, s, h1, h2, -, h5, -, h6, -⟩ := C32_replacement sort h.sortOk (pick g) (h.picks g) env.numObj h.objectives a hJ.1 (valueRows all) e2 _ hels' env.popSize h.positive
      (by rw [e3, hl]; omega)
    obtain ⟨sel', s', h1', h7, h8⟩ := C32_optimal_solutions sort h.sortOk (pick g) (h.picks g) env.numObj h.objectives a hJ.1 (valueRows all) e2 _ hels' env.popSize h.positive
      (by rw [e3, hl]; omega)
    rw [h1] at h1'
    obtain ⟨rfl, rfl⟩ := Prod.mk.inj (Option.some.inj h1')
    rw [h.next, h1, Option.getD_some]
    rw [e1] at h8
    rw [e3, hl] at h2
    refine ⟨h2, ?_⟩
    intro fmat' hat
    exact ⟨h6, h5, h7.imp (fun h => Nat.ne_of_lt h), optimal_of_positions hat h8⟩

theorem UsesNsga3.optimalContract {env : GaEnv G K (Nsga3 K) S V} {f : List G → List K} {refLines : List (List K)} {old : Nsga3 K} {sort : SortNat} {argsort : FMat K → List Nat}
    {pick : Nat → Nat → Nat → Nat} {coin : Nat → Nat → Bool} {draw1 draw2 : Nat → Nat → Nat} (h : UsesNsga3 env f refLines old sort argsort pick coin draw1 draw2) :
    OptimalContract env (Nsga3Fits env.popSize env.numObj) := by
  intro a fmat _ _ hI
  rw [h.optimal]
  exact Or.inr hI.2.2

/-- C23, C32: a run with NSGA-III. Every run ends; the population has the right size; the returned solutions have different chromosomes and are the non-dominated ones of the last population. -/
theorem C32_run {env : GaEnv G K (Nsga3 K) S V} {f : List G → List K} {refLines : List (List K)} {old : Nsga3 K} {sort : SortNat} {argsort : FMat K → List Nat}
    {pick : Nat → Nat → Nat → Nat} {coin : Nat → Nat → Bool} {draw1 draw2 : Nat → Nat → Nat} (h : UsesNsga3 env f refLines old sort argsort pick coin draw1 draw2)
    (hexact : env.eq = exactEq) (hlen : ∀ x, (f x).length = env.numObj) (hdyn : env.dynamic = true → env.cachedGens = 0) (prev : GaState G (FVec K) (Nsga3 K) V) (hprev : ∃ d, prev.cache.Repr d)
    (initial : List (Cand G (FVec K))) (hinit : ∀ c ∈ initial, c.evaluated = false)
    (hes : ∀ g i, i < env.popSize → 3 ≤ (env.evalSched g).count i) (hms : ∀ g l r i, i < max l r → 2 * min l r ≤ (env.mergeSched g l r).count i) (htol : env.tol = ⟨0, 0⟩)
    (hsort : SortSolsOk env) (hkeep : env.keepAll = false) :
    ∃ final, gaSolve env prev initial = some final ∧ final.pop.length = env.popSize ∧ (final.sols.map (·.chrom)).Nodup ∧ OptimalAmong env.fitness (· ∈ final.pop) final.sols := by
  have he : ExactRun env prev initial (Nsga3Fits env.popSize env.numObj) (Nsga3Fits env.popSize env.numObj) :=
    ⟨h.contract, hexact, fun x => by rw [h.finite]; simpa using hlen x, hdyn, fun c hc hev => (by rw [hinit c hc] at hev; cases hev), hprev⟩
  have hc : CompleteRun env (Nsga3Fits env.popSize env.numObj) := ⟨hes, hms, htol, h.optimalContract, hsort⟩
  obtain ⟨final, hf⟩ := C24_ends he hc
  obtain ⟨k, _, sts, t1, _, _, _, _, _, e2, _⟩ := C24_stops he final hf
  obtain ⟨s1, s2⟩ := C23_solutions_last_population he hc hkeep final hf
  refine ⟨final, hf, ?_, s1, s2⟩
  rw [e2]
  exact (C22_population_invariant_partial he k _ (t1 k (Nat.le_refl _))).1
end

/-! ## Single-objective algorithms -/

section
variable {G K A S V : Type} [DecidableEq G] [CommRing K] [LinearOrder K] [IsStrictOrderedRing K]

/-- The run has one objective, a replacement policy that is `Elitism(n)` with `n >= 1` or `KeepBest`, and a selection that returns positions in the population (see C29). -/
structure UsesElitism (env : GaEnv G K A S V) : Prop where
  single : env.numObj = 1
  positive : 0 < env.popSize
  tol : env.tol = ⟨0, 0⟩
  select : ∀ a fmat g k, fmat.length = env.popSize → IsMatrix 1 fmat → env.algSelect (env.algPrepare a fmat) fmat g k < env.popSize
  replace : ∀ a all g, all.length = 2 * env.popSize → IsMatrix 1 all →
    (∃ n, 1 ≤ n ∧ ElitismResult (⟨0, 0⟩ : Tol K) n env.popSize all (env.algNext a all g).1) ∨ KeepBestResult (⟨0, 0⟩ : Tol K) env.popSize all (env.algNext a all g).1
  /-- single-objective algorithms leave the optimal solutions to the library (algorithm_base.hpp) -/
  optimal : ∀ a, env.algOptimal a = []

theorem UsesElitism.contract {env : GaEnv G K A S V} (h : UsesElitism env) : AlgContract env (fun _ _ => True) (fun a fmat => ∃ a0, a = env.algPrepare a0 fmat) where
  init := fun _ _ _ => trivial
  prepare := fun a _ _ _ _ => ⟨a, rfl⟩
  select := by
    rintro _ fmat g k hl hm ⟨a0, rfl⟩
    exact h.select a0 fmat g k hl (by rw [← h.single]; exact hm.1)
  next := by
    intro a all g hl hm _
    refine ⟨?_, fun _ _ => trivial⟩
    rw [← hl]
    rcases h.replace a all g hl (by rw [← h.single]; exact hm.1) with ⟨n, -, hr⟩ | hr
    · exact C30_elitism_legal _ n _ _ _ hr
    · exact C30_keep_best_legal _ _ _ _ hr

/-- **C30** for whole runs: with elitism and exact comparison, no generation loses the best fitness that was found. For every candidate of an earlier population there is one in the later population
that is at least as good. -/
theorem C30_run_best_never_decreases_partial {env : GaEnv G K A S V} (h : UsesElitism env) (hexact : env.eq = exactEq) (hlen : ∀ x, (env.fitness x).length = 1)
    (hdyn : env.dynamic = true → env.cachedGens = 0) (prev : GaState G (FVec K) A V) (hprev : ∃ d, prev.cache.Repr d)
    (initial : List (Cand G (FVec K))) (hinit : ∀ c ∈ initial, c.evaluated = false) (m n : Nat) (hmn : m ≤ n) (a b : GaState G (FVec K) A V)
    (ha : gaGens env prev initial m = some a) (hb : gaGens env prev initial n = some b) (c : Cand G (FVec K)) (hc : c ∈ a.pop) :
    ∃ c' ∈ b.pop, ∃ x y, c.fitness = [x] ∧ c'.fitness = [y] ∧ x ≤ y := by
  have he : ExactRun env prev initial (fun _ _ => True) (fun a fmat => ∃ a0, a = env.algPrepare a0 fmat) :=
    ⟨h.contract, hexact, fun x => by rw [h.single]; exact hlen x, hdyn, fun c hc hev => (by rw [hinit c hc] at hev; cases hev), hprev⟩
  have hone : ∀ i st, gaGens env prev initial i = some st → ∀ c ∈ st.pop, ∃ x, c.fitness = [x] := by
    intro i st hst c hc
    have := ((C22_population_invariant_partial he i st hst).2.1 c hc).2
    have hl := hlen c.chrom
    rw [← this] at hl
    exact List.length_eq_one_iff.mp hl
  induction n, hmn using Nat.le_induction generalizing b with
  | base =>
    rw [ha] at hb
    obtain rfl := Option.some.inj hb
    obtain ⟨x, hx⟩ := hone m a ha c hc
    exact ⟨c, hc, x, x, hx, hx, le_rfl⟩
  | succ n hmn ih =>
    have hb' := hb
    rw [gaGens_succ, Option.bind_eq_some_iff] at hb
    obtain ⟨st, hst, hadv⟩ := hb
    obtain ⟨c1, hc1, x, y, hx, hy, hxy⟩ := ih st hst
    have inv := (gaGens_inv env prev initial _ _ _ he.runOk n st hst).1
    obtain ⟨inv', children, ec, hch, hcl, hev, ⟨idx, rfl, -, hat⟩, -⟩ := advance_spec env _ _ _ he.alg he.runOk.eqOk he.runOk.fitOk he.dynCache he.runOk.lenOk st b inv hadv
    obtain ⟨children', hch', -, -, hrest⟩ := advance_steps env _ _ _ he.alg he.runOk.eqOk he.runOk.fitOk he.dynCache he.runOk.lenOk st inv
    rw [hch] at hch'
    obtain rfl := Option.some.inj hch'
    obtain ⟨hecl, hece, -⟩ := hrest _ _ hev
    dsimp only at hecl hece
    have hecf : ∀ c ∈ st.pop ++ ec, c.fitness.length = 1 := by
      intro c hc
      rcases List.mem_append.mp hc with hc | hc
      · obtain ⟨z, hz⟩ := hone n st hst c hc
        rw [hz]; rfl
      · rw [(hece c hc).2]; exact hlen _
    have hmat : IsMatrix 1 ((st.pop ++ ec).map (·.fitness)) := by
      intro r hr
      obtain ⟨c, hc, rfl⟩ := List.mem_map.mp hr
      exact hecf c hc
    have hnp : ∀ R : FMat K → List Nat → Prop, R ((st.pop ++ ec).map (·.fitness)) (env.algNext (env.algPrepare st.alg st.fmat) ((st.pop ++ ec).map (·.fitness)) (st.gen + 1)).1 →
        NextPopulation R (st.pop.map (·.fitness)) (b.pop.map (·.fitness)) := by
      intro R hR
      refine ⟨ec.map (·.fitness), _, by simp [hecl, inv.size], by rw [← List.map_append]; exact hR, ?_⟩
      rw [← List.map_append]
      have := congrArg (fun l : List (Option (Cand G (FVec K))) => l.map (fun o => o.map (·.fitness))) hat
      simp only [List.map_map] at this
      unfold AtPositions
      rw [List.map_map]
      refine Eq.trans ?_ (this.trans rfl)
      apply List.map_congr_left; intro i _; rw [List.getElem?_map]; rfl
    have hbest : ∃ r ∈ b.pop.map (·.fitness), ∀ p ∈ st.pop.map (·.fitness), paretoCompareLess (⟨0, 0⟩ : Tol K) r p = false := by
      rcases h.replace (env.algPrepare st.alg st.fmat) _ (st.gen + 1) (by simp [hecl, inv.size]; omega) hmat with ⟨k, hk, hr⟩ | hr
      · exact elitism_step ⟨le_rfl, le_rfl⟩ k env.popSize hk h.positive _ _ (by simpa using inv.size) (hnp _ hr)
      · exact keepBest_step ⟨le_rfl, le_rfl⟩ env.popSize h.positive _ _ (by simpa using inv.size) (hnp _ hr)
    obtain ⟨r, hr, hall⟩ := hbest
    obtain ⟨c2, hc2, rfl⟩ := List.mem_map.mp hr
    obtain ⟨z, hz⟩ := hone (n + 1) b hb' c2 hc2
    refine ⟨c2, hc2, x, z, hx, hz, le_trans hxy ?_⟩
    have := hall [y] (List.mem_map.mpr ⟨c1, hc1, hy⟩)
    rw [hz, less_single, decide_eq_false_iff_not] at this
    exact not_lt.mp this
end

/-! ## Examples -/

/-- A sort of the rows in the descending lexicographic order. -/
def lexArgsort {K : Type} [LinearOrder K] (fmat : FMat K) : List Nat := (List.range fmat.length).insertionSort (fun i j => fmat.getD j [] ≤ fmat.getD i [])

theorem lexGreater_iff {K : Type} [LinearOrder K] (a b : FVec K) (h : a.length = b.length) : lexGreater a b = true ↔ b < a := by
  induction a generalizing b with
  | nil => obtain rfl := List.length_eq_zero_iff.mp h.symm; simp [lexGreater]
  | cons x as ih =>
    cases b with
    | nil => simp at h
    | cons y bs =>
      unfold lexGreater
      rw [List.cons_lt_cons_iff]
      by_cases hxy : x = y
      · subst hxy
        simp [ih bs (by simpa using h)]
      · rw [if_pos hxy]
        simp [Ne.symm hxy]

theorem lexArgsort_ok {K : Type} [LinearOrder K] (m : Nat) : ArgsortOk m (lexArgsort (K := K)) := by
  intro fmat hm
  refine ⟨List.perm_insertionSort _ _, ?_⟩
  have ht : IsTrans Nat (fun i j => fmat.getD j [] ≤ fmat.getD i []) := ⟨fun _ _ _ h1 h2 => le_trans h2 h1⟩
  have htot : Std.Total (fun i j : Nat => fmat.getD j [] ≤ fmat.getD i []) := ⟨fun a b => le_total _ _⟩
  have hp := List.pairwise_insertionSort (fun i j => fmat.getD j [] ≤ fmat.getD i []) (List.range fmat.length)
  have hlt : ∀ i ∈ lexArgsort fmat, (fmat.getD i []).length = m := by
    intro i hi
    have : i < fmat.length := by simpa using (List.perm_insertionSort _ _).mem_iff.mp hi
    rw [List.getD_eq_getElem?_getD, List.getElem?_eq_getElem this]
    exact hm _ (List.getElem_mem this)
  refine List.Pairwise.imp_of_mem ?_ hp
  intro i j hi hj hij
  unfold rowLexLess
  rw [← Bool.not_eq_true, lexGreater_iff _ _ (by rw [hlt i hi, hlt j hj])]
  exact not_lt.mpr hij

/-- A run with NSGA-II and integer genes. -/
def demoNsga2 : GaEnv ℤ ℚ (Nsga2 ℚ) Unit Unit where
  popSize := 3
  cachedGens := 0
  dynamic := false
  keepAll := false
  maxGen := 3
  tol := ⟨0, 0⟩
  fitness := fun x => ([(x.getD 0 0 : ℚ), - (x.getD 1 0 : ℚ)]).map Flt.fin
  numObj := 2
  eq := exactEq
  repair := none
  generate := fun k => [(k : ℤ) % 3, (k : ℤ) % 2]
  crossRate := 1
  crossDraw := fun _ _ => 0
  crossMethod := fun _ _ p q => (p, q)
  mutate := fun g k c => if k = 0 then (c.chrom.getD 0 0 + (g : ℤ)) :: c.chrom.drop 1 else c.chrom
  algInit := fun fmat => (Nsga2.init insertSort (1 / 100000000) 2 (valueRows fmat) (nonDominatedSort lexArgsort fmat)).getD ⟨[], []⟩
  algPrepare := fun a _ => a
  algSelect := fun a _ g k => (a.select ((g + k) % 3) (k % 3)).getD 3
  algNext := fun _ fmat _ => (nsga2Next insertSort (1 / 100000000) 2 (valueRows fmat) (nonDominatedSort lexArgsort fmat) 3).getD ([], ⟨[], []⟩)
  algOptimal := fun a => a.optimal
  stopInit := fun _ => ()
  stop := fun _ _ => ((), false)
  sortSols := fun l => l.insertionSort (fun a b => a.chrom ≤ b.chrom)
  evalSched := fun _ => [2, 1, 0, 0, 1, 0, 2, 1, 2]
  mergeSched := fun _ l r => (List.replicate (2 * min l r) (List.range (max l r))).flatten
  cacheExtra := 0

theorem demoNsga2_uses : UsesNsga2 demoNsga2 (fun x => [(x.getD 0 0 : ℚ), - (x.getD 1 0 : ℚ)]) insertSort lexArgsort (1 / 100000000) (fun g k => (g + k) % 3) (fun _ k => k % 3) where
  finite := fun _ => rfl
  positive := by decide
  init := fun _ => rfl
  prepare := fun _ _ => rfl
  select := fun _ _ _ _ => rfl
  next := fun _ _ _ => rfl
  optimal := fun _ => rfl
  sortOk := insertSort_contract
  argsortOk := lexArgsort_ok 2
  draws := fun _ _ => ⟨Nat.mod_lt _ (by decide), Nat.mod_lt _ (by decide)⟩

theorem insertionSort_sols {F : Type} (l : List (Cand ℤ F)) :
    (l.insertionSort (fun a b => a.chrom ≤ b.chrom)).Perm l ∧ (l.insertionSort (fun a b => a.chrom ≤ b.chrom)).Pairwise (fun a b => ¬ b.chrom < a.chrom) := by
  refine ⟨List.perm_insertionSort _ l, ?_⟩
  have ht : IsTrans (Cand ℤ F) (fun a b => a.chrom ≤ b.chrom) := ⟨fun _ _ _ h1 h2 => le_trans h1 h2⟩
  have htot : Std.Total (fun a b : Cand ℤ F => a.chrom ≤ b.chrom) := ⟨fun a b => le_total _ _⟩
  exact (List.pairwise_insertionSort (fun a b : Cand ℤ F => a.chrom ≤ b.chrom) l).imp (fun h => not_lt.mpr h)

example : ∃ final, gaSolve demoNsga2 ⟨[], [], [], FifoCache.init 0 0, 0, [], 0, ⟨[], []⟩, [], ⟨0, []⟩⟩ [] = some final ∧ final.pop.length = 3 := by
  obtain ⟨final, h1, h2, -⟩ := C31_run demoNsga2_uses rfl (fun _ => rfl) (fun h => by cases h) ⟨[], [], [], FifoCache.init 0 0, 0, [], 0, ⟨[], []⟩, [], ⟨0, []⟩⟩ ⟨_, FifoCache.repr_init 0 0⟩ [] (by simp)
    (fun _ i hi => by
      have hi : i < 3 := hi
      show 3 ≤ List.count i [2, 1, 0, 0, 1, 0, 2, 1, 2]
      match i, hi with
      | 0, _ => decide
      | 1, _ => decide
      | 2, _ => decide)
    (demo_complete false 0 4).mergeSched rfl insertionSort_sols rfl
  exact ⟨final, h1, h2⟩

/-- A run with NSGA-III and two objectives. -/
def demoNsga3 : GaEnv ℤ ℚ (Nsga3 ℚ) Unit Unit :=
  { demoNsga2 with
    algInit := fun fmat => (nsga3Init nsga3Lines [] [] [] (valueRows fmat) (nonDominatedSort lexArgsort fmat)).getD ⟨[], [], [], [], [], []⟩
    algPrepare := fun a _ => a
    algSelect := fun a _ g k => (a.select (decide (k = 0)) ((g + k) % 3) (k % 3)).getD 3
    algNext := fun a fmat _ => (nsga3Next insertSortNat (fun _ _ => 0) a (valueRows fmat) (nonDominatedSort lexArgsort fmat) 3).getD ([], a)
    algOptimal := fun a => a.optimal
    stopInit := fun _ => ()
    stop := fun _ _ => ((), false) }

theorem demoNsga3_uses : UsesNsga3 demoNsga3 (fun x => [(x.getD 0 0 : ℚ), - (x.getD 1 0 : ℚ)]) nsga3Lines ⟨[], [], [], [], [], []⟩ insertSortNat lexArgsort (fun _ _ _ => 0)
    (fun _ k => decide (k = 0)) (fun g k => (g + k) % 3) (fun _ k => k % 3) where
  finite := fun _ => rfl
  positive := by decide
  objectives := by decide
  lines := by unfold IsMatrix; decide +kernel
  linesNonempty := by simp [nsga3Lines]
  init := fun _ => rfl
  prepare := fun _ _ => rfl
  select := fun _ _ _ _ => rfl
  next := fun _ _ _ => rfl
  optimal := fun _ => rfl
  sortOk := insertSortNat_contract
  argsortOk := lexArgsort_ok 2
  picks := fun _ _ _ h => h
  draws := fun _ _ => ⟨Nat.mod_lt _ (by decide), Nat.mod_lt _ (by decide)⟩

example : ∃ final, gaSolve demoNsga3 ⟨[], [], [], FifoCache.init 0 0, 0, [], 0, ⟨[], [], [], [], [], []⟩, [], ⟨0, []⟩⟩ [] = some final ∧ final.pop.length = 3 := by
  obtain ⟨final, h1, h2, -⟩ := C32_run demoNsga3_uses rfl (fun _ => rfl) (fun h => by cases h) ⟨[], [], [], FifoCache.init 0 0, 0, [], 0, ⟨[], [], [], [], [], []⟩, [], ⟨0, []⟩⟩ ⟨_, FifoCache.repr_init 0 0⟩ [] (by simp)
    (fun _ i hi => by
      have hi : i < 3 := hi
      show 3 ≤ List.count i [2, 1, 0, 0, 1, 0, 2, 1, 2]
      match i, hi with
      | 0, _ => decide
      | 1, _ => decide
      | 2, _ => decide)
    (demo_complete false 0 4).mergeSched rfl insertionSort_sols rfl
  exact ⟨final, h1, h2⟩

/-- A run with one objective and `KeepBest`. -/
def demoElitism : GaEnv ℤ ℤ Unit Unit (FVec ℤ) :=
  { demoInt false 0 4 with
    fitness := fun x => [.fin (x.getD 0 0)]
    numObj := 1
    algNext := fun _ all _ => (((List.range all.length).insertionSort (fun i j => (all.getD j []).getD 0 .ninf ≤ (all.getD i []).getD 0 .ninf)).take 2, ()) }

example : (gaGens demoElitism (demoPrev ℤ) [] 0).map (fun st => st.pop.map (·.chrom)) = some [[1, 1], [2, 0]] ∧
    (gaGens demoElitism (demoPrev ℤ) [] 2).map (fun st => st.pop.map (·.chrom)) = some [[4, 0], [2, 0]] := by
  constructor <;> decide +kernel

theorem demoElitism_keeps (a : Unit) (all : List (FVec ℤ)) (g : Nat) (hl : all.length = 2 * demoElitism.popSize) (hm : IsMatrix 1 all) :
    KeepBestResult (⟨0, 0⟩ : Tol ℤ) demoElitism.popSize all (demoElitism.algNext a all g).1 := by
  have hl : all.length = 4 := hl
  refine ⟨by rw [hl]; decide, _, ?_, rfl⟩
  unfold IsPartialArgsortOf
  rw [if_pos (by rw [hl]; decide)]
  show IsSortOf _ _ _
  refine ⟨List.perm_insertionSort _ _, ?_⟩
  have ht : IsTrans Nat (fun i j => (all.getD j []).getD 0 Flt.ninf ≤ (all.getD i []).getD 0 Flt.ninf) := ⟨fun _ _ _ h1 h2 => le_trans h2 h1⟩
  have htot : Std.Total (fun i j : Nat => (all.getD j []).getD 0 Flt.ninf ≤ (all.getD i []).getD 0 Flt.ninf) := ⟨fun a b => le_total _ _⟩
  refine (List.pairwise_insertionSort (fun i j => (all.getD j []).getD 0 Flt.ninf ≤ (all.getD i []).getD 0 Flt.ninf) (List.range all.length)).imp ?_
  intro i j hij
  unfold compareAt
  split
  · rename_i x y hx hy
    obtain ⟨x', rfl⟩ := List.length_eq_one_iff.mp (hm x (List.mem_of_getElem? hx))
    obtain ⟨y', rfl⟩ := List.length_eq_one_iff.mp (hm y (List.mem_of_getElem? hy))
    simp only [List.getD_eq_getElem?_getD, hx, hy, Option.getD_some, List.getElem?_cons_zero] at hij
    rw [rowDescending, less_single, decide_eq_false_iff_not]
    exact not_lt.mpr hij
  · rfl

theorem demoElitism_uses : UsesElitism demoElitism where
  single := rfl
  positive := by decide
  tol := rfl
  select := fun _ _ _ k _ _ => Nat.mod_lt _ (by decide)
  replace := fun a all g hl hm => Or.inr (demoElitism_keeps a all g hl hm)
  optimal := fun _ => rfl

end Gapp.Props
