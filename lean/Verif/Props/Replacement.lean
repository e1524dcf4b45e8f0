import Verif.Model.Selection
import Verif.Spec.ParetoFront
import Verif.Proofs.Float
import Verif.Props.Algorithm
/-!
# C30: replacement
-/

namespace Gapp.Props
open Gapp.Model Gapp.Spec

/-- A legal selection of the candidates of the next population: `popSize` different positions of the `total` candidates. -/
def LegalSelection (popSize total : Nat) (res : List Nat) : Prop := res.length = popSize ∧ res.Nodup ∧ ∀ i ∈ res, i < total

section
variable {K : Type} [CommRing K] [LinearOrder K] [IsStrictOrderedRing K]

/-- C30: `KeepChildren` selects exactly the first `popSize` children. -/
theorem C30_keep_children (popSize total : Nat) (h : 2 * popSize ≤ total) :
    LegalSelection popSize total (keepChildren popSize) ∧ ∀ i, i ∈ keepChildren popSize ↔ popSize ≤ i ∧ i < 2 * popSize := by
  refine ⟨⟨by simp [keepChildren], List.nodup_range', ?_⟩, ?_⟩
  · intro i hi
    simp only [keepChildren, List.mem_range'_1] at hi; omega
  · intro i
    simp only [keepChildren, List.mem_range'_1]; omega

/-- C30: `Elitism(n)` makes a legal selection. -/
theorem C30_elitism_legal (t : Tol K) (n popSize : Nat) (fmat : FMat K) (res : List Nat) (h : ElitismResult t n popSize fmat res) :
    LegalSelection popSize fmat.length res := by
  obtain ⟨hl, sorted, hs, rfl⟩ := h
  obtain ⟨hp, -⟩ := C48_partial_argsort _ _ _ _ _ hs
  have hlen : (fmat.take popSize).length = popSize := by rw [List.length_take]; omega
  rw [hlen] at hp
  have hsl : sorted.length = popSize := by simpa using hp.length_eq
  have hslt : ∀ i ∈ sorted, i < popSize := fun i hi => by simpa using hp.mem_iff.mp hi
  have hnd : sorted.Nodup := hp.nodup_iff.mpr List.nodup_range
  refine ⟨by simp [hsl], ?_, ?_⟩
  · rw [List.nodup_append]
    refine ⟨hnd.sublist (List.take_sublist _ _), List.nodup_range', ?_⟩
    intro a ha b hb
    have := hslt a (List.mem_of_mem_take ha)
    rw [List.mem_range'_1] at hb
    omega
  · intro i hi
    rcases List.mem_append.mp hi with hi | hi
    · have := hslt i (List.mem_of_mem_take hi); omega
    · rw [List.mem_range'_1] at hi; omega

/-- C30: `Elitism(n)` keeps `min n popSize` parents, and as many of the first children as there is room for; no parent that is not kept is better than a parent that is. -/
theorem C30_elitism_keeps_best (t : Tol K) (n popSize : Nat) (fmat : FMat K) (res : List Nat) (h : ElitismResult t n popSize fmat res) :
    (res.filter (fun i => decide (i < popSize))).length = min n popSize ∧
    (∀ i, popSize ≤ i → (i ∈ res ↔ i < popSize + (popSize - min n popSize))) ∧
    ∀ (i j : Nat) (ri rj : FVec K), i ∈ res → i < popSize → j < popSize → j ∉ res → fmat[i]? = some ri → fmat[j]? = some rj → paretoCompareLess t ri rj = false := by
  obtain ⟨hl, sorted, hs, rfl⟩ := h
  obtain ⟨hp, front, rest, hfront, hrest, -, -, hsep⟩ := C48_partial_argsort _ _ _ _ _ hs
  have hlen : (fmat.take popSize).length = popSize := by rw [List.length_take]; omega
  rw [hlen] at hp
  have hsl : sorted.length = popSize := by simpa using hp.length_eq
  have hslt : ∀ i ∈ sorted, i < popSize := fun i hi => by simpa using hp.mem_iff.mp hi
  refine ⟨?_, ?_, ?_⟩
  · rw [List.filter_append, List.filter_eq_self.mpr, List.filter_eq_nil_iff.mpr]
    · simp [hsl]
    · intro i hi; rw [List.mem_range'_1] at hi; simp; omega
    · intro i hi; simpa using hslt i (List.mem_of_mem_take hi)
  · intro i hi
    constructor
    · intro h
      rcases List.mem_append.mp h with h | h
      · have := hslt i (List.mem_of_mem_take h); omega
      · rw [List.mem_range'_1] at h; omega
    · intro h
      exact List.mem_append_right _ (by rw [List.mem_range'_1]; omega)
  · intro i j ri rj hi hilt hjlt hj hri hrj
    have hi' : i ∈ sorted.take (min n popSize) := by
      rcases List.mem_append.mp hi with h | h
      · exact h
      · rw [List.mem_range'_1] at h; omega
    have hj' : j ∈ sorted.drop (min n popSize) := by
      have h1 : j ∈ sorted := hp.mem_iff.mpr (by simpa using hjlt)
      rw [← List.take_append_drop (min n popSize) sorted] at h1
      rcases List.mem_append.mp h1 with h | h
      · exact absurd (List.mem_append_left _ h) hj
      · exact h
    have hri' : ri ∈ front := by
      have h1 : some ri ∈ front.map some := by
        rw [← (show _ = front.map some from hfront)]
        exact List.mem_map.mpr ⟨i, hi', by rw [List.getElem?_take_of_lt hilt]; exact hri⟩
      simpa using h1
    have hrj' : rj ∈ rest := by
      have h1 : some rj ∈ rest.map some := by
        rw [← (show _ = rest.map some from hrest)]
        exact List.mem_map.mpr ⟨j, hj', by rw [List.getElem?_take_of_lt hjlt]; exact hrj⟩
      simpa using h1
    exact hsep ri hri' rj hrj'

/-- C30: `KeepBest` makes a legal selection. -/
theorem C30_keep_best_legal (t : Tol K) (popSize : Nat) (fmat : FMat K) (res : List Nat) (h : KeepBestResult t popSize fmat res) :
    LegalSelection popSize fmat.length res := by
  obtain ⟨hl, sorted, hs, rfl⟩ := h
  obtain ⟨hp, -⟩ := C48_partial_argsort _ _ _ _ _ hs
  have hsl : sorted.length = fmat.length := by simpa using hp.length_eq
  refine ⟨by simp [hsl]; omega, (hp.nodup_iff.mpr List.nodup_range).sublist (List.take_sublist _ _), ?_⟩
  intro i hi
  simpa using hp.mem_iff.mp (List.mem_of_mem_take hi)

/-- C30: no candidate rejected by `KeepBest` is better than a selected one. -/
theorem C30_keep_best (t : Tol K) (popSize : Nat) (fmat : FMat K) (res : List Nat) (h : KeepBestResult t popSize fmat res) (i j : Nat) (ri rj : FVec K)
    (hi : i ∈ res) (hj : j ∉ res) (hri : fmat[i]? = some ri) (hrj : fmat[j]? = some rj) : paretoCompareLess t ri rj = false := by
  obtain ⟨hl, sorted, hs, rfl⟩ := h
  obtain ⟨hp, front, rest, hfront, hrest, -, -, hsep⟩ := C48_partial_argsort _ _ _ _ _ hs
  have hj' : j ∈ sorted.drop popSize := by
    have h1 : j ∈ sorted := hp.mem_iff.mpr (by simpa using (List.getElem?_eq_some_iff.mp hrj).1)
    rw [← List.take_append_drop popSize sorted] at h1
    rcases List.mem_append.mp h1 with h | h
    · exact absurd h hj
    · exact h
  have hri' : ri ∈ front := by
    have h1 : some ri ∈ front.map some := by
      rw [← (show _ = front.map some from hfront)]
      exact List.mem_map.mpr ⟨i, hi, hri⟩
    simpa using h1
  have hrj' : rj ∈ rest := by
    have h1 : some rj ∈ rest.map some := by
      rw [← (show _ = rest.map some from hrest)]
      exact List.mem_map.mpr ⟨j, hj', hrj⟩
    simpa using h1
  exact hsep ri hri' rj hrj'

/-! ## The best fitness -/

/-- One generation: the new population consists of the candidates selected from the parents and the children. -/
def NextPopulation (replacement : FMat K → List Nat → Prop) (parents next : FMat K) : Prop :=
  ∃ children res, children.length ≥ parents.length ∧ replacement (parents ++ children) res ∧ AtPositions (parents ++ children) res next

/-- The fitness values of a population with one objective. -/
def SingleObjective (popSize : Nat) (pop : FMat K) : Prop := pop.length = popSize ∧ ∀ r ∈ pop, r.length = 1

/-- A run: any number of generations. The children are arbitrary. -/
inductive Evolves (popSize : Nat) (replacement : FMat K → List Nat → Prop) : FMat K → FMat K → Prop
  | refl (pop) : Evolves popSize replacement pop pop
  | step (a b c) : Evolves popSize replacement a b → SingleObjective popSize c → NextPopulation replacement b c → Evolves popSize replacement a c

/-- A candidate with the greatest fitness of a non-empty list of candidates. -/
theorem exists_best (l : FMat K) (h : l ≠ []) (h1 : ∀ r ∈ l, r.length = 1) :
    ∃ x, [x] ∈ l ∧ ∀ y, [y] ∈ l → y ≤ x := by
  induction l with
  | nil => exact absurd rfl h
  | cons r l ih =>
    obtain ⟨y, rfl⟩ := List.length_eq_one_iff.mp (h1 r List.mem_cons_self)
    rcases l with _ | ⟨r', l⟩
    · exact ⟨y, by simp, by simp⟩
    · obtain ⟨x, hx, hmax⟩ := ih (by simp) (fun r hr => h1 r (List.mem_cons_of_mem _ hr))
      rcases le_total x y with hxy | hxy
      · refine ⟨y, List.mem_cons_self, ?_⟩
        intro z hz
        rcases List.mem_cons.mp hz with hz | hz
        · cases hz; exact le_rfl
        · exact le_trans (hmax z hz) hxy
      · refine ⟨x, List.mem_cons_of_mem _ hx, ?_⟩
        intro z hz
        rcases List.mem_cons.mp hz with hz | hz
        · cases hz; exact hxy
        · exact hmax z hz

theorem less_single (x y : Flt K) : paretoCompareLess (⟨0, 0⟩ : Tol K) [x] [y] = decide (x < y) := by
  rw [Bool.eq_iff_iff, paretoCompareLess_zero, decide_eq_true_eq]
  constructor
  · rintro ⟨-, i, h1, h2, h3⟩
    have hi : i = 0 := by simpa using h1
    subst hi
    exact h3
  · intro h
    refine ⟨?_, 0, by simp, by simp, h⟩
    intro i h1 h2
    have hi : i = 0 := by simpa using h1
    subst hi
    exact h.le

/-- One generation keeps the best fitness, if the first selected candidate is not less than a parent. -/
theorem best_step (t : Tol K) (popSize : Nat) (hpos : 0 < popSize) (replacement : FMat K → List Nat → Prop)
    (hfirst : ∀ fmat res, fmat.length ≥ 2 * popSize → replacement fmat res → ∃ i ri, i ∈ res ∧ fmat[i]? = some ri ∧
      ∀ j rj, j < popSize → fmat[j]? = some rj → paretoCompareLess t ri rj = false)
    (parents next : FMat K) (hlen : parents.length = popSize) (h : NextPopulation replacement parents next) :
    ∃ r ∈ next, ∀ p ∈ parents, paretoCompareLess t r p = false := by
  obtain ⟨children, res, hc, hr, hat⟩ := h
  obtain ⟨i, ri, hi, hri, hall⟩ := hfirst _ res (by simp; omega) hr
  refine ⟨ri, ?_, ?_⟩
  · have h1 : some ri ∈ next.map some := by
      rw [← (show _ = next.map some from hat)]
      exact List.mem_map.mpr ⟨i, hi, hri⟩
    simpa using h1
  · intro p hp
    obtain ⟨j, hj, rfl⟩ := List.getElem_of_mem hp
    exact hall j _ (by omega) (by rw [List.getElem?_append_left hj]; exact List.getElem?_eq_getElem hj)

theorem elitism_first (t : Tol K) (n popSize : Nat) (hn : 0 < n) (hpos : 0 < popSize) (fmat : FMat K) (res : List Nat) (hlen : fmat.length ≥ 2 * popSize)
    (h : ElitismResult t n popSize fmat res) :
    ∃ i ri, i ∈ res ∧ fmat[i]? = some ri ∧ ∀ j rj, j < popSize → fmat[j]? = some rj → paretoCompareLess t ri rj = false ∨ j = i := by
  obtain ⟨hl, sorted, hs, rfl⟩ := h
  obtain ⟨hp, front, rest, hfront, hrest, hperm, hsorted, hsep⟩ := C48_partial_argsort _ _ _ _ _ hs
  have hlen' : (fmat.take popSize).length = popSize := by rw [List.length_take]; omega
  rw [hlen'] at hp
  have hsl : sorted.length = popSize := by simpa using hp.length_eq
  obtain ⟨k, hk⟩ : ∃ k, min n popSize = k + 1 := ⟨min n popSize - 1, by omega⟩
  rw [hk] at hfront hrest ⊢
  rcases sorted with _ | ⟨i, sorted⟩
  · simp at hsl; omega
  have hi : i < popSize := by simpa using hp.mem_iff.mp List.mem_cons_self
  have hri : fmat[i]? = some fmat[i] := List.getElem?_eq_getElem (by omega)
  rcases front with _ | ⟨r, front⟩
  · simp [AtPositions] at hfront
  have hr : r = fmat[i] := by
    simp only [AtPositions, List.take_succ_cons, List.map_cons, List.cons.injEq] at hfront
    have := hfront.1
    rw [List.getElem?_take_of_lt hi, hri] at this
    exact (Option.some.inj this).symm
  refine ⟨i, fmat[i], by simp, hri, ?_⟩
  intro j rj hj hrj
  by_cases hji : j = i
  · exact Or.inr hji
  left
  have hjs : j ∈ i :: sorted := hp.mem_iff.mpr (by simpa using hj)
  rw [← List.take_append_drop (k + 1) (i :: sorted)] at hjs
  rcases List.mem_append.mp hjs with hjs | hjs
  · rw [List.take_succ_cons] at hjs
    rcases List.mem_cons.mp hjs with rfl | hjs
    · exact absurd rfl hji
    · have h1 : rj ∈ front := by
        have h2 : some rj ∈ front.map some := by
          simp only [AtPositions, List.take_succ_cons, List.map_cons, List.cons.injEq] at hfront
          rw [← hfront.2]
          exact List.mem_map.mpr ⟨j, hjs, by rw [List.getElem?_take_of_lt hj]; exact hrj⟩
        simpa using h2
      have := (List.pairwise_cons.mp hsorted).1 rj h1
      rw [← hr]; exact this
  · have h1 : rj ∈ rest := by
      have h2 : some rj ∈ rest.map some := by
        rw [← (show _ = rest.map some from hrest)]
        exact List.mem_map.mpr ⟨j, hjs, by rw [List.getElem?_take_of_lt hj]; exact hrj⟩
      simpa using h2
    have := hsep r List.mem_cons_self rj h1
    rw [← hr]; exact this

theorem keepBest_first (t : Tol K) (popSize : Nat) (hpos : 0 < popSize) (fmat : FMat K) (res : List Nat) (h : KeepBestResult t popSize fmat res) :
    ∃ i ri, i ∈ res ∧ fmat[i]? = some ri ∧ ∀ j rj, fmat[j]? = some rj → paretoCompareLess t ri rj = false ∨ j = i := by
  obtain ⟨hl, sorted, hs, rfl⟩ := h
  obtain ⟨hp, front, rest, hfront, hrest, hperm, hsorted, hsep⟩ := C48_partial_argsort _ _ _ _ _ hs
  have hsl : sorted.length = fmat.length := by simpa using hp.length_eq
  obtain ⟨k, rfl⟩ : ∃ k, popSize = k + 1 := ⟨popSize - 1, by omega⟩
  rcases sorted with _ | ⟨i, sorted⟩
  · simp at hsl; omega
  have hi : i < fmat.length := by simpa using hp.mem_iff.mp List.mem_cons_self
  have hri : fmat[i]? = some fmat[i] := List.getElem?_eq_getElem hi
  rcases front with _ | ⟨r, front⟩
  · simp [AtPositions] at hfront
  have hr : r = fmat[i] := by
    simp only [AtPositions, List.take_succ_cons, List.map_cons, List.cons.injEq] at hfront
    have := hfront.1
    rw [hri] at this
    exact (Option.some.inj this).symm
  refine ⟨i, fmat[i], by simp, hri, ?_⟩
  intro j rj hrj
  by_cases hji : j = i
  · exact Or.inr hji
  left
  have hjs : j ∈ i :: sorted := hp.mem_iff.mpr (by simpa using (List.getElem?_eq_some_iff.mp hrj).1)
  rw [← List.take_append_drop (k + 1) (i :: sorted)] at hjs
  rcases List.mem_append.mp hjs with hjs | hjs
  · rw [List.take_succ_cons] at hjs
    rcases List.mem_cons.mp hjs with rfl | hjs
    · exact absurd rfl hji
    · have h1 : rj ∈ front := by
        have h2 : some rj ∈ front.map some := by
          simp only [AtPositions, List.take_succ_cons, List.map_cons, List.cons.injEq] at hfront
          rw [← hfront.2]
          exact List.mem_map.mpr ⟨j, hjs, hrj⟩
        simpa using h2
      have := (List.pairwise_cons.mp hsorted).1 rj h1
      rw [← hr]; exact this
  · have h1 : rj ∈ rest := by
      have h2 : some rj ∈ rest.map some := by
        rw [← (show _ = rest.map some from hrest)]
        exact List.mem_map.mpr ⟨j, hjs, hrj⟩
      simpa using h2
    have := hsep r List.mem_cons_self rj h1
    rw [← hr]; exact this

/-- The best fitness never decreases over a run, given that it does not in one generation. -/
theorem evolves_best (popSize : Nat) (hpos : 0 < popSize) (replacement : FMat K → List Nat → Prop)
    (hstep : ∀ parents next : FMat K, parents.length = popSize → (∀ r ∈ parents, r.length = 1) → NextPopulation replacement parents next →
      ∃ r ∈ next, ∀ p ∈ parents, paretoCompareLess (⟨0, 0⟩ : Tol K) r p = false)
    (a b : FMat K) (ha : SingleObjective popSize a) (h : Evolves popSize replacement a b) :
    SingleObjective popSize b ∧ ∀ x, [x] ∈ a → ∃ y, [y] ∈ b ∧ x ≤ y := by
  induction h with
  | refl => exact ⟨ha, fun x hx => ⟨x, hx, le_rfl⟩⟩
  | step b c _ hc hn ih =>
    obtain ⟨hb, hab⟩ := ih
    refine ⟨hc, ?_⟩
    intro x hx
    obtain ⟨y, hy, hxy⟩ := hab x hx
    obtain ⟨r, hr, hall⟩ := hstep b c hb.1 hb.2 hn
    obtain ⟨z, rfl⟩ := List.length_eq_one_iff.mp (hc.2 r hr)
    refine ⟨z, hr, le_trans hxy ?_⟩
    have := hall [y] hy
    rw [less_single, decide_eq_false_iff_not] at this
    exact not_lt.mp this

theorem less_irrefl {t : Tol K} (ht : t.Valid) (a : FVec K) : paretoCompareLess t a a = false := by
  rw [Bool.eq_false_iff]
  intro hc
  rw [paretoCompareLess_iff] at hc
  obtain ⟨-, i, h1, h2, h3⟩ := hc
  cases hx : a[i] with
  | fin x =>
    rw [hx] at h3
    simp only [floatIsLessAssumeNotGreater, sub_self, gt_iff_lt, decide_eq_true_eq, Tol.lt_at] at h3
    exact absurd ht.abs_nonneg (not_le.mpr h3.2)
  | ninf => rw [hx] at h3; simp [floatIsLessAssumeNotGreater] at h3
  | pinf => rw [hx] at h3; simp [floatIsLessAssumeNotGreater] at h3

theorem elitism_step {t : Tol K} (ht : t.Valid) (n popSize : Nat) (hn : 1 ≤ n) (hpos : 0 < popSize) (parents next : FMat K) (hlen : parents.length = popSize)
    (h : NextPopulation (ElitismResult t n popSize) parents next) : ∃ r ∈ next, ∀ p ∈ parents, paretoCompareLess t r p = false := by
  refine best_step t popSize hpos _ ?_ parents next hlen h
  intro fmat res hl hr
  obtain ⟨i, ri, hi, hri, hall⟩ := elitism_first t n popSize hn hpos fmat res hl hr
  refine ⟨i, ri, hi, hri, ?_⟩
  intro j rj hj hrj
  rcases hall j rj hj hrj with h | rfl
  · exact h
  · rw [hri] at hrj; cases hrj
    exact less_irrefl ht ri

theorem keepBest_step {t : Tol K} (ht : t.Valid) (popSize : Nat) (hpos : 0 < popSize) (parents next : FMat K) (hlen : parents.length = popSize)
    (h : NextPopulation (KeepBestResult t popSize) parents next) : ∃ r ∈ next, ∀ p ∈ parents, paretoCompareLess t r p = false := by
  refine best_step t popSize hpos _ ?_ parents next hlen h
  intro fmat res hl hr
  obtain ⟨i, ri, hi, hri, hall⟩ := keepBest_first t popSize hpos fmat res hr
  refine ⟨i, ri, hi, hri, ?_⟩
  intro j rj hj hrj
  rcases hall j rj hrj with h | rfl
  · exact h
  · rw [hri] at hrj; cases hrj
    exact less_irrefl ht ri

/-- C30: with `Elitism(n)`, `n >= 1`, and exact comparison, the best fitness never decreases, over any number of generations: for every candidate of an earlier population
there is one in the later population that is at least as good. -/
theorem C30_elitism_best_never_decreases_partial (n popSize : Nat) (hn : 1 ≤ n) (hpos : 0 < popSize) (a b : FMat K) (ha : SingleObjective popSize a)
    (h : Evolves popSize (ElitismResult (⟨0, 0⟩ : Tol K) n popSize) a b) (x : Flt K) (hx : [x] ∈ a) : ∃ y, [y] ∈ b ∧ x ≤ y :=
  (evolves_best popSize hpos _ (fun p nx hl _ hnx => elitism_step ⟨le_rfl, le_rfl⟩ n popSize hn hpos p nx hl hnx) a b ha h).2 x hx

/-- C30: the same for `KeepBest`. -/
theorem C30_keep_best_never_decreases_partial (popSize : Nat) (hpos : 0 < popSize) (a b : FMat K) (ha : SingleObjective popSize a)
    (h : Evolves popSize (KeepBestResult (⟨0, 0⟩ : Tol K) popSize) a b) (x : Flt K) (hx : [x] ∈ a) : ∃ y, [y] ∈ b ∧ x ≤ y :=
  (evolves_best popSize hpos _ (fun p nx hl _ hnx => keepBest_step ⟨le_rfl, le_rfl⟩ popSize hpos p nx hl hnx) a b ha h).2 x hx

/-- C30: with tolerances, in one generation the best fitness does not decrease by more than the tolerance. -/
theorem C30_best_within_tolerance {t : Tol K} (ht : t.Valid) (n popSize : Nat) (hn : 1 ≤ n) (hpos : 0 < popSize) (parents next : FMat K)
    (hp : SingleObjective popSize parents) (hx : SingleObjective popSize next)
    (h : NextPopulation (ElitismResult t n popSize) parents next ∨ NextPopulation (KeepBestResult t popSize) parents next) :
    ∃ y, [y] ∈ next ∧ ∀ x, [x] ∈ parents → ¬ DefinitelyLess t y x := by
  obtain ⟨r, hr, hall⟩ : ∃ r ∈ next, ∀ p ∈ parents, paretoCompareLess t r p = false := by
    rcases h with h | h
    · exact elitism_step ht n popSize hn hpos parents next hp.1 h
    · exact keepBest_step ht popSize hpos parents next hp.1 h
  obtain ⟨y, rfl⟩ := List.length_eq_one_iff.mp (hx.2 r hr)
  refine ⟨y, hr, ?_⟩
  intro x hx' hless
  have hd : Dominates t [x] [y] := by
    refine ⟨?_, 0, by simp, by simp, hless⟩
    intro i h1 h2 hc
    have hi : i = 0 := by simpa using h1
    subst hi
    exact lt_asymm (definitelyLess_lt ht hless) (definitelyLess_lt ht hc)
  have := dominates_imp_less ht hd
  rw [hall [x] hx'] at this
  cases this
end

/-- C30 does not hold with tolerances: with an absolute tolerance of 1 the sort may put a child with a fitness of 4 before a parent with a fitness of 5. -/
theorem C30_tolerance_may_lose_best :
    NextPopulation (KeepBestResult (⟨1, 0⟩ : Tol ℤ) 1) [[.fin 5]] [[.fin 4]] := by
  refine ⟨[[.fin 4]], [1], by simp, ⟨by simp, [1, 0], ?_, by simp⟩, by simp [AtPositions]⟩
  rw [IsPartialArgsortOf, if_pos (by simp), IsArgsortOf, if_neg (by simp)]
  refine ⟨by decide, ?_⟩
  simp [compareAt, rowDescending, paretoCompareLess, floatIsLess, floatIsLessAssumeNotGreater, Tol.at]

example : ElitismResult (⟨0, 0⟩ : Tol ℤ) 1 2 [[.fin 3], [.fin 5], [.fin 4], [.fin 1]] [1, 2] := by
  refine ⟨by simp, [1, 0], ?_, by simp⟩
  rw [IsPartialArgsortOf, if_pos (by simp), IsArgsortOf, if_neg (by simp)]
  refine ⟨by decide, ?_⟩
  simp [compareAt, rowDescending, paretoCompareLess, floatIsLess, floatIsLessAssumeNotGreater, Tol.at]

end Gapp.Props
