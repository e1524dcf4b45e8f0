import Verif.Proofs.DoubleMulti
import Verif.Props.Nsga3
import Verif.Props.DoubleNsga2
/-!
# C86: infinite fitness values

"Whether infinite fitness values are allowed or not depends on the selection method used in the GA. The default methods used support both negative and infinite values"
(`/repo/docs/fitness-functions.md`). The default method of the multi-objective algorithms is NSGA-III. Here the fitness values are values of the type `double`.
-/

namespace Gapp.Props
open Gapp.Model Gapp.Spec Dbl

/-- **C86 (NSGA-III, every value).** Whatever the fitness values are (infinite or not even numbers), and whatever the dominance relation is by which the pool was sorted: the replacement
of NSGA-III has no undefined behaviour, the next population has `popSize` different members of the pool, a member is only kept if all the members of the strictly better fronts are kept,
the stored ranks are those of the selected members, and the state fits the objectives again. -/
theorem C86_nsga3_legal (fl : MultiFlags) (sort : SortNat) (hsort : SortNatContract sort) (pick : Nat → Nat → Nat) (hpick : ∀ i n, 0 < n → pick i n < n) (m : Nat) (hm0 : 0 < m)
    (s : Nsga3 Dbl) (hs : Nsga3Ok m s) (fmat : List (List Dbl)) (hm : IsMatrix m fmat) (dom : Nat → Nat → Prop) (els : List (Nat × Nat)) (hels : IsNdSort dom fmat.length els)
    (popSize : Nat) (h0 : 0 < popSize) (hlt : popSize < fmat.length) :
    ∃ sel s', nsga3NextD fl sort pick s fmat els popSize = some (sel, s') ∧ LegalSelection popSize fmat.length sel ∧
      (∀ i j r q, i ∈ sel → HasRank dom fmat.length r i → HasRank dom fmat.length q j → q < r → j ∈ sel) ∧
      s'.info.length = popSize ∧ (∀ (p i : Nat), sel[p]? = some i → ∃ c, s'.info[p]? = some c ∧ HasRank dom fmat.length c.rank i) ∧
      Nsga3Ok m s' ∧ s'.refLines = s.refLines := by
  obtain ⟨hp, hs', hr⟩ := hels
  obtain ⟨t, best, first, last, loop, loop', info, g1, g2, g3, g4, g5, -, -, -, g9, -, g10, g11, g12, g13, -, -, g14, g15, g16⟩ :=
    nsga3NextD_steps fl sort hsort pick hpick m hm0 s hs fmat hm els hp hs' popSize h0 hlt
  have hlen : els.length = fmat.length := by simpa using hp.length_eq
  set els' := loop'.els with hels'
  have g6 : els'.Perm els := g9.perm
  have g7 : els'.map (·.2) = els.map (·.2) := loop_ranks els _ hs' popSize h0 (by omega) first last g2 g9.perm g9.outside
  have hlen' : els'.length = fmat.length := by rw [g6.length_eq, hlen]
  have hnd : (els'.map (·.1)).Nodup := ((g6.map (·.1)).trans hp).nodup_iff.mpr List.nodup_range
  have hs'' : els'.Pairwise (fun a b => a.2 ≤ b.2) := by
    have : (els.map (·.2)).Pairwise (· ≤ ·) := List.pairwise_map.mpr hs'
    rw [← g7] at this
    exact List.pairwise_map.mp this
  have hrank : ∀ e ∈ els', HasRank dom fmat.length e.2 e.1 := fun e he => hr _ _ (g6.mem_iff.mp he)
  have hmem : ∀ i r, HasRank dom fmat.length r i → (i, r) ∈ els' := by
    intro i r h
    have hi : i < fmat.length := by
      have mono : ∀ k, Remaining dom fmat.length k i → i < fmat.length := by
        intro k
        induction k with
        | zero => exact id
        | succ k ih => exact fun h => ih h.1
      exact mono _ h.1
    have : i ∈ els'.map (·.1) := ((g6.map (·.1)).trans hp).mem_iff.mpr (by simpa using hi)
    obtain ⟨⟨i', s⟩, hm', rfl⟩ := List.mem_map.mp this
    rw [hasRank_unique h (hrank _ hm')]
    exact hm'
  have hsel : ∀ i r, HasRank dom fmat.length r i → (i ∈ (els'.take popSize).map (·.1) ↔ (i, r) ∈ els'.take popSize) := by
    intro i r h
    constructor
    · intro hi
      obtain ⟨⟨i', s⟩, hm', rfl⟩ := List.mem_map.mp hi
      rw [hasRank_unique h (hrank _ (List.mem_of_mem_take hm'))]
      exact hm'
    · intro hi
      exact List.mem_map.mpr ⟨(i, r), hi, rfl⟩
  refine ⟨_, _, g1, ⟨by rw [List.length_map, List.length_take]; omega, hnd.sublist ((List.take_sublist _ _).map _), ?_⟩, ?_, g15, ?_, ⟨g10.1, g10.2, ?_, g10.4, g10.5⟩, g11⟩
  · intro i hi
    obtain ⟨e, he, rfl⟩ := List.mem_map.mp hi
    have := ((g6.map (·.1)).trans hp).mem_iff.mp (List.mem_map.mpr ⟨e, List.mem_of_mem_take he, rfl⟩)
    simpa using this
  · intro i j r q hi hir hjq hqr
    rw [hsel i r hir] at hi
    rw [hsel j q hjq]
    by_contra hn
    have hb : (j, q) ∈ els'.drop popSize := by
      have he := hmem j q hjq
      rw [← List.take_append_drop popSize els', List.mem_append] at he
      exact he.resolve_left hn
    have := (List.pairwise_append.mp (by rw [List.take_append_drop]; exact hs'' : (els'.take popSize ++ els'.drop popSize).Pairwise (fun a b => a.2 ≤ b.2))).2.2 _ hi _ hb
    simp only at this
    omega
  · intro p i hpi
    rw [List.getElem?_map, Option.map_eq_some_iff] at hpi
    obtain ⟨e, he, rfl⟩ := hpi
    obtain ⟨hel, hei⟩ := g16 p e he
    obtain ⟨row, c, -, hc1, hc2, -⟩ := g14 e hel
    refine ⟨c, by rw [← hc1]; exact hei, ?_⟩
    rw [hc2]
    exact hrank e (List.mem_of_mem_take (List.mem_of_getElem? he))
  · show loop'.niche.length = _
    rw [g9.nicheLen, g11]

/-- **C86 (NSGA-III, violated).** If a value of some objective `j` in the pool is `+inf`, or was in an earlier generation (then the ideal point is `+inf`), then the reference lines and
the fitness values have no effect on the members that are kept of the split front: the next population always has the first `popSize` members in the order in which the non-dominated
sort returned them. Each of them is associated with the first reference line, and its distance from it is not a number. The ideal point stays infinite, so that all of this is
true of all the later generations too. -/
theorem C86_nsga3_infinite_violated (fl : MultiFlags) (hsum : PropagatesNan fl.sum) (sort : SortNat) (hsort : SortNatContract sort) (pick : Nat → Nat → Nat)
    (hpick : ∀ i n, 0 < n → pick i n < n) (m : Nat) (hm0 : 0 < m)
    (s : Nsga3 Dbl) (hs : Nsga3Ok m s) (fmat : List (List Dbl)) (hm : IsMatrix m fmat) (dom : Nat → Nat → Prop) (els : List (Nat × Nat)) (hels : IsNdSort dom fmat.length els)
    (popSize : Nat) (h0 : 0 < popSize) (hlt : popSize < fmat.length) (j : Nat)
    (hinf : s.ideal[j]? = some pinf ∨ (s.ideal[j]? ≠ some nan ∧ (∃ r ∈ fmat, r[j]? = some pinf) ∧ ∀ r ∈ fmat, r[j]? ≠ some nan)) :
    ∃ sel s', nsga3NextD fl sort pick s fmat els popSize = some (sel, s') ∧ sel.Perm ((els.take popSize).map (·.1)) ∧
      (∀ c ∈ s'.info, c.refIdx = 0 ∧ c.refDist = nan) ∧ s'.ideal[j]? = some pinf := by
  obtain ⟨hp, hs', hr⟩ := hels
  obtain ⟨t, best, first, last, loop, loop', info, g1, g2, g3, g4, g5, g6, g7, g8, g9, g9', g10, g11, g12, g13, g13', g13'', g14, g15, g16⟩ :=
    nsga3NextD_steps fl sort hsort pick hpick m hm0 s hs fmat hm els hp hs' popSize h0 hlt
  have hb : ∀ e ∈ els, e.1 < fmat.length := fun e he => by simpa using hp.mem_iff.mp (List.mem_map.mpr ⟨e, he, rfl⟩)
  -- the ideal point
  have hjm : j < m := by
    rcases hinf with h | ⟨-, ⟨r, hr, h⟩, -⟩
    · have := (List.getElem?_eq_some_iff.mp h).1; rw [hs.ideal] at this; exact this
    · have := (List.getElem?_eq_some_iff.mp h).1; rw [hm r hr] at this; exact this
  have hideal : t.ideal[j]? = some pinf := by
    have hbl : best.length = m ∧ ((∃ r ∈ fmat, r[j]? = some pinf) → (∀ r ∈ fmat, r[j]? ≠ some nan) → best[j]? = some pinf) := by
      cases fmat with
      | nil => simp at hlt
      | cons r rows =>
        obtain ⟨v, hv1, hv2, hv3⟩ := elementwiseMaxD_fold m rows r (hm r (by simp)) (fun x hx => hm x (by simp [hx]))
        obtain rfl : best = v := by
          have : maxFitnessD (r :: rows) = some v := hv1
          rw [g13'] at this
          exact Option.some.inj this
        refine ⟨hv2, ?_⟩
        rintro ⟨r', hr', hp'⟩ hn
        apply hv3
        rcases List.mem_cons.mp hr' with rfl | hr'
        · exact Or.inl hp'
        · right
          refine ⟨r', hr', hp', ?_⟩
          intro x y hx hy
          refine ⟨hn y (by simp [hy]), ?_⟩
          rintro rfl
          exact hn r (by simp) hx
    obtain ⟨hbl, hbest⟩ := hbl
    have hi : s.ideal.length = m := hs.ideal
    unfold elementwiseMaxD at g13''
    rw [if_pos (by omega)] at g13''
    rw [← Option.some.inj g13'', List.getElem?_zipWith]
    have e1 : s.ideal[j]? = some s.ideal[j] := List.getElem?_eq_getElem (by omega)
    have e2 : best[j]? = some best[j] := List.getElem?_eq_getElem (by omega)
    rcases hinf with h | ⟨hn, hex, hall⟩
    · rw [h, e2]
      generalize best[j] = b
      cases b <;> rfl
    · rw [hbest hex hall, e1]
      rw [e1] at hn
      revert hn
      generalize s.ideal[j] = a
      intro hn
      cases a
      · exact absurd rfl hn
      all_goals rfl
  have hassoc : ∀ e ∈ els.take last, ∃ c, t.info[e.1]? = some c ∧ c.refIdx = 0 ∧ c.refDist = nan := by
    intro e he
    obtain ⟨row, c, e1, e2, -, e3⟩ := g14 e he
    rw [associateOneD_infinite fl hsum m s.refLines t.ideal t.nadir row hs.lines hs.nonempty (hm row (List.mem_of_getElem? e1)) g10.ideal g13 j hideal] at e3
    exact ⟨c, e2, (Prod.mk.inj (Option.some.inj e3)).1.symm, (Prod.mk.inj (Option.some.inj e3)).2.symm⟩
  obtain ⟨st, h1, -, -, h4, -⟩ := nicheLoopD_nan t.info els s.refLines.length first last pick loop hpick (fun e he => by rw [g12]; exact hb e he) g5 g8 g7
    (by
      intro r hr
      obtain ⟨e, he, rfl⟩ := (g9' r).mp hr
      obtain ⟨c, e1, e2, -⟩ := hassoc e (List.mem_of_mem_drop he)
      unfold refOf
      rw [e1]
      exact e2) (fun e he => hassoc e (List.mem_of_mem_drop he)) (popSize - first) (by omega)
  rw [g6] at h1
  obtain rfl := Option.some.inj h1
  rw [show first + (popSize - first) = popSize by omega] at h4
  refine ⟨_, _, g1, h4.map _, ?_, hideal⟩
  intro c hc
  obtain ⟨p, hpl, rfl⟩ := List.mem_iff_getElem.mp hc
  have hll : loop'.els.length = fmat.length := by rw [g9.perm.length_eq]; simpa using hp.length_eq
  obtain ⟨e1, e2⟩ := g16 p _ (List.getElem?_eq_getElem (by rw [List.length_take]; change p < info.length at hpl; omega))
  obtain ⟨c', f1, f2, f3⟩ := hassoc _ e1
  rw [f1, List.getElem?_eq_getElem hpl] at e2
  rw [show info[p] = c' from Option.some.inj e2]
  exact ⟨f2, f3⟩

/-! ## Concrete cases -/

/-- The sum of `std::transform_reduce`, in the order of the elements. -/
def addInOrder (l : List Dbl) : Dbl := l.foldl Dbl.add (.fin 0)

theorem addInOrder_nan : PropagatesNan addInOrder := by
  have h1 : ∀ l : List Dbl, l.foldl Dbl.add nan = nan := by
    intro l
    induction l with
    | nil => rfl
    | cons x l ih => exact ih
  have h2 : ∀ (l : List Dbl) (a : Dbl), nan ∈ l → l.foldl Dbl.add a = nan := by
    intro l
    induction l with
    | nil => intro a h; simp at h
    | cons x l ih =>
      intro a h
      rcases List.mem_cons.mp h with h | h
      · subst h
        have : Dbl.add a nan = nan := by cases a <;> rfl
        simp only [List.foldl_cons, this, h1]
      · exact ih _ h
  exact fun l h => h2 l _ h

/-- A state of NSGA-III with two reference lines. -/
def axesState : Nsga3 Dbl := ⟨[[.fin 1, .fin 0], [.fin 0, .fin 1]], [], [0, 0], [.fin 0, .fin 0], [], []⟩

theorem axesState_ok : Nsga3Ok 2 axesState :=
  ⟨by unfold IsMatrix; decide +kernel, by simp [axesState], rfl, rfl, by unfold IsMatrix; decide +kernel⟩

/-- A pool with a NaN, the infinities and a negative number. -/
example : ∃ sel s', nsga3NextD ⟨false, false, addInOrder⟩ insertSortNat (fun _ _ => 0) axesState [[.nan, .fin 0], [.pinf, .ninf], [.fin (-3), .fin 2], [.fin 1, .fin 1]] [(0, 0), (1, 0), (2, 0), (3, 0)] 2 =
    some (sel, s') ∧ LegalSelection 2 4 sel := by
  obtain ⟨sel, s', h1, h2, -⟩ := C86_nsga3_legal ⟨false, false, addInOrder⟩ insertSortNat insertSortNat_contract (fun _ _ => 0) (fun _ _ h => h) 2 (by norm_num) axesState axesState_ok
    [[.nan, .fin 0], [.pinf, .ninf], [.fin (-3), .fin 2], [.fin 1, .fin 1]] (by unfold IsMatrix; decide +kernel) (fun _ _ => False) [(0, 0), (1, 0), (2, 0), (3, 0)]
    ⟨by decide, by decide, by intro i r h; simp at h; rcases h with ⟨rfl, rfl⟩ | ⟨rfl, rfl⟩ | ⟨rfl, rfl⟩ | ⟨rfl, rfl⟩ <;> simp [HasRank, Remaining]⟩ 2 (by norm_num) (by norm_num)
  exact ⟨sel, s', h1, h2⟩

/-- The pool `infinitePool`: the first three candidates are kept, and not the one with the infinite value. With `8` in place of that value the fourth candidate is kept, which is the only one on its reference line. -/
example : ∃ sel s', nsga3NextD ⟨false, false, addInOrder⟩ insertSortNat (fun _ _ => 0) axesState infinitePool infinitePoolEls 3 = some (sel, s') ∧ sel.Perm [0, 1, 2] ∧
    ∀ c ∈ s'.info, c.refIdx = 0 ∧ c.refDist = nan := by
  obtain ⟨sel, s', h1, h2, h3, -⟩ := C86_nsga3_infinite_violated ⟨false, false, addInOrder⟩ addInOrder_nan insertSortNat insertSortNat_contract (fun _ _ => 0) (fun _ _ h => h) 2 (by norm_num) axesState
    axesState_ok infinitePool (by unfold IsMatrix; decide +kernel) _ infinitePoolEls (isNdSort_of_fnds _ (by unfold IsMatrix; decide +kernel) _ (by decide +kernel)) 3 (by norm_num) (by decide) 0
    (Or.inr ⟨by decide, ⟨[.pinf, .fin 0], by decide +kernel, rfl⟩, by decide +kernel⟩)
  exact ⟨sel, s', h1, h2, h3⟩
example : (nsga3NextD ⟨false, false, addInOrder⟩ insertSortNat (fun _ _ => 0) axesState (infinitePool.set 3 [.fin 8, .fin 0]) infinitePoolEls 3).map (·.1) = some [2, 3, 0] := by decide +kernel

end Gapp.Props
