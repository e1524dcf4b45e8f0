import Verif.Spec.DoubleNsga3Run
import Verif.Props.DoubleNsga3Dist
/-!
# C86: whole runs of NSGA-III in binary64 arithmetic
-/

namespace Gapp.Props
open Gapp.Model Gapp.Spec Gapp.ListAux Dbl

/-- Rows of a matrix have the coordinates below the width. -/
theorem isMatrix_get {m : Nat} {rows : List (List Dbl)} (h : IsMatrix m rows) {r : List Dbl} (hr : r ∈ rows) {j : Nat} (hj : j < m) : ∃ y, r[j]? = some y :=
  ⟨_, List.getElem?_eq_getElem (by rw [h r hr]; exact hj)⟩

/-- What holds at every point of a run, for the induction. -/
structure RunInv (m : Nat) (lines seen pop : List (List Dbl)) (s : Nsga3 Dbl) : Prop where
  ok : Nsga3Ok m s
  moderate : ModerateState s
  lines_eq : s.refLines = lines
  nonempty : pop ≠ []
  popSeen : pop ⊆ seen
  matrix : IsMatrix m seen
  seenModerate : ∀ r ∈ seen, ∀ x ∈ r, Moderate x
  ideal : IsLargestOf seen s.ideal
  extreme : s.extreme ⊆ seen
  extremes : s.extreme.length = m
  nadir : IsSmallestOf s.extreme s.nadir
  nadirLength : s.nadir.length = m
  infoLength : s.info.length = pop.length
  info : ∀ (p : Nat) (row : List Dbl), pop[p]? = some row → ∃ c line, s.info[p]? = some c ∧ lines[c.refIdx]? = some line ∧ NearlyClosestLine m lines s.ideal s.nadir row c.refIdx ∧
    NearlyLineDistSq m line s.ideal s.nadir row c.refDist

/-- The invariant for the initialization. -/
theorem runInv_init (fl : MultiFlags) (hsum : ReduceContract fl.sum) (m : Nat) (hm0 : 0 < m) (hmax : m ≤ 2 ^ 20) (lines : List (List Dbl)) (hne : lines ≠ [])
    (hunit : ∀ line ∈ lines, NearUnit m line ∧ ∀ l ∈ line, UnitEntry l) (nadir : List Dbl) (info : List (CandInfo Dbl)) (niche : List Nat) (pop : List (List Dbl)) (dom : Nat → Nat → Prop)
    (els : List (Nat × Nat)) (s : Nsga3 Dbl) (hm : IsMatrix m pop) (hf : pop ≠ []) (hmod : ∀ r ∈ pop, ∀ x ∈ r, Moderate x) (hels : IsNdSort dom pop.length els)
    (h : nsga3InitD fl lines nadir info niche pop els = some s) : RunInv m lines pop pop s := by
  have hl : IsMatrix m lines := fun line h => (hunit line h).1.length
  obtain ⟨s1, a1, -, a2, a3, -⟩ := C86_nsga3_initialize fl m hm0 lines hl hne nadir info niche pop hm hf dom els hels
  obtain ⟨s2, b1, b2, b3, b4, b5, b6, b7, b8⟩ := C86_nsga3_first_points fl m hm0 (hmax.trans (by norm_num)) lines hl hne (fun l h => (hunit l h).2) nadir info niche pop hm hf hmod dom els hels
  obtain ⟨s3, c1, c2⟩ := C86_nsga3_first_distances fl hsum m hm0 hmax lines hne hunit nadir info niche pop hm hf hmod dom els hels
  obtain rfl := Option.some.inj (h.symm.trans a1)
  obtain rfl := Option.some.inj (h.symm.trans b1)
  obtain rfl := Option.some.inj (h.symm.trans c1)
  refine ⟨b6, b7, a2, hf, fun _ h => h, hm, hmod, b2, ?_, b3.1, b5, b4, a3, ?_⟩
  · intro e he
    obtain ⟨j, hj⟩ := List.mem_iff_getElem?.mp he
    exact (b3.2 j e hj).1
  · intro p row hp
    obtain ⟨c, d1, d2⟩ := b8 p row hp
    obtain ⟨c', line, e1, e2, e3⟩ := c2 p row hp
    obtain rfl := Option.some.inj (d1.symm.trans e1)
    exact ⟨c, line, d1, e2, d2, e3⟩

/-- The invariant is kept by a generation, which is defined. -/
theorem runInv_next (fl : MultiFlags) (hsum : ReduceContract fl.sum) (sort : SortNat) (hsort : SortNatContract sort) (m : Nat) (hm0 : 0 < m) (hmax : m ≤ 2 ^ 20) (lines : List (List Dbl))
    (hunit : ∀ line ∈ lines, NearUnit m line) (seen pop children : List (List Dbl)) (dom : Nat → Nat → Prop) (els : List (Nat × Nat)) (pick : Nat → Nat → Nat) (s : Nsga3 Dbl)
    (inv : RunInv m lines seen pop s) (hm : IsMatrix m children) (hne : children ≠ []) (hmod : ∀ r ∈ children, ∀ x ∈ r, Moderate x) (hels : IsNdSort dom (pop ++ children).length els)
    (hpick : ∀ i n, 0 < n → pick i n < n) :
    ∃ sel s', nsga3NextD fl sort pick s (pop ++ children) els pop.length = some (sel, s') ∧ LegalSelection pop.length (pop ++ children).length sel ∧
      ∀ pop', List.Forall₂ (fun i r => (pop ++ children)[i]? = some r) sel pop' → pop'.length = pop.length ∧ RunInv m lines (seen ++ children) pop' s' := by
  have hpm : IsMatrix m (pop ++ children) := fun r hr => (List.mem_append.mp hr).elim (fun h => inv.matrix r (inv.popSeen h)) (hm r)
  have hpmod : ∀ r ∈ pop ++ children, ∀ x ∈ r, Moderate x := fun r hr => (List.mem_append.mp hr).elim (fun h => inv.seenModerate r (inv.popSeen h)) (hmod r)
  have h0 : 0 < pop.length := List.length_pos_of_ne_nil inv.nonempty
  have hlt : pop.length < (pop ++ children).length := by
    have := List.length_pos_of_ne_nil hne
    rw [List.length_append]; omega
  obtain ⟨sel, s', a1, a2, -, a3, -, a5, a6⟩ := C86_nsga3_legal fl sort hsort pick hpick m hm0 s inv.ok (pop ++ children) hpm dom els hels pop.length h0 hlt
  obtain ⟨sel2, s2, b1, b2, b3, b4, b5, b6, b7⟩ := C86_nsga3_points fl sort hsort pick hpick m hm0 s inv.ok inv.moderate (pop ++ children) hpm hpmod dom els hels pop.length h0 hlt
  obtain ⟨sel3, s3, c1, c2⟩ := C86_nsga3_association fl sort hsort pick hpick m hm0 (hmax.trans (by norm_num)) s inv.ok inv.moderate (pop ++ children) hpm hpmod dom els hels pop.length h0 hlt
  obtain ⟨sel4, s4, d1, d2⟩ := C86_nsga3_distances fl hsum sort hsort pick hpick m hm0 hmax s inv.ok inv.moderate (by rw [inv.lines_eq]; exact hunit) (pop ++ children) hpm hpmod dom els hels
    pop.length h0 hlt
  obtain ⟨rfl, rfl⟩ := Prod.mk.inj (Option.some.inj (a1.symm.trans b1))
  obtain ⟨rfl, rfl⟩ := Prod.mk.inj (Option.some.inj (a1.symm.trans c1))
  obtain ⟨rfl, rfl⟩ := Prod.mk.inj (Option.some.inj (a1.symm.trans d1))
  refine ⟨sel, s', a1, a2, ?_⟩
  intro pop' hpop
  have hlen : pop'.length = pop.length := hpop.length_eq.symm.trans a2.1
  have hsub : pop ++ children ⊆ seen ++ children := by
    intro r hr
    rcases List.mem_append.mp hr with h | h
    · exact List.mem_append_left _ (inv.popSeen h)
    · exact List.mem_append_right _ h
  have hget : ∀ (p : Nat) (row : List Dbl), pop'[p]? = some row → ∃ i, sel[p]? = some i ∧ (pop ++ children)[i]? = some row := by
    intro p row hp
    obtain ⟨hpl, rfl⟩ := List.getElem?_eq_some_iff.mp hp
    have hpl' : p < sel.length := by rw [hpop.length_eq]; exact hpl
    exact ⟨sel[p], List.getElem?_eq_getElem hpl', (List.forall₂_iff_get.mp hpop).2 p hpl' hpl⟩
  have hmat : IsMatrix m (seen ++ children) := fun r hr => (List.mem_append.mp hr).elim (inv.matrix r) (hm r)
  refine ⟨hlen, b6, b7, a6.trans inv.lines_eq, ?_, ?_, hmat, fun r hr => (List.mem_append.mp hr).elim (inv.seenModerate r) (hmod r), ?_, ?_, b3.1, b5, b4, a3.trans hlen.symm, ?_⟩
  · intro h
    rw [h, List.length_nil] at hlen
    omega
  · intro r hr
    obtain ⟨p, hp⟩ := List.mem_iff_getElem?.mp hr
    obtain ⟨i, -, hi⟩ := hget p r hp
    exact hsub (List.mem_of_getElem? hi)
  · intro j x hx
    obtain ⟨⟨r, r1, r2⟩, r3⟩ := b2 j x hx
    have hj : j < m := by
      have := (List.getElem?_eq_some_iff.mp hx).1
      rwa [b6.ideal] at this
    refine ⟨?_, ?_⟩
    · rcases List.mem_cons.mp r1 with rfl | r1
      · obtain ⟨⟨q, q1, q2⟩, -⟩ := inv.ideal j x r2
        exact ⟨q, List.mem_append_left _ q1, q2⟩
      · exact ⟨r, hsub r1, r2⟩
    · intro q hq y hy
      rcases List.mem_append.mp hq with hq | hq
      · obtain ⟨z, hz⟩ : ∃ z, s.ideal[j]? = some z := ⟨_, List.getElem?_eq_getElem (by rw [inv.ok.ideal]; exact hj)⟩
        exact ((inv.ideal j z hz).2 q hq y hy).trans (r3 _ List.mem_cons_self z hz)
      · exact r3 q (List.mem_cons_of_mem _ (List.mem_append_right _ hq)) y hy
  · intro e he
    obtain ⟨j, hj⟩ := List.mem_iff_getElem?.mp he
    rcases List.mem_append.mp (b3.2 j e hj).1 with h | h
    · exact hsub h
    · exact List.mem_append_left _ (inv.extreme h)
  · intro p row hp
    obtain ⟨i, hi, hrow⟩ := hget p row hp
    obtain ⟨c, row1, e1, e2, e3⟩ := c2 p i hi
    obtain ⟨c', row2, line, f1, f2, f3, f4⟩ := d2 p i hi
    obtain rfl := Option.some.inj (hrow.symm.trans e2)
    obtain rfl := Option.some.inj (hrow.symm.trans f2)
    obtain rfl := Option.some.inj (e1.symm.trans f1)
    rw [inv.lines_eq] at e3 f3
    exact ⟨c, line, e1, f3, e3, f4⟩

theorem runInv_of_run {fl : MultiFlags} (hsum : ReduceContract fl.sum) {sort : SortNat} (hsort : SortNatContract sort) {m : Nat} (hm0 : 0 < m) (hmax : m ≤ 2 ^ 20) {lines : List (List Dbl)} (hne : lines ≠ [])
    (hunit : ∀ line ∈ lines, NearUnit m line ∧ ∀ l ∈ line, UnitEntry l) {seen pop : List (List Dbl)} {s : Nsga3 Dbl} (h : Nsga3Run fl sort m lines seen pop s) : RunInv m lines seen pop s := by
  induction h with
  | init nadir info niche pop dom els s h1 h2 h3 h4 h5 => exact runInv_init fl hsum m hm0 hmax lines hne hunit nadir info niche pop dom els s h1 h2 h3 h4 h5
  | next seen pop children pop' dom els pick sel s s' h0 h1 h2 h3 h4 h5 h6 h7 ih =>
    obtain ⟨sel1, s1, a1, -, a2⟩ := runInv_next fl hsum sort hsort m hm0 hmax lines (fun l h => (hunit l h).1) seen pop children dom els pick s ih h1 h2 h3 h4 h5
    obtain ⟨rfl, rfl⟩ := Prod.mk.inj (Option.some.inj (h6.symm.trans a1))
    exact (a2 pop' h7).2

/-- **C86 (NSGA-III, every run).** After any number of generations, for fitness values that are not huge: the ideal point has the largest values of all the candidates of the whole run, without any
rounding; the extreme points are candidates of the run, one for each objective, and the nadir point has their smallest values; and for each member of the population the algorithm has stored a line that is the
closest to it, and the squared distance from that line, except for the rounding errors of a single generation: the errors do not add up. -/
theorem C86_nsga3_run (fl : MultiFlags) (hsum : ReduceContract fl.sum) (sort : SortNat) (hsort : SortNatContract sort) (m : Nat) (hm0 : 0 < m) (hmax : m ≤ 2 ^ 20) (lines : List (List Dbl)) (hne : lines ≠ [])
    (hunit : ∀ line ∈ lines, NearUnit m line ∧ ∀ l ∈ line, UnitEntry l) (seen pop : List (List Dbl)) (s : Nsga3 Dbl) (h : Nsga3Run fl sort m lines seen pop s) :
    (s.ideal.length = m ∧ IsLargestOf seen s.ideal) ∧ (s.extreme.length = m ∧ s.extreme ⊆ seen) ∧ (s.nadir.length = m ∧ IsSmallestOf s.extreme s.nadir) ∧ pop ⊆ seen ∧ s.info.length = pop.length ∧
      ∀ (p : Nat) (row : List Dbl), pop[p]? = some row → ∃ c line, s.info[p]? = some c ∧ lines[c.refIdx]? = some line ∧ NearlyClosestLine m lines s.ideal s.nadir row c.refIdx ∧
        NearlyLineDistSq m line s.ideal s.nadir row c.refDist := by
  have inv := runInv_of_run hsum hsort hm0 hmax hne hunit h
  exact ⟨⟨inv.ok.ideal, inv.ideal⟩, ⟨inv.extremes, inv.extreme⟩, ⟨inv.nadirLength, inv.nadir⟩, inv.popSeen, inv.infoLength, inv.info⟩

/-- **C86 (NSGA-III, every run goes on).** Whatever the children of the next generation, the correct sort into fronts and the random choices are, the next generation is defined, and the population keeps
its size. -/
theorem C86_nsga3_run_continues (fl : MultiFlags) (hsum : ReduceContract fl.sum) (sort : SortNat) (hsort : SortNatContract sort) (m : Nat) (hm0 : 0 < m) (hmax : m ≤ 2 ^ 20) (lines : List (List Dbl))
    (hne : lines ≠ []) (hunit : ∀ line ∈ lines, NearUnit m line ∧ ∀ l ∈ line, UnitEntry l) (seen pop : List (List Dbl)) (s : Nsga3 Dbl) (h : Nsga3Run fl sort m lines seen pop s)
    (children : List (List Dbl)) (hm : IsMatrix m children) (hc : children ≠ []) (hmod : ∀ r ∈ children, ∀ x ∈ r, Moderate x) (dom : Nat → Nat → Prop) (els : List (Nat × Nat))
    (hels : IsNdSort dom (pop ++ children).length els) (pick : Nat → Nat → Nat) (hpick : ∀ i n, 0 < n → pick i n < n) :
    ∃ sel s' pop', nsga3NextD fl sort pick s (pop ++ children) els pop.length = some (sel, s') ∧ List.Forall₂ (fun i r => (pop ++ children)[i]? = some r) sel pop' ∧ pop'.length = pop.length ∧
      Nsga3Run fl sort m lines (seen ++ children) pop' s' := by
  have inv := runInv_of_run hsum hsort hm0 hmax hne hunit h
  obtain ⟨sel, s', a1, a2, a3⟩ := runInv_next fl hsum sort hsort m hm0 hmax lines (fun l h => (hunit l h).1) seen pop children dom els pick s inv hm hc hmod hels hpick
  have hall : List.Forall₂ (fun i r => (pop ++ children)[i]? = some r) sel (sel.map (fun i => (pop ++ children).getD i [])) := by
    rw [List.forall₂_map_right_iff, List.forall₂_same]
    intro i hi
    have := a2.2.2 i hi
    simp [List.getD, List.getElem?_eq_getElem this]
  exact ⟨sel, s', _, a1, hall, (a3 _ hall).1, .next seen pop children _ dom els pick sel s s' h hm hc hmod hels hpick a1 hall⟩

/-! ## A concrete case -/

/-- The fronts of the four members of the pool and a fifth candidate with the values 4 and 0. -/
def largerPoolEls : List (Nat × Nat) := [(0, 0), (1, 0), (3, 0), (4, 0), (2, 1)]

theorem largerPool_sorted (pop : List (List Dbl)) (h : pop.length = 4) : IsNdSort (fun i j => i = 0 ∧ j = 2) (pop ++ [[Dbl.fin 4, Dbl.fin 0]]).length largerPoolEls := by
  rw [List.length_append, h]
  refine ⟨by decide +kernel, by decide +kernel, ?_⟩
  intro i r h
  simp only [largerPoolEls, List.mem_cons, Prod.mk.injEq, List.not_mem_nil, or_false] at h
  rcases h with ⟨rfl, rfl⟩ | ⟨rfl, rfl⟩ | ⟨rfl, rfl⟩ | ⟨rfl, rfl⟩ | ⟨rfl, rfl⟩ <;> simp [HasRank, Remaining]

theorem child_moderate : ∀ r ∈ [[Dbl.fin 4, Dbl.fin 0]], ∀ x ∈ r, Moderate x := by
  intro r hr x hx
  rw [List.mem_singleton.mp hr] at hx
  simp only [List.mem_cons, List.not_mem_nil, or_false] at hx
  rcases hx with rfl | rfl
  · exact_mod_cast moderate_int 4 (by norm_num)
  · exact_mod_cast moderate_int 0 (by norm_num)

/-- A run of the initialization and two generations. -/
theorem small_run : ∃ pop s, pop.length = 4 ∧ Nsga3Run ⟨true, false, leftSum⟩ insertSortNat 2 axesState.refLines ((smallPool ++ [[.fin 4, .fin 0]]) ++ [[.fin 4, .fin 0]]) pop s := by
  have hu : ∀ line ∈ axesState.refLines, NearUnit 2 line ∧ ∀ l ∈ line, UnitEntry l := fun l h => ⟨axesLines_nearUnit l h, axesLines_unit l h⟩
  obtain ⟨s, h1, -⟩ := C86_nsga3_initialize ⟨true, false, leftSum⟩ 2 (by norm_num) axesState.refLines axesState_ok.lines axesState_ok.nonempty [] [] [] smallPool
    (by unfold IsMatrix; decide +kernel) (by simp [smallPool]) _ smallPoolEls smallPool_sorted
  have r0 : Nsga3Run ⟨true, false, leftSum⟩ insertSortNat 2 axesState.refLines smallPool smallPool s :=
    .init [] [] [] smallPool _ smallPoolEls s (by decide +kernel) (by simp [smallPool]) smallPool_moderate smallPool_sorted h1
  obtain ⟨sel, s', pop', -, -, e1, r1⟩ := C86_nsga3_run_continues ⟨true, false, leftSum⟩ leftSum_contract insertSortNat insertSortNat_contract 2 (by norm_num) (by norm_num) axesState.refLines
    axesState_ok.nonempty hu _ _ s r0 [[.fin 4, .fin 0]] (by unfold IsMatrix; decide +kernel) (by simp) child_moderate _ largerPoolEls (largerPool_sorted _ rfl) (fun _ _ => 0) (fun _ _ h => h)
  obtain ⟨sel2, s2, pop2, -, -, e2, r2⟩ := C86_nsga3_run_continues ⟨true, false, leftSum⟩ leftSum_contract insertSortNat insertSortNat_contract 2 (by norm_num) (by norm_num) axesState.refLines
    axesState_ok.nonempty hu _ _ s' r1 [[.fin 4, .fin 0]] (by unfold IsMatrix; decide +kernel) (by simp) child_moderate _ largerPoolEls (largerPool_sorted _ e1) (fun _ n => n - 1) (fun _ n h => by omega)
  exact ⟨pop2, s2, by rw [e2, e1]; rfl, r2⟩

example : ∃ pop s, Nsga3Run ⟨true, false, leftSum⟩ insertSortNat 2 axesState.refLines ((smallPool ++ [[.fin 4, .fin 0]]) ++ [[.fin 4, .fin 0]]) pop s ∧
    IsLargestOf ((smallPool ++ [[.fin 4, .fin 0]]) ++ [[.fin 4, .fin 0]]) s.ideal ∧ s.extreme.length = 2 := by
  obtain ⟨pop, s, -, r⟩ := small_run
  have := C86_nsga3_run ⟨true, false, leftSum⟩ leftSum_contract insertSortNat insertSortNat_contract 2 (by norm_num) (by norm_num) axesState.refLines axesState_ok.nonempty
    (fun l h => ⟨axesLines_nearUnit l h, axesLines_unit l h⟩) _ pop s r
  exact ⟨pop, s, r, this.1.2, this.2.1.1⟩

end Gapp.Props
