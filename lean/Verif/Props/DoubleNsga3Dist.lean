import Verif.Proofs.DoubleNsga3Dist
import Verif.Props.DoubleNsga3
import Verif.Props.DoubleSimplexMaps
/-!
# C86: the distances of NSGA-III in binary64 arithmetic
-/

namespace Gapp.Props
open Gapp.Model Gapp.Spec Gapp.ListAux Dbl

/-- **C86 (NSGA-III, the distances).** For fitness values that are not huge and lines of length 1 up to rounding (`C93_initialize`), the distance stored for each selected member of the pool is the squared
distance of the member from its line, after the normalization with the new ideal point and the new nadir point, except for the rounding errors, in whatever order `std::transform_reduce` adds the squares. -/
theorem C86_nsga3_distances (fl : MultiFlags) (hsum : ReduceContract fl.sum) (sort : SortNat) (hsort : SortNatContract sort) (pick : Nat → Nat → Nat) (hpick : ∀ i n, 0 < n → pick i n < n) (m : Nat) (hm0 : 0 < m)
    (hmax : m ≤ 2 ^ 20) (s : Nsga3 Dbl) (hs : Nsga3Ok m s) (hmod : ModerateState s) (hunit : ∀ line ∈ s.refLines, NearUnit m line) (fmat : List (List Dbl)) (hm : IsMatrix m fmat)
    (hf : ∀ r ∈ fmat, ∀ x ∈ r, Moderate x) (dom : Nat → Nat → Prop) (els : List (Nat × Nat)) (hels : IsNdSort dom fmat.length els) (popSize : Nat) (h0 : 0 < popSize) (hlt : popSize < fmat.length) :
    ∃ sel s', nsga3NextD fl sort pick s fmat els popSize = some (sel, s') ∧
      ∀ (p i : Nat), sel[p]? = some i → ∃ c row line, s'.info[p]? = some c ∧ fmat[i]? = some row ∧ s.refLines[c.refIdx]? = some line ∧ NearlyLineDistSq m line s'.ideal s'.nadir row c.refDist := by
  obtain ⟨t, best, first, last, loop, loop', info, g1, -, -, -, -, -, -, -, -, -, g10, g11, g12, g13, -, -, g14, g15, g16⟩ :=
    nsga3NextD_steps fl sort hsort pick hpick m hm0 s hs fmat hm els hels.1 hels.2.1 popSize h0 hlt
  obtain ⟨⟨best', e1, e2⟩, e3, e4, -⟩ := nsga3NextD_frame g1
  obtain ⟨f1, f2, -, -, -, -, f7, f8, -⟩ := frame_err fl.recip hm0 hs.ideal hs.extreme hm hmod.ideal hmod.extreme hmod.below hf e1 e2 e3 e4
  refine ⟨_, _, g1, ?_⟩
  intro p i hp
  rw [List.getElem?_map] at hp
  obtain ⟨e, he, rfl⟩ := Option.map_eq_some_iff.mp hp
  obtain ⟨he1, he2⟩ := g16 p e he
  obtain ⟨row, c, r1, r2, -, r4⟩ := g14 e he1
  have hrow := List.mem_of_getElem? r1
  obtain ⟨i', d', a1, a2⟩ := associateOneD_spec fl m s.refLines t.ideal t.nadir row hs.lines hs.nonempty (hm row hrow) g10.ideal g13
  rw [r4] at a1
  rw [← (Prod.mk.inj (Option.some.inj a1)).1] at a2
  have hmem := List.getElem_mem a2
  exact ⟨c, row, s.refLines[c.refIdx], he2.trans r2, r1, List.getElem?_eq_getElem a2,
    associateOneD_dist fl hsum m hm0 hmax s.refLines t.ideal t.nadir row (hm row hrow) f1 f7 (hf row hrow) f2 f8 c.refIdx c.refDist r4 _ (List.getElem?_eq_getElem a2) (hunit _ hmem) (hmod.lines _ hmem)⟩

/-- **C86 (NSGA-III, the first distances).** The same holds for the candidates of the first population after the initialization. -/
theorem C86_nsga3_first_distances (fl : MultiFlags) (hsum : ReduceContract fl.sum) (m : Nat) (hm0 : 0 < m) (hmax : m ≤ 2 ^ 20) (refLines : List (List Dbl)) (hne : refLines ≠ [])
    (hunit : ∀ line ∈ refLines, NearUnit m line ∧ ∀ l ∈ line, UnitEntry l) (nadir : List Dbl) (info : List (CandInfo Dbl)) (niche : List Nat) (fmat : List (List Dbl)) (hm : IsMatrix m fmat) (hf : fmat ≠ [])
    (hmod : ∀ r ∈ fmat, ∀ x ∈ r, Moderate x) (dom : Nat → Nat → Prop) (els : List (Nat × Nat)) (hels : IsNdSort dom fmat.length els) :
    ∃ s, nsga3InitD fl refLines nadir info niche fmat els = some s ∧
      ∀ (i : Nat) (row : List Dbl), fmat[i]? = some row → ∃ c line, s.info[i]? = some c ∧ refLines[c.refIdx]? = some line ∧ NearlyLineDistSq m line s.ideal s.nadir row c.refDist := by
  have hl : IsMatrix m refLines := fun line h => (hunit line h).1.length
  obtain ⟨s, h1, h2, h3, h4, h5, -⟩ := C86_nsga3_initialize fl m hm0 refLines hl hne nadir info niche fmat hm hf dom els hels
  obtain ⟨⟨best, e1, e2⟩, e3, e4, -⟩ := nsga3InitD_frame h1
  obtain ⟨b1, b2, b3⟩ := maxFitnessD_largest hm hmod e1
  obtain ⟨f1, f2, f3, f4, f5, f6, f7, f8, f9⟩ := frame_err fl.recip hm0 b1 (by intro r hr; simp at hr) hm b2 (by simp) (by simp) hmod e1 e2 e3 e4
  refine ⟨s, h1, ?_⟩
  intro i row hi
  have hil : i < s.info.length := by rw [h4]; exact (List.getElem?_eq_some_iff.mp hi).1
  obtain ⟨-, a2, row', a3, a4⟩ := h5 i _ (List.getElem?_eq_getElem hil)
  rw [hi] at a3
  obtain rfl := Option.some.inj a3
  have hrow := List.mem_of_getElem? hi
  have hmem := List.getElem_mem a2
  exact ⟨s.info[i], refLines[s.info[i].refIdx], List.getElem?_eq_getElem hil, List.getElem?_eq_getElem a2,
    associateOneD_dist fl hsum m hm0 hmax refLines s.ideal s.nadir row (hm row hrow) f1 f7 (hmod row hrow) f2 f8 _ _ a4 _ (List.getElem?_eq_getElem a2) (hunit _ hmem).1 (hunit _ hmem).2⟩

/-! ## A concrete case -/

theorem axesLines_nearUnit : ∀ line ∈ axesState.refLines, NearUnit 2 line := by
  intro r hr
  simp only [axesState, List.mem_cons, List.not_mem_nil, or_false] at hr
  rcases hr with rfl | rfl
  · refine ⟨rfl, ?_, by simp [Dbl.val]⟩
    intro x hx
    simp only [List.mem_cons, List.not_mem_nil, or_false] at hx
    rcases hx with rfl | rfl
    · exact ⟨1, rfl, isDouble_one'⟩
    · exact ⟨0, rfl, isBinary53_zero, by norm_num⟩
  · refine ⟨rfl, ?_, by simp [Dbl.val]⟩
    intro x hx
    simp only [List.mem_cons, List.not_mem_nil, or_false] at hx
    rcases hx with rfl | rfl
    · exact ⟨0, rfl, isBinary53_zero, by norm_num⟩
    · exact ⟨1, rfl, isDouble_one'⟩

example : ∃ sel s', nsga3NextD ⟨true, false, leftSum⟩ insertSortNat (fun _ _ => 0) axesState smallPool smallPoolEls 2 = some (sel, s') ∧
    ∀ (p i : Nat), sel[p]? = some i → ∃ c row line, s'.info[p]? = some c ∧ smallPool[i]? = some row ∧ axesState.refLines[c.refIdx]? = some line ∧ NearlyLineDistSq 2 line s'.ideal s'.nadir row c.refDist :=
  C86_nsga3_distances ⟨true, false, leftSum⟩ leftSum_contract insertSortNat insertSortNat_contract (fun _ _ => 0) (fun _ _ h => h) 2 (by norm_num) (by norm_num) axesState axesState_ok
    axesState_moderate axesLines_nearUnit smallPool (by unfold IsMatrix; decide +kernel) smallPool_moderate _ smallPoolEls smallPool_sorted 2 (by norm_num) (by decide)
example : ∃ s, nsga3InitD ⟨true, true, leftSum⟩ axesState.refLines [] [] [] smallPool smallPoolEls = some s ∧
    ∀ (i : Nat) (row : List Dbl), smallPool[i]? = some row → ∃ c line, s.info[i]? = some c ∧ axesState.refLines[c.refIdx]? = some line ∧ NearlyLineDistSq 2 line s.ideal s.nadir row c.refDist :=
  C86_nsga3_first_distances ⟨true, true, leftSum⟩ leftSum_contract 2 (by norm_num) (by norm_num) axesState.refLines axesState_ok.nonempty (fun l h => ⟨axesLines_nearUnit l h, axesLines_unit l h⟩) [] [] []
    smallPool (by unfold IsMatrix; decide +kernel) (by simp [smallPool]) smallPool_moderate _ smallPoolEls smallPool_sorted
/-- The distance of the point (3, 4) from the first axis, and from the diagonal. -/
example : perpendicularDistanceSqD false leftSum [.fin 1, .fin 0] [.fin 3, .fin 4] = some (.fin 16) ∧ perpendicularDistanceSqD true leftSum [.fin 1, .fin 1] [.fin 3, .fin 4] = some (.fin (1 / 2)) := by decide +kernel

end Gapp.Props
