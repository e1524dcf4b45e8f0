import Verif.Proofs.DoubleNsga3
import Verif.Props.DoubleMulti
/-!
# C86: NSGA-III with values of the type `double`

The operations of NSGA-III round their results. Here is what the steps compute nevertheless, for fitness values that are numbers with an absolute value of at most 2^400.
-/

namespace Gapp.Props
open Gapp.Model Gapp.Spec Dbl

/-- **C86 (NSGA-III, the points).** For fitness values that are not huge, the new ideal point has the largest values of the old one and of the pool, without any rounding. For each objective
the new extreme point is a member of the pool or an old extreme point, and no other has a smaller value of the achievement scalarizing function of that objective, except for the rounding errors of
a relative size of 15/2^53. The nadir point has the smallest values of the extreme points. The new state meets the conditions for the next call. -/
theorem C86_nsga3_points (fl : MultiFlags) (sort : SortNat) (hsort : SortNatContract sort) (pick : Nat → Nat → Nat) (hpick : ∀ i n, 0 < n → pick i n < n) (m : Nat) (hm0 : 0 < m)
    (s : Nsga3 Dbl) (hs : Nsga3Ok m s) (hmod : ModerateState s) (fmat : List (List Dbl)) (hm : IsMatrix m fmat) (hf : ∀ r ∈ fmat, ∀ x ∈ r, Moderate x) (dom : Nat → Nat → Prop)
    (els : List (Nat × Nat)) (hels : IsNdSort dom fmat.length els) (popSize : Nat) (h0 : 0 < popSize) (hlt : popSize < fmat.length) :
    ∃ sel s', nsga3NextD fl sort pick s fmat els popSize = some (sel, s') ∧ IsLargestOf (s.ideal :: fmat) s'.ideal ∧ ExtremePoints m s'.ideal (fmat ++ s.extreme) s'.extreme ∧
      s'.nadir.length = m ∧ IsSmallestOf s'.extreme s'.nadir ∧ Nsga3Ok m s' ∧ ModerateState s' := by
  obtain ⟨sel, s', h1, -, -, -, -, h6, h7⟩ := C86_nsga3_legal fl sort hsort pick hpick m hm0 s hs fmat hm dom els hels popSize h0 hlt
  obtain ⟨⟨best, e1, e2⟩, e3, e4, -⟩ := nsga3NextD_frame h1
  obtain ⟨-, f2, f3, f4, f5, f6, f7, -, f9⟩ := frame_err fl.recip hm0 hs.ideal hs.extreme hm hmod.ideal hmod.extreme hmod.below hf e1 e2 e3 e4
  exact ⟨sel, s', h1, f3, f4, f7, f9, h6, ⟨f2, f5, f6, by rw [h7]; exact hmod.lines⟩⟩

/-- **C86 (NSGA-III, the lines).** For fitness values that are not huge, each selected member of the pool is associated with a reference line of which the direction is the closest to its own
after the normalization with the new ideal point and the new nadir point, except for the rounding errors. -/
theorem C86_nsga3_association (fl : MultiFlags) (sort : SortNat) (hsort : SortNatContract sort) (pick : Nat → Nat → Nat) (hpick : ∀ i n, 0 < n → pick i n < n) (m : Nat) (hm0 : 0 < m) (hmax : m ≤ 2 ^ 50)
    (s : Nsga3 Dbl) (hs : Nsga3Ok m s) (hmod : ModerateState s) (fmat : List (List Dbl)) (hm : IsMatrix m fmat) (hf : ∀ r ∈ fmat, ∀ x ∈ r, Moderate x) (dom : Nat → Nat → Prop)
    (els : List (Nat × Nat)) (hels : IsNdSort dom fmat.length els) (popSize : Nat) (h0 : 0 < popSize) (hlt : popSize < fmat.length) :
    ∃ sel s', nsga3NextD fl sort pick s fmat els popSize = some (sel, s') ∧
      ∀ (p i : Nat), sel[p]? = some i → ∃ c row, s'.info[p]? = some c ∧ fmat[i]? = some row ∧ NearlyClosestLine m s.refLines s'.ideal s'.nadir row c.refIdx := by
  obtain ⟨t, best, first, last, loop, loop', info, g1, -, -, -, -, -, -, -, -, -, g10, g11, g12, g13, -, -, g14, g15, g16⟩ :=
    nsga3NextD_steps fl sort hsort pick hpick m hm0 s hs fmat hm els hels.1 hels.2.1 popSize h0 hlt
  obtain ⟨⟨best', e1, e2⟩, e3, e4, -⟩ := nsga3NextD_frame g1
  obtain ⟨f1, f2, -, -, -, -, f7, f8, -⟩ := frame_err fl.recip hm0 hs.ideal hs.extreme hm hmod.ideal hmod.extreme hmod.below hf e1 e2 e3 e4
  refine ⟨_, _, g1, ?_⟩
  intro p i hp
  rw [List.getElem?_map] at hp
  obtain ⟨e, he, rfl⟩ := Option.map_eq_some_iff.mp hp
  obtain ⟨he1, he2⟩ := g16 p e he
  obtain ⟨row, c, r1, r2, -, r4⟩ := g14 e he1
  refine ⟨c, row, he2.trans r2, r1, ?_⟩
  have hrow := List.mem_of_getElem? r1
  obtain ⟨i', d', a1, a2⟩ := associateOneD_spec fl m s.refLines t.ideal t.nadir row hs.lines hs.nonempty (hm row hrow) g10.ideal g13
  rw [r4] at a1
  rw [← (Prod.mk.inj (Option.some.inj a1)).1] at a2
  refine ⟨s.refLines[c.refIdx], List.getElem?_eq_getElem a2, ?_⟩
  intro line hline
  exact associateOneD_err fl m hmax s.refLines t.ideal t.nadir row hs.lines hs.nonempty hmod.lines (hm row hrow) f1 f7 (hf row hrow) f2 f8 c.refIdx c.refDist r4 _
    (List.getElem?_eq_getElem a2) line hline

/-- **C86 (NSGA-III, the initialization).** Whatever the fitness values of the first population are, its initialization has no undefined behaviour, the information of each candidate is stored at its
position with its rank and an existing line, and the niche counts are the numbers of the candidates of each line. -/
theorem C86_nsga3_initialize (fl : MultiFlags) (m : Nat) (hm0 : 0 < m) (refLines : List (List Dbl)) (hl : IsMatrix m refLines) (hne : refLines ≠ []) (nadir : List Dbl) (info : List (CandInfo Dbl))
    (niche : List Nat) (fmat : List (List Dbl)) (hm : IsMatrix m fmat) (hf : fmat ≠ []) (dom : Nat → Nat → Prop) (els : List (Nat × Nat)) (hels : IsNdSort dom fmat.length els) :
    ∃ s, nsga3InitD fl refLines nadir info niche fmat els = some s ∧ Nsga3Ok m s ∧ s.refLines = refLines ∧ s.info.length = fmat.length ∧
      (∀ i c, s.info[i]? = some c → HasRank dom fmat.length c.rank i ∧ c.refIdx < refLines.length ∧
        ∃ row, fmat[i]? = some row ∧ associateOneD fl refLines s.ideal s.nadir row = some (c.refIdx, c.refDist)) ∧
      ∀ r, s.nicheCounts.getD r 0 = s.info.countP (fun c => c.refIdx == r) := by
  obtain ⟨hp, hs', hr⟩ := hels
  have hlen : els.length = fmat.length := by simpa using hp.length_eq
  have hnd : (els.map (·.1)).Nodup := hp.nodup_iff.mpr List.nodup_range
  have hb : ∀ e ∈ els, e.1 < fmat.length := fun e he => by simpa using hp.mem_iff.mp (List.mem_map.mpr ⟨e, he, rfl⟩)
  obtain ⟨ideal, hi1, hi2⟩ : ∃ v, maxFitnessD fmat = some v ∧ v.length = m := by
    cases fmat with
    | nil => exact absurd rfl hf
    | cons r rows =>
      obtain ⟨v, hv1, hv2, -⟩ := elementwiseMaxD_fold m rows r (hm r (by simp)) (fun x hx => hm x (by simp [hx]))
      exact ⟨v, hv1, hv2⟩
  obtain ⟨info', hj1, hj2, hj3⟩ := storeRanks_spec (resizeInfoD info fmat.length) els hnd (fun e he => by rw [resizeInfoD_length]; exact hb e he)
  rw [resizeInfoD_length] at hj2
  set niche0 := niche.take refLines.length ++ List.replicate (refLines.length - niche.length) 0 with hn0
  have hnl : niche0.length = refLines.length := by
    rw [hn0, List.length_append, List.length_take, List.length_replicate]; omega
  obtain ⟨s, best, ha1, ha2, ha3, ha4, ha5, ha6, -, -, ha8, -⟩ := associatePopWithRefsD_spec fl m hm0 ⟨refLines, info', niche0, ideal, nadir, []⟩
    ⟨hl, hne, hnl, hi2, by intro r hr; simp at hr⟩ fmat hm hf hj2 els hnd hb
  have hall : ∀ e ∈ els, ∃ c, s.info[e.1]? = some c ∧ c.rank = e.2 ∧ c.refIdx < refLines.length ∧
      ∃ row, fmat[e.1]? = some row ∧ associateOneD fl refLines s.ideal s.nadir row = some (c.refIdx, c.refDist) := by
    intro e he
    obtain ⟨row, i, d, h1, h2, h2', h3⟩ := ha8 e he
    have h4 := hj3 e he
    rw [List.getElem?_eq_getElem (l := resizeInfoD info fmat.length) (by rw [resizeInfoD_length]; exact hb e he)] at h4
    have h5 : s.info[e.1]? = some ⟨e.2, i, d⟩ := by rw [h3]; show (info'[e.1]?).map _ = _; rw [h4]; rfl
    exact ⟨⟨e.2, i, d⟩, h5, rfl, h2', row, h1, h2⟩
  have hpos : ∀ i, i < fmat.length → ∃ e ∈ els, e.1 = i := by
    intro i hi
    obtain ⟨e, he, rfl⟩ := List.mem_map.mp (hp.mem_iff.mpr (by simpa using hi : i ∈ List.range fmat.length))
    exact ⟨e, he, rfl⟩
  obtain ⟨nc, hc1, hc2, hc3⟩ := recalcNicheCounts_spec s.info s.nicheCounts els (fun e he => by rw [ha5]; exact hb e he)
    (by intro e he
        obtain ⟨c, h1, -, h3, -⟩ := hall e he
        unfold refOf
        rw [h1, ha4]
        show c.refIdx < niche0.length
        rw [hnl]; exact h3)
  refine ⟨{ s with nicheCounts := nc }, ?_, ⟨ha2.1, ha2.2, ?_, ha2.4, ha2.5⟩, ha3, ha5, ?_, ?_⟩
  · unfold nsga3InitD
    simp only [hi1, hj1, Option.bind_eq_bind, Option.bind_some]
    rw [← hn0, ha1]
    simp only [Option.bind_some, hc1, Option.pure_def]
  · show nc.length = _
    rw [hc2]; exact ha2.niche
  · intro i c hic
    have hi : i < fmat.length := by rw [← ha5]; exact (List.getElem?_eq_some_iff.mp hic).1
    obtain ⟨e, he, rfl⟩ := hpos i hi
    obtain ⟨c', h1, h2, h3⟩ := hall e he
    have : s.info[e.1]? = some c := hic
    rw [h1] at this
    obtain rfl := Option.some.inj this
    rw [h2]
    exact ⟨hr _ _ he, h3⟩
  · intro r
    show nc.getD r 0 = s.info.countP _
    rw [hc3]
    have h1 : els.countP (fun e => refOf s.info e == r) = (els.map (·.1)).countP (fun i => ((s.info[i]?).map (·.refIdx)).getD 0 == r) := by
      rw [List.countP_map]; rfl
    rw [h1, hp.countP_eq, ← ha5]
    conv_rhs => rw [show s.info = (List.range s.info.length).map (fun i => (s.info[i]?).getD ⟨0, 0, .fin 0⟩) by
      apply List.ext_getElem (by simp)
      intro i h1 h2
      simp [List.getElem?_eq_getElem h1]]
    rw [List.countP_map]
    apply List.countP_congr
    intro i hi
    rw [List.mem_range] at hi
    simp [List.getElem?_eq_getElem hi]

/-- **C86 (NSGA-III, the first points).** For fitness values that are not huge, the ideal point after the initialization has the largest values of the population, the extreme points are members of
the population with the smallest values of the achievement scalarizing functions, except for the rounding errors, the nadir point has their smallest values, each candidate is associated with
the line of the closest direction, except for the rounding errors, and the state meets the conditions of the replacement. -/
theorem C86_nsga3_first_points (fl : MultiFlags) (m : Nat) (hm0 : 0 < m) (hmax : m ≤ 2 ^ 50) (refLines : List (List Dbl)) (hl : IsMatrix m refLines) (hne : refLines ≠ [])
    (hunit : ∀ line ∈ refLines, ∀ l ∈ line, UnitEntry l) (nadir : List Dbl) (info : List (CandInfo Dbl)) (niche : List Nat) (fmat : List (List Dbl)) (hm : IsMatrix m fmat) (hf : fmat ≠ [])
    (hmod : ∀ r ∈ fmat, ∀ x ∈ r, Moderate x) (dom : Nat → Nat → Prop) (els : List (Nat × Nat)) (hels : IsNdSort dom fmat.length els) :
    ∃ s, nsga3InitD fl refLines nadir info niche fmat els = some s ∧ IsLargestOf fmat s.ideal ∧ ExtremePoints m s.ideal fmat s.extreme ∧ s.nadir.length = m ∧ IsSmallestOf s.extreme s.nadir ∧
      Nsga3Ok m s ∧ ModerateState s ∧
      ∀ (i : Nat) (row : List Dbl), fmat[i]? = some row → ∃ c, s.info[i]? = some c ∧ NearlyClosestLine m refLines s.ideal s.nadir row c.refIdx := by
  obtain ⟨s, h1, h2, h3, h4, h5, -⟩ := C86_nsga3_initialize fl m hm0 refLines hl hne nadir info niche fmat hm hf dom els hels
  obtain ⟨⟨best, e1, e2⟩, e3, e4, -⟩ := nsga3InitD_frame h1
  obtain ⟨b1, b2, b3⟩ := maxFitnessD_largest hm hmod e1
  obtain ⟨f1, f2, f3, f4, f5, f6, f7, f8, f9⟩ := frame_err fl.recip hm0 b1 (by intro r hr; simp at hr) hm b2 (by simp) (by simp) hmod e1 e2 e3 e4
  rw [List.append_nil] at f4
  refine ⟨s, h1, ?_, f4, f7, f9, h2, ⟨f2, f5, f6, by rw [h3]; exact hunit⟩, ?_⟩
  · intro j x hx
    obtain ⟨⟨r, hr, hr'⟩, h6⟩ := f3 j x hx
    refine ⟨?_, fun r hr => h6 r (by simp [hr])⟩
    rcases List.mem_cons.mp hr with rfl | hr
    · exact (b3 j x hr').1
    · exact ⟨r, hr, hr'⟩
  · intro i row hi
    have hil : i < s.info.length := by rw [h4]; exact (List.getElem?_eq_some_iff.mp hi).1
    obtain ⟨-, a2, row', a3, a4⟩ := h5 i _ (List.getElem?_eq_getElem hil)
    rw [hi] at a3
    obtain rfl := Option.some.inj a3
    have hrow := List.mem_of_getElem? hi
    refine ⟨s.info[i], List.getElem?_eq_getElem hil, refLines[s.info[i].refIdx], List.getElem?_eq_getElem a2, ?_⟩
    intro line hline
    exact associateOneD_err fl m hmax refLines s.ideal s.nadir row hl hne hunit (hm row hrow) f1 f7 (hmod row hrow) f2 f8 _ _ a4 _ (List.getElem?_eq_getElem a2) line hline

/-- **C86 (NSGA-III, the selection).** Whatever the stored distances are, the selection returns one of the two candidates it draws. If they are associated with the same line, the one with the
better rank is returned. If the ranks are equal too, the other one is not closer to the line. -/
theorem C86_nsga3_selection (s : Nsga3 Dbl) (coin : Bool) (i j : Nat) (a b : CandInfo Dbl) (hi : s.info[i]? = some a) (hj : s.info[j]? = some b) :
    ∃ k c d, nsga3SelectD s coin i j = some k ∧ ((k = i ∧ c = a ∧ d = b) ∨ (k = j ∧ c = b ∧ d = a)) ∧
      (a.refIdx = b.refIdx → c.rank ≤ d.rank ∧ (c.rank = d.rank → Dbl.lt d.refDist c.refDist = false)) ∧ (a.refIdx ≠ b.refIdx → k = if coin then i else j) := by
  unfold nsga3SelectD
  simp only [hi, hj, Option.bind_eq_bind, Option.bind_some, Option.pure_def]
  by_cases h1 : a.refIdx = b.refIdx
  · rw [if_pos h1]
    by_cases h2 : a.rank ≠ b.rank
    · rw [if_pos h2]
      by_cases h3 : a.rank < b.rank
      · exact ⟨i, a, b, by simp [h3], Or.inl ⟨rfl, rfl, rfl⟩, fun _ => ⟨h3.le, fun h => absurd h h2⟩, fun h => absurd h1 h⟩
      · exact ⟨j, b, a, by simp [h3], Or.inr ⟨rfl, rfl, rfl⟩, fun _ => ⟨by omega, fun h => absurd h.symm h2⟩, fun h => absurd h1 h⟩
    · rw [if_neg h2]
      rw [not_not] at h2
      cases h3 : Dbl.lt a.refDist b.refDist
      · exact ⟨j, b, a, rfl, Or.inr ⟨rfl, rfl, rfl⟩, fun _ => ⟨h2.ge, fun _ => h3⟩, fun h => absurd h1 h⟩
      · refine ⟨i, a, b, rfl, Or.inl ⟨rfl, rfl, rfl⟩, fun _ => ⟨h2.le, fun _ => ?_⟩, fun h => absurd h1 h⟩
        cases h4 : Dbl.lt b.refDist a.refDist
        · rfl
        · exfalso
          revert h3 h4
          cases a.refDist <;> cases b.refDist <;> simp [Dbl.lt]
          exact fun h5 => h5.le
  · rw [if_neg h1]
    cases coin
    · exact ⟨j, b, a, rfl, Or.inr ⟨rfl, rfl, rfl⟩, fun h => absurd h h1, fun _ => rfl⟩
    · exact ⟨i, a, b, rfl, Or.inl ⟨rfl, rfl, rfl⟩, fun h => absurd h h1, fun _ => rfl⟩

/-! ## A concrete case -/

theorem moderate_int (n : ℤ) (h : |n| ≤ 2 ^ 53) : Moderate (.fin n) := by
  refine ⟨n, rfl, ⟨n, 0, h, by norm_num, by simp⟩, ?_⟩
  have h1 : |(n : ℚ)| ≤ 2 ^ 53 := by exact_mod_cast h
  rw [← zpow_natCast] at h1
  exact h1.trans (two_zpow_le (by norm_num))

/-- Four candidates: the third is dominated, and the others are not. -/
def smallPool : List (List Dbl) := [[.fin 3, .fin 1], [.fin 1, .fin 3], [.fin 0, .fin 0], [.fin 2, .fin 2]]

/-- Its sort. -/
def smallPoolEls : List (Nat × Nat) := [(0, 0), (1, 0), (3, 0), (2, 1)]

theorem smallPool_moderate : ∀ r ∈ smallPool, ∀ x ∈ r, Moderate x := by
  have h : ∀ n : ℤ, |n| ≤ 2 ^ 53 → Moderate (.fin n) := moderate_int
  intro r hr x hx
  simp only [smallPool, List.mem_cons, List.not_mem_nil, or_false] at hr
  rcases hr with rfl | rfl | rfl | rfl <;> simp only [List.mem_cons, List.not_mem_nil, or_false] at hx <;> rcases hx with rfl | rfl
  · exact_mod_cast h 3 (by norm_num)
  · exact_mod_cast h 1 (by norm_num)
  · exact_mod_cast h 1 (by norm_num)
  · exact_mod_cast h 3 (by norm_num)
  · exact_mod_cast h 0 (by norm_num)
  · exact_mod_cast h 0 (by norm_num)
  · exact_mod_cast h 2 (by norm_num)
  · exact_mod_cast h 2 (by norm_num)

theorem axesLines_unit : ∀ line ∈ axesState.refLines, ∀ l ∈ line, UnitEntry l := by
  intro r hr x hx
  simp only [axesState, List.mem_cons, List.not_mem_nil, or_false] at hr
  rcases hr with rfl | rfl <;> simp only [List.mem_cons, List.not_mem_nil, or_false] at hx <;> rcases hx with rfl | rfl
  · exact ⟨1, rfl, by norm_num⟩
  · exact ⟨0, rfl, by norm_num⟩
  · exact ⟨0, rfl, by norm_num⟩
  · exact ⟨1, rfl, by norm_num⟩

theorem axesState_moderate : ModerateState axesState := by
  refine ⟨?_, by simp [axesState], by simp [axesState], axesLines_unit⟩
  intro x hx
  simp only [axesState, List.mem_cons, List.not_mem_nil, or_false] at hx
  rcases hx with rfl | rfl <;> exact_mod_cast moderate_int 0 (by norm_num)

theorem smallPool_sorted : IsNdSort (fun i j => i = 0 ∧ j = 2) smallPool.length smallPoolEls := by
  refine ⟨by decide, by decide, ?_⟩
  intro i r h
  simp only [smallPoolEls, List.mem_cons, Prod.mk.injEq, List.not_mem_nil, or_false] at h
  rcases h with ⟨rfl, rfl⟩ | ⟨rfl, rfl⟩ | ⟨rfl, rfl⟩ | ⟨rfl, rfl⟩ <;> simp [HasRank, Remaining, smallPool]

/-- The new points of the pool, and the lines of the selected candidates. -/
example : ∃ sel s', nsga3NextD ⟨true, false, addInOrder⟩ insertSortNat (fun _ _ => 0) axesState smallPool smallPoolEls 2 = some (sel, s') ∧ IsLargestOf ([.fin 0, .fin 0] :: smallPool) s'.ideal ∧
    ExtremePoints 2 s'.ideal (smallPool ++ []) s'.extreme := by
  obtain ⟨sel, s', h1, h2, h3, -⟩ := C86_nsga3_points ⟨true, false, addInOrder⟩ insertSortNat insertSortNat_contract (fun _ _ => 0) (fun _ _ h => h) 2 (by norm_num) axesState axesState_ok
    axesState_moderate smallPool (by unfold IsMatrix; decide +kernel) smallPool_moderate _ smallPoolEls smallPool_sorted 2 (by norm_num) (by decide)
  exact ⟨sel, s', h1, h2, h3⟩
example : ∃ sel s', nsga3NextD ⟨true, false, addInOrder⟩ insertSortNat (fun _ _ => 0) axesState smallPool smallPoolEls 2 = some (sel, s') ∧
    ∀ (p i : Nat), sel[p]? = some i → ∃ c row, s'.info[p]? = some c ∧ smallPool[i]? = some row ∧ NearlyClosestLine 2 axesState.refLines s'.ideal s'.nadir row c.refIdx :=
  C86_nsga3_association ⟨true, false, addInOrder⟩ insertSortNat insertSortNat_contract (fun _ _ => 0) (fun _ _ h => h) 2 (by norm_num) (by norm_num) axesState axesState_ok
    axesState_moderate smallPool (by unfold IsMatrix; decide +kernel) smallPool_moderate _ smallPoolEls smallPool_sorted 2 (by norm_num) (by decide)
example : (nsga3NextD ⟨false, false, addInOrder⟩ insertSortNat (fun _ _ => 0) axesState smallPool smallPoolEls 2).map (fun r => (r.1, r.2.ideal, r.2.extreme, r.2.nadir)) =
    some ([1, 0], [.fin 3, .fin 3], [[.fin 1, .fin 3], [.fin 3, .fin 1]], [.fin 1, .fin 1]) := by decide +kernel

/-- The initialization with the pool. -/
example : ∃ s, nsga3InitD ⟨true, true, addInOrder⟩ axesState.refLines [] [] [] smallPool smallPoolEls = some s ∧ Nsga3Ok 2 s ∧ s.info.length = 4 := by
  obtain ⟨s, h1, h2, -, h4, -⟩ := C86_nsga3_initialize ⟨true, true, addInOrder⟩ 2 (by norm_num) axesState.refLines axesState_ok.lines axesState_ok.nonempty [] [] [] smallPool
    (by unfold IsMatrix; decide +kernel) (by simp [smallPool]) _ smallPoolEls smallPool_sorted
  exact ⟨s, h1, h2, h4⟩
example : ∃ s, nsga3InitD ⟨true, true, addInOrder⟩ axesState.refLines [] [] [] smallPool smallPoolEls = some s ∧ ModerateState s := by
  obtain ⟨s, h1, -, -, -, -, -, h2, -⟩ := C86_nsga3_first_points ⟨true, true, addInOrder⟩ 2 (by norm_num) (by norm_num) axesState.refLines axesState_ok.lines axesState_ok.nonempty axesLines_unit [] [] []
    smallPool (by unfold IsMatrix; decide +kernel) (by simp [smallPool]) smallPool_moderate _ smallPoolEls smallPool_sorted
  exact ⟨s, h1, h2⟩
example : nsga3SelectD { axesState with info := [⟨0, 1, .fin 2⟩, ⟨0, 1, .nan⟩, ⟨0, 1, .fin 1⟩, ⟨0, 0, .fin 9⟩] } false 0 2 = some 2 ∧
    nsga3SelectD { axesState with info := [⟨0, 1, .fin 2⟩, ⟨0, 1, .nan⟩, ⟨0, 1, .fin 1⟩, ⟨0, 0, .fin 9⟩] } true 3 2 = some 3 := by decide +kernel

end Gapp.Props
