import Verif.Proofs.Nsga3
import Verif.Props.Nsga2
/-!
# C32: NSGA-III

The fitness values are finite and compared exactly (zero tolerances). `els` is the result of the non-dominated sort of the pool. The reference lines are arbitrary, except for the claims
about the closest lines.
-/

namespace Gapp.Props
open Gapp.Model Gapp.Spec

section
variable {K : Type} [Field K] [LinearOrder K]

/-- Everything before the niching loop. -/
theorem nsga3Prepare_spec (sort : SortNat) (hsort : SortNatContract sort) (m : Nat) (hm0 : 0 < m) (s : Nsga3 K) (hs : Nsga3Ok m s) (fmat : List (List K)) (hm : IsMatrix m fmat)
    (els : List (Nat × Nat)) (hp : (els.map (·.1)).Perm (List.range fmat.length)) (hsorted : els.Pairwise (fun a b => a.2 ≤ b.2)) (popSize : Nat) (h0 : 0 < popSize)
    (hlt : popSize < fmat.length) :
    ∃ s' first last loop, nsga3Prepare sort s fmat els popSize = some (s', (first, last), loop) ∧ partialFront els popSize = some (first, last) ∧
      Nsga3Ok m s' ∧ s'.refLines = s.refLines ∧ s'.info.length = fmat.length ∧ s'.nadir.length = m ∧ updateIdealPoint s.ideal fmat = some s'.ideal ∧
      (∀ e ∈ els.take last, ∃ row c, fmat[e.1]? = some row ∧ s'.info[e.1]? = some c ∧ c.rank = e.2 ∧ associateOne s.refLines s'.ideal s'.nadir row = some (c.refIdx, c.refDist)) ∧
      (∀ r, loop.niche.getD r 0 = (els.take first).countP (fun e => refOf s'.info e == r)) ∧
      loop.els = els ∧ NicheInv s'.info els s.refLines.length first last 0 loop := by
  have hlen : els.length = fmat.length := by simpa using hp.length_eq
  have hnd : (els.map (·.1)).Nodup := hp.nodup_iff.mpr List.nodup_range
  have hb : ∀ e ∈ els, e.1 < fmat.length := fun e he => by simpa using hp.mem_iff.mp (List.mem_map.mpr ⟨e, he, rfl⟩)
  obtain ⟨first, last, hpf, hf1, hf2, hf3, -, -⟩ := partialFront_spec els hsorted popSize h0 (by omega)
  have hne : fmat ≠ [] := List.ne_nil_of_length_pos (by omega)
  obtain ⟨info, hi1, hi2, hi3⟩ := storeRanks_spec (resizeInfo s.info fmat.length) els hnd (fun e he => by rw [resizeInfo_length]; exact hb e he)
  rw [resizeInfo_length] at hi2
  have hsub : ∀ k, List.Sublist ((els.take k).map (·.1)) (els.map (·.1)) := fun k => (List.take_sublist _ _).map _
  obtain ⟨s', ha1, ha2, ha3, ha4, ha5, ha6, ha7, ha8, -⟩ := associatePopWithRefs_spec m hm0 { s with info := info } ⟨hs.1, hs.2, hs.3, hs.4, hs.5⟩ fmat hm hne hi2 (els.take last)
    (hnd.sublist (hsub last)) (fun e he => hb e (List.mem_of_mem_take he))
  have hall : ∀ e ∈ els.take last, ∃ row c, fmat[e.1]? = some row ∧ s'.info[e.1]? = some c ∧ c.rank = e.2 ∧ associateOne s.refLines s'.ideal s'.nadir row = some (c.refIdx, c.refDist) := by
    intro e he
    obtain ⟨row, i, d, h1, h2, h3⟩ := ha8 e he
    have h4 := hi3 e (List.mem_of_mem_take he)
    have hel := hb e (List.mem_of_mem_take he)
    rw [List.getElem?_eq_getElem (l := resizeInfo s.info fmat.length) (by rw [resizeInfo_length]; exact hel)] at h4
    have h5 : s'.info[e.1]? = some ⟨e.2, i, d⟩ := by rw [h3]; show (info[e.1]?).map _ = _; rw [h4]; rfl
    exact ⟨row, ⟨e.2, i, d⟩, h1, h5, rfl, h2⟩
  have href : ∀ e ∈ els.take last, refOf s'.info e < s.refLines.length := by
    intro e he
    obtain ⟨row, c, h1, h2, -, h4⟩ := hall e he
    obtain ⟨f, i, line, d, -, h5, h6, -⟩ := associateOne_spec m s.refLines s'.ideal s'.nadir row hs.lines hs.nonempty (hm row (List.mem_of_getElem? h1)) ha2.ideal ha6
    rw [h4] at h5
    unfold refOf
    rw [h2]
    show c.refIdx < _
    rw [(Prod.mk.inj (Option.some.inj h5)).1]
    exact (List.getElem?_eq_some_iff.mp h6).1
  have hsubf : ∀ e ∈ els.take first, e ∈ els.take last := by
    intro e he
    exact (List.take_sublist_take_left (by omega : first ≤ last)).subset he
  have hncl : s'.nicheCounts.length = s.refLines.length := by rw [ha4]; exact hs.niche
  obtain ⟨niche, hn1, hn2, hn3⟩ := recalcNicheCounts_spec s'.info s'.nicheCounts (els.take first) (fun e he => by rw [ha5]; exact hb e (List.mem_of_mem_take he))
    (fun e he => by rw [hncl]; exact href e (hsubf e he))
  obtain ⟨refs, hr1, hr2, hr3, hr4⟩ := referenceSetOf_spec sort hsort s'.info niche ((els.take last).drop first)
    (fun e he => by rw [ha5]; exact hb e (List.mem_of_mem_take (List.mem_of_mem_drop he)))
  refine ⟨s', first, last, ⟨niche, refs, els⟩, ?_, hpf, ha2, ha3, ha5, ha6, ha7, hall, hn3, rfl, ?_⟩
  · unfold nsga3Prepare
    simp only [hpf, hi1, ha1, hn1, hr1, Option.bind_eq_bind, Option.bind_some, Option.pure_def]
    rw [if_neg (by omega)]
  · refine ⟨by show niche.length = _; rw [hn2, hncl], List.Perm.refl _, fun _ _ => rfl, hr2, hr3, ?_, ?_⟩
    · intro r hr
      obtain ⟨e, he, rfl⟩ := (hr4 r).mp hr
      refine ⟨href e (List.mem_of_mem_drop he), ?_⟩
      obtain ⟨k, hk, rfl⟩ := List.mem_iff_getElem.mp he
      rw [List.length_drop, List.length_take] at hk
      refine ⟨first + k, _, by omega, by omega, ?_, rfl⟩
      rw [← slice_get _ first last k (by omega)]
      exact List.getElem?_eq_getElem _
    · intro q e h1 h2 h3
      rw [hr4]
      refine ⟨e, ?_, rfl⟩
      apply List.mem_of_getElem? (i := q - first)
      rw [slice_get _ _ _ _ (by omega), show first + (q - first) = q by omega]
      exact h3

/-- The ranks of the fronts do not change when members of one front change their places. -/
theorem loop_ranks (els els' : List (Nat × Nat)) (hsorted : els.Pairwise (fun a b => a.2 ≤ b.2)) (size : Nat) (h0 : 0 < size) (hn : size < els.length) (first last : Nat)
    (hpf : partialFront els size = some (first, last)) (hp : els'.Perm els) (ho : ∀ q, q < first ∨ last ≤ q → els'[q]? = els[q]?) : els'.map (·.2) = els.map (·.2) := by
  obtain ⟨first', last', hpf', hf1, hf2, hf3, hf4, hf5⟩ := partialFront_spec els hsorted size h0 hn
  rw [hpf] at hpf'
  obtain ⟨rfl, rfl⟩ := Prod.mk.inj (Option.some.inj hpf')
  have hsl := slice_perm els' els first last hp (by omega) ho
  have hconst : ∀ a ∈ (els.take last).drop first, ∀ b ∈ (els.take last).drop first, a.2 = b.2 := by
    by_cases hb : els[size - 1].2 = els[size].2
    · have key : ∀ a ∈ (els.take last).drop first, a.2 = els[size].2 := by
        intro a ha
        obtain ⟨k, hk, rfl⟩ := List.mem_iff_getElem.mp ha
        rw [List.length_drop, List.length_take] at hk
        simp only [List.getElem_drop, List.getElem_take]
        exact (hf5 hb (first + k) (by omega)).mp ⟨by omega, by omega⟩
      intro a ha b hb'
      rw [key a ha, key b hb']
    · obtain ⟨rfl, rfl⟩ := hf4 hb
      intro a ha
      simp at ha
  have hr := ranks_const_perm _ _ hsl hconst
  have split : ∀ l : List (Nat × Nat), l = l.take first ++ ((l.take last).drop first ++ l.drop last) := by
    intro l
    rw [← List.append_assoc]
    conv_lhs => rw [← List.take_append_drop last l]
    congr 1
    conv_lhs => rw [← List.take_append_drop first (l.take last)]
    rw [List.take_take, Nat.min_eq_left (by omega)]
  rw [split els', split els, take_eq_of_get els' els first (fun q hq => ho q (Or.inl hq)), drop_eq_of_get els' els last (fun q hq => ho q (Or.inr hq))]
  simp only [List.map_append]
  rw [hr]

/-- One replacement, step by step. -/
theorem nsga3Next_steps (sort : SortNat) (hsort : SortNatContract sort) (pick : Nat → Nat → Nat) (hpick : ∀ i n, 0 < n → pick i n < n) (m : Nat) (hm0 : 0 < m)
    (s : Nsga3 K) (hs : Nsga3Ok m s) (fmat : List (List K)) (hm : IsMatrix m fmat)
    (els : List (Nat × Nat)) (hp : (els.map (·.1)).Perm (List.range fmat.length)) (hsorted : els.Pairwise (fun a b => a.2 ≤ b.2)) (popSize : Nat) (h0 : 0 < popSize)
    (hlt : popSize < fmat.length) :
    ∃ (s' : Nsga3 K) (first last : Nat) (els' : List (Nat × Nat)) (info : List (CandInfo K)) (niche : List Nat) (draw : Nat → Nat) (chosen : Nat → List (Nat × Nat)), nsga3Next sort pick s fmat els popSize = some ((els'.take popSize).map (·.1), { s' with nicheCounts := niche, info := info }) ∧
      partialFront els popSize = some (first, last) ∧ first ≤ popSize ∧ popSize ≤ last ∧ last ≤ els.length ∧ els'.Perm els ∧ els'.map (·.2) = els.map (·.2) ∧
      els'.take popSize = els.take first ++ chosen (popSize - first) ∧ niche.length = s.refLines.length ∧
      Nsga3Ok m s' ∧ s'.refLines = s.refLines ∧ s'.nadir.length = m ∧ updateIdealPoint s.ideal fmat = some s'.ideal ∧
      (∀ e ∈ els.take last, ∃ row c, fmat[e.1]? = some row ∧ s'.info[e.1]? = some c ∧ c.rank = e.2 ∧ associateOne s.refLines s'.ideal s'.nadir row = some (c.refIdx, c.refDist)) ∧
      info.length = popSize ∧ (∀ (p : Nat) (e : Nat × Nat), (els'.take popSize)[p]? = some e → e ∈ els.take last ∧ info[p]? = s'.info[e.1]?) ∧
      (∀ r, niche.getD r 0 = (els.take first).countP (fun e => refOf s'.info e == r) + (List.range (popSize - first)).countP (fun j => draw j == r)) ∧
      chosen 0 = [] ∧ ∀ k, k < popSize - first → ∃ e ∈ (els.take last).drop first, ∃ x ∈ (els.take last).drop first,
        (∀ d ∈ (els.take last).drop first, d.1 ∉ (chosen k).map (·.1) →
          (els.take first).countP (fun e => refOf s'.info e == draw k) + (List.range k).countP (fun j => draw j == draw k) ≤
          (els.take first).countP (fun e => refOf s'.info e == refOf s'.info d) + (List.range k).countP (fun j => draw j == refOf s'.info d)) ∧
        refOf s'.info e = draw k ∧ (∀ d ∈ (els.take last).drop first, refOf s'.info d = draw k → distOf s'.info e ≤ distOf s'.info d) ∧
        x.1 ∉ (chosen k).map (·.1) ∧ (chosen (k + 1)).Perm (x :: chosen k) ∧ (e.1 ∉ (chosen k).map (·.1) → x = e) := by
  have hlen : els.length = fmat.length := by simpa using hp.length_eq
  have hnd : (els.map (·.1)).Nodup := hp.nodup_iff.mpr List.nodup_range
  have hb : ∀ e ∈ els, e.1 < fmat.length := fun e he => by simpa using hp.mem_iff.mp (List.mem_map.mpr ⟨e, he, rfl⟩)
  obtain ⟨s', first, last, loop, h1, h2, h3, h4, h5, h6, h7, h8, h9, h10, h11⟩ := nsga3Prepare_spec sort hsort m hm0 s hs fmat hm els hp hsorted popSize h0 hlt
  obtain ⟨first', last', hpf', hf1, hf2, hf3, -, -⟩ := partialFront_spec els hsorted popSize h0 (by omega)
  rw [h2] at hpf'
  obtain ⟨rfl, rfl⟩ := Prod.mk.inj (Option.some.inj hpf')
  obtain ⟨st, draw, ht1, ht2, ht3⟩ := nicheLoop_trace s'.info els s.refLines.length first last pick loop hpick (fun e he => by rw [h5]; exact hb e he) hf3 h11
  obtain ⟨hl1, hl2⟩ := ht2 (popSize - first) (by omega)
  have hll : (st (popSize - first)).els.length = els.length := hl2.perm.length_eq
  have hcounts := nicheLoop_counts s'.info first last st draw ht3
  have hmemlast : ∀ (p : Nat) (e : Nat × Nat), ((st (popSize - first)).els.take popSize)[p]? = some e → e ∈ els.take last := by
    intro p e he
    rw [List.getElem?_take] at he
    split at he
    · rename_i hpp
      by_cases hpf : p < first
      · rw [hl2.outside p (Or.inl hpf)] at he
        apply List.mem_of_getElem? (i := p)
        rw [List.getElem?_take, if_pos (by omega)]; exact he
      · have : e ∈ (els.take last).drop first := by
          rw [← (slice_perm _ _ first last hl2.perm (by omega) hl2.outside).mem_iff]
          apply List.mem_of_getElem? (i := p - first)
          rw [slice_get _ _ _ _ (by omega), show first + (p - first) = p by omega]
          exact he
        exact List.mem_of_mem_drop this
    · cases he
  have hinfo : ((st (popSize - first)).els.take popSize).mapM (fun sol => s'.info[sol.1]?) =
      some (((st (popSize - first)).els.take popSize).map (fun sol => (s'.info[sol.1]?).getD ⟨0, 0, 0⟩)) := by
    apply ListAux.mapM_eq_some_of_forall _ _ _ (by simp)
    intro i h h'
    rw [List.getElem_map]
    have := hb _ (hl2.perm.mem_iff.mp (List.mem_of_mem_take (List.getElem_mem h)))
    rw [List.getElem?_eq_getElem (by rw [h5]; exact this)]
    rfl
  refine ⟨s', first, last, (st (popSize - first)).els, ((st (popSize - first)).els.take popSize).map (fun sol => (s'.info[sol.1]?).getD ⟨0, 0, 0⟩), (st (popSize - first)).niche, draw, fun k => ((st k).els.take (first + k)).drop first, ?_, h2, hf1, hf2, hf3, hl2.perm,
    loop_ranks els _ hsorted popSize h0 (by omega) first last h2 hl2.perm hl2.outside, ?_, hl2.nicheLen, h3, h4, h6, h7, h8, ?_, ?_, ?_, ?_, ?_⟩
  · unfold nsga3Next
    rw [h1]
    simp only [Option.bind_eq_bind, Option.bind_some, hl1, frontsResize]
    rw [if_pos (by omega)]
    simp only [Option.bind_some, createPopulation, hinfo, Option.bind_eq_bind, Option.pure_def]
  · show _ = _ ++ ((st (popSize - first)).els.take (first + (popSize - first))).drop first
    rw [show first + (popSize - first) = popSize by omega]
    rw [← take_eq_of_get (st (popSize - first)).els els first (fun q hq => hl2.outside q (Or.inl hq))]
    conv_lhs => rw [← List.take_append_drop first ((st (popSize - first)).els.take popSize)]
    rw [List.take_take, Nat.min_eq_left hf1]
  · rw [List.length_map, List.length_take]; omega
  · intro p e he
    refine ⟨hmemlast p e he, ?_⟩
    rw [List.getElem?_map, he]
    have := hb _ (List.mem_of_mem_take (hmemlast p e he))
    simp only [Option.map_some]
    rw [List.getElem?_eq_getElem (by rw [h5]; exact this), Option.getD_some]
  · intro r
    rw [hcounts _ (by omega), ht1, h9]
  · show ((st 0).els.take (first + 0)).drop first = []
    simp
  · intro k hk
    obtain ⟨c, e, hr⟩ := ht3 k (by omega)
    obtain ⟨hk1, hk2⟩ := ht2 k (by omega)
    obtain ⟨hk3, hk4⟩ := ht2 (k + 1) (by omega)
    have hsl := slice_perm _ _ first last hk2.perm (by omega) hk2.outside
    have hget : ∀ d ∈ (els.take last).drop first, ∃ q, first ≤ q ∧ q < last ∧ (st k).els[q]? = some d := by
      intro d hd
      rw [← hsl.mem_iff] at hd
      obtain ⟨j, hj, rfl⟩ := List.mem_iff_getElem.mp hd
      rw [List.length_drop, List.length_take] at hj
      refine ⟨first + j, by omega, by omega, ?_⟩
      rw [← slice_get _ first last j (by omega)]
      exact List.getElem?_eq_getElem _
    obtain ⟨x, hx1, hx2, hx3, hx4⟩ := chosen_step s'.info els _ first last k (st k) (st (k + 1)) (draw k) c e hnd hf3 (by omega) hk2 hk4 hr
    refine ⟨e, ?_, x, hx1, ?_, hr.assoc, ?_, hx2, hx3, hx4⟩
    · rw [← hsl.mem_iff]
      apply List.mem_of_getElem? (i := c - first)
      have := hr.place
      rw [slice_get _ _ _ _ (by omega), show first + (c - first) = c by omega]
      exact hr.found
    · intro d hd hnc
      obtain ⟨q, hq1, hq2, hq3⟩ := hget d hd
      have hqk : first + k ≤ q := by
        by_contra hlt'
        apply hnc
        refine List.mem_map.mpr ⟨d, ?_, rfl⟩
        apply List.mem_of_getElem? (i := q - first)
        rw [slice_get _ _ _ _ (by omega), show first + (q - first) = q by omega]
        exact hq3
      have := hr.minimal q d hqk hq2 hq3
      rw [hcounts k (by omega), hcounts k (by omega), ht1, h9, h9] at this
      exact this
    · intro d hd hdr
      obtain ⟨q, hq1, hq2, hq3⟩ := hget d hd
      exact hr.closest q d hq1 hq2 hq3 hdr

/-- **C32 (replacement).** The pool has the matrix `fmat` of (finite) fitness values with `m` columns. The next population has `popSize` different members of the pool, and it keeps a
member only if it keeps all the members of the strictly better fronts. The stored information is that of the selected members, position by position: the ranks are their ranks. The state
fits the same reference lines and objectives again. -/
theorem C32_replacement (sort : SortNat) (hsort : SortNatContract sort) (pick : Nat → Nat → Nat) (hpick : ∀ i n, 0 < n → pick i n < n) (m : Nat) (hm0 : 0 < m)
    (s : Nsga3 K) (hs : Nsga3Ok m s) (fmat : List (List K)) (hm : IsMatrix m fmat) (els : List (Nat × Nat)) (hels : IsNdSort (RowDominates (finRows fmat)) fmat.length els)
    (popSize : Nat) (h0 : 0 < popSize) (hlt : popSize < fmat.length) :
    ∃ sel s', nsga3Next sort pick s fmat els popSize = some (sel, s') ∧ LegalSelection popSize fmat.length sel ∧
      (∀ i j r q, i ∈ sel → HasRank (RowDominates (finRows fmat)) fmat.length r i → HasRank (RowDominates (finRows fmat)) fmat.length q j → q < r → j ∈ sel) ∧
      s'.info.length = popSize ∧ (∀ (p i : Nat), sel[p]? = some i → ∃ c, s'.info[p]? = some c ∧ HasRank (RowDominates (finRows fmat)) fmat.length c.rank i) ∧
      Nsga3Ok m s' ∧ s'.refLines = s.refLines := by
  obtain ⟨hp, hs', hr⟩ := hels
  obtain ⟨t, first, last, els', info, niche, draw, chosen, g1, g2, g3, g4, g5, g6, g7, g8, g9, g10, g11, g12, g13, g14, g15, g16, g17, -, -⟩ :=
    nsga3Next_steps sort hsort pick hpick m hm0 s hs fmat hm els hp hs' popSize h0 hlt
  have hlen : els.length = fmat.length := by simpa using hp.length_eq
  have hlen' : els'.length = fmat.length := by rw [g6.length_eq, hlen]
  have hnd : (els'.map (·.1)).Nodup := ((g6.map (·.1)).trans hp).nodup_iff.mpr List.nodup_range
  have hs'' : els'.Pairwise (fun a b => a.2 ≤ b.2) := by
    have : (els.map (·.2)).Pairwise (· ≤ ·) := List.pairwise_map.mpr hs'
    rw [← g7] at this
    exact List.pairwise_map.mp this
  have hrank : ∀ e ∈ els', HasRank (RowDominates (finRows fmat)) fmat.length e.2 e.1 := fun e he => hr _ _ (g6.mem_iff.mp he)
  have hmem : ∀ i r, HasRank (RowDominates (finRows fmat)) fmat.length r i → (i, r) ∈ els' := by
    intro i r h
    have hi : i < fmat.length := by
      have mono : ∀ k, Remaining (RowDominates (finRows fmat)) fmat.length k i → i < fmat.length := by
        intro k
        induction k with
        | zero => exact id
        | succ k ih => exact fun h => ih h.1
      exact mono _ h.1
    have : i ∈ els'.map (·.1) := ((g6.map (·.1)).trans hp).mem_iff.mpr (by simpa using hi)
    obtain ⟨⟨i', s⟩, hm', rfl⟩ := List.mem_map.mp this
    rw [hasRank_unique h (hrank _ hm')]
    exact hm'
  have hsel : ∀ i r, HasRank (RowDominates (finRows fmat)) fmat.length r i → (i ∈ (els'.take popSize).map (·.1) ↔ (i, r) ∈ els'.take popSize) := by
    intro i r h
    constructor
    · intro hi
      obtain ⟨⟨i', s⟩, hm', rfl⟩ := List.mem_map.mp hi
      rw [hasRank_unique h (hrank _ (List.mem_of_mem_take hm'))]
      exact hm'
    · intro hi
      exact List.mem_map.mpr ⟨(i, r), hi, rfl⟩
  refine ⟨_, _, g1, ⟨by rw [List.length_map, List.length_take]; omega, hnd.sublist ((List.take_sublist _ _).map _), ?_⟩, ?_, g15, ?_, ⟨g10.1, g10.2, ?_, g10.4, g10.5⟩, g11⟩
  · intro i hi
    obtain ⟨e, he, rfl⟩ := List.mem_map.mp hi
    have := ((g6.map (·.1)).trans hp).mem_iff.mp (List.mem_map.mpr ⟨e, List.mem_of_mem_take he, rfl⟩)
    simpa using this
  · intro i j r q hi hir hjq hqr
    rw [hsel i r hir] at hi
    rw [hsel j q hjq]
    by_contra hn
    have hb : (j, q) ∈ els'.drop popSize := by
      have he := hmem j q hjq
      rw [← List.take_append_drop popSize els', List.mem_append] at he
      exact he.resolve_left hn
    have := (List.pairwise_append.mp (by rw [List.take_append_drop]; exact hs'' : (els'.take popSize ++ els'.drop popSize).Pairwise (fun a b => a.2 ≤ b.2))).2.2 _ hi _ hb
    simp only at this
    omega
  · intro p i hpi
    rw [List.getElem?_map, Option.map_eq_some_iff] at hpi
    obtain ⟨e, he, rfl⟩ := hpi
    obtain ⟨hel, hei⟩ := g16 p e he
    obtain ⟨row, c, -, hc1, hc2, -⟩ := g14 e hel
    refine ⟨c, by rw [← hc1]; exact hei, ?_⟩
    rw [hc2]
    exact hrank e (List.mem_of_mem_take (List.mem_of_getElem? he))
  · show niche.length = _
    rw [g9, g11]

/-- **C32 (ideal point).** After a replacement the ideal point is, in each objective, the largest of its former value and the values in the pool. -/
theorem C32_ideal_point (sort : SortNat) (hsort : SortNatContract sort) (pick : Nat → Nat → Nat) (hpick : ∀ i n, 0 < n → pick i n < n) (m : Nat) (hm0 : 0 < m)
    (s : Nsga3 K) (hs : Nsga3Ok m s) (fmat : List (List K)) (hm : IsMatrix m fmat) (els : List (Nat × Nat)) (hels : IsNdSort (RowDominates (finRows fmat)) fmat.length els)
    (popSize : Nat) (h0 : 0 < popSize) (hlt : popSize < fmat.length) :
    ∃ sel s', nsga3Next sort pick s fmat els popSize = some (sel, s') ∧ ∀ (j : Nat) (x : K), s'.ideal[j]? = some x →
      (∀ y, s.ideal[j]? = some y → y ≤ x) ∧ (∀ row ∈ fmat, ∀ y, row[j]? = some y → y ≤ x) ∧ (s.ideal[j]? = some x ∨ ∃ row ∈ fmat, row[j]? = some x) := by
  obtain ⟨hp, hs', hr⟩ := hels
  obtain ⟨t, first, last, els', info, niche, draw, chosen, g1, -, -, -, -, -, -, -, -, -, -, -, g13, -⟩ :=
    nsga3Next_steps sort hsort pick hpick m hm0 s hs fmat hm els hp hs' popSize h0 hlt
  refine ⟨_, _, g1, ?_⟩
  obtain ⟨v, hv1, -, hv3⟩ := updateIdealPoint_spec m s.ideal fmat hs.ideal hm (List.ne_nil_of_length_pos (by omega))
  rw [g13] at hv1
  obtain rfl := Option.some.inj hv1
  exact hv3

section
variable [IsStrictOrderedRing K]

/-- **C32 (association).** With reference directions of unit length and without negative coordinates, the reference line stored for each member of the next population is one of the
closest lines to its normalized fitness vector, and the stored distance is the (squared) distance from it. -/
theorem C32_association (sort : SortNat) (hsort : SortNatContract sort) (pick : Nat → Nat → Nat) (hpick : ∀ i n, 0 < n → pick i n < n) (m : Nat) (hm0 : 0 < m)
    (s : Nsga3 K) (hs : Nsga3Ok m s) (hu : UnitDirections s.refLines) (fmat : List (List K)) (hm : IsMatrix m fmat) (els : List (Nat × Nat))
    (hels : IsNdSort (RowDominates (finRows fmat)) fmat.length els) (popSize : Nat) (h0 : 0 < popSize) (hlt : popSize < fmat.length) :
    ∃ sel s', nsga3Next sort pick s fmat els popSize = some (sel, s') ∧ ∀ (p i : Nat), sel[p]? = some i → ∃ row f c, fmat[i]? = some row ∧ s'.info[p]? = some c ∧
      IsNormalized s'.ideal s'.nadir row f ∧ ClosestLine s.refLines f c.refIdx c.refDist := by
  obtain ⟨hp, hs', hr⟩ := hels
  obtain ⟨t, first, last, els', info, niche, draw, chosen, g1, g2, g3, g4, g5, g6, g7, g8, g9, g10, g11, g12, g13, g14, g15, g16, g17, -, -⟩ :=
    nsga3Next_steps sort hsort pick hpick m hm0 s hs fmat hm els hp hs' popSize h0 hlt
  refine ⟨_, _, g1, ?_⟩
  intro p i hpi
  rw [List.getElem?_map, Option.map_eq_some_iff] at hpi
  obtain ⟨e, he, rfl⟩ := hpi
  obtain ⟨hel, hei⟩ := g16 p e he
  obtain ⟨row, c, hc0, hc1, hc2, hc3⟩ := g14 e hel
  obtain ⟨v, hv1, -, hv3⟩ := updateIdealPoint_spec m s.ideal fmat hs.ideal hm (List.ne_nil_of_length_pos (by omega))
  rw [g13] at hv1
  obtain rfl := Option.some.inj hv1
  obtain ⟨f, i, d, ha1, ha2, ha3⟩ := associateOne_closest m s.refLines t.ideal t.nadir row hs.lines hs.nonempty hu (hm row (List.mem_of_getElem? hc0)) g10.ideal g12
    (fun j x q hx hq => (hv3 j q hq).2.1 row (List.mem_of_getElem? hc0) x hx)
  rw [hc3] at ha1
  obtain ⟨e1, e2⟩ := Prod.mk.inj (Option.some.inj ha1)
  refine ⟨row, f, c, hc0, by rw [← hc1]; exact hei, ha2, ?_⟩
  rw [e1, e2]
  exact ha3

/-- **C32 (niching), partial.** The next population consists of the members of the better fronts, and of those members of the next front that a run of the niching chooses
(`NichingRun`). The lines and the distances that it uses are the closest lines and their distances. The niche counts that it leaves are those of the run.

What is missing: the claim that each round chooses a member that is associated with the line that it draws. It is false: see `C32_niching_violated`. -/
theorem C32_niching_partial (sort : SortNat) (hsort : SortNatContract sort) (pick : Nat → Nat → Nat) (hpick : ∀ i n, 0 < n → pick i n < n) (m : Nat) (hm0 : 0 < m)
    (s : Nsga3 K) (hs : Nsga3Ok m s) (hu : UnitDirections s.refLines) (fmat : List (List K)) (hm : IsMatrix m fmat) (els : List (Nat × Nat))
    (hels : IsNdSort (RowDominates (finRows fmat)) fmat.length els) (popSize : Nat) (h0 : 0 < popSize) (hlt : popSize < fmat.length) :
    ∃ sel s', nsga3Next sort pick s fmat els popSize = some (sel, s') ∧
      ∃ (ref : Nat → Nat) (dist : Nat → K) (kept split : List Nat) (rounds : Nat) (draw : Nat → Nat) (chosen : Nat → List Nat),
        sel = kept ++ chosen rounds ∧ kept.length + rounds = popSize ∧ split.Nodup ∧
        (∃ R, (∀ i, i ∈ kept ↔ ∃ r, r < R ∧ HasRank (RowDominates (finRows fmat)) fmat.length r i) ∧
          ((rounds = 0 ∧ split = []) ∨ ∀ i, i ∈ split ↔ HasRank (RowDominates (finRows fmat)) fmat.length R i)) ∧
        (∀ i ∈ kept ++ split, ∃ row f, fmat[i]? = some row ∧ IsNormalized s'.ideal s'.nadir row f ∧ ClosestLine s.refLines f (ref i) (dist i)) ∧
        NichingRun ref dist kept split rounds draw chosen ∧ ∀ r, s'.nicheCounts.getD r 0 = nicheCount ref kept draw rounds r := by
  obtain ⟨hp, hs', hr⟩ := hels
  have hlen : els.length = fmat.length := by simpa using hp.length_eq
  have hnd : (els.map (·.1)).Nodup := hp.nodup_iff.mpr List.nodup_range
  obtain ⟨t, first, last, els', info, niche, draw, chosen, g1, g2, g3, g4, g5, g6, g7, g8, g9, g10, g11, g12, g13, g14, g15, g16, g17, g18, g19⟩ :=
    nsga3Next_steps sort hsort pick hpick m hm0 s hs fmat hm els hp hs' popSize h0 hlt
  have hmem : ∀ i r, HasRank (RowDominates (finRows fmat)) fmat.length r i → (i, r) ∈ els := by
    intro i r h
    have hi : i < fmat.length := by
      have mono : ∀ k, Remaining (RowDominates (finRows fmat)) fmat.length k i → i < fmat.length := by
        intro k
        induction k with
        | zero => exact id
        | succ k ih => exact fun h => ih h.1
      exact mono _ h.1
    have : i ∈ els.map (·.1) := hp.mem_iff.mpr (by simpa using hi)
    obtain ⟨⟨i', s⟩, hm', rfl⟩ := List.mem_map.mp this
    rw [hasRank_unique h (hr _ _ hm')]
    exact hm'
  refine ⟨_, _, g1, fun i => ((t.info[i]?).map (·.refIdx)).getD 0, fun i => ((t.info[i]?).map (·.refDist)).getD 0, (els.take first).map (·.1), ((els.take last).drop first).map (·.1),
    popSize - first, draw, fun k => (chosen k).map (·.1), ?_, ?_, ?_, ?_, ?_, ⟨?_, ?_⟩, ?_⟩
  · rw [g8, List.map_append]
  · rw [List.length_map, List.length_take]; omega
  · exact hnd.sublist (((List.drop_sublist _ _).trans (List.take_sublist _ _)).map _)
  · obtain ⟨first', last', hpf', hf1, hf2, hf3, hf4, hf5⟩ := partialFront_spec els hs' popSize h0 (by omega)
    rw [g2] at hpf'
    obtain ⟨rfl, rfl⟩ := Prod.mk.inj (Option.some.inj hpf')
    have hmono : ∀ a b (ha : a < els.length) (hb : b < els.length), a ≤ b → els[a].2 ≤ els[b].2 := by
      intro a b ha hb hab
      rcases Nat.eq_or_lt_of_le hab with rfl | h
      · exact le_refl _
      · exact List.pairwise_iff_getElem.mp hs' a b ha hb h
    have hget : ∀ (k : Nat) (e : Nat × Nat), els[k]? = some e → HasRank (RowDominates (finRows fmat)) fmat.length e.2 e.1 :=
      fun k e he => hr _ _ (List.mem_of_getElem? he)
    -- the first position with a rank of at least that of the front that is cut
    have hcut : ∀ q (hq : q < els.length), q < first ↔ els[q].2 < els[popSize].2 := by
      intro q hq
      by_cases hb : els[popSize - 1].2 = els[popSize].2
      · have hq5 := hf5 hb q hq
        have hp5 := hf5 hb (popSize - 1) (by omega)
        have h1 := (hf5 hb popSize (by omega)).mpr rfl
        constructor
        · intro h
          have h2 := hmono q popSize hq (by omega) (by omega)
          have h3 : els[q].2 ≠ els[popSize].2 := fun h' => by have := hq5.mpr h'; omega
          omega
        · intro h
          by_contra hge
          by_cases hql : q < last
          · have := hq5.mp ⟨by omega, hql⟩; omega
          · have := hmono popSize q (by omega) hq (by omega); omega
      · obtain ⟨e1, e2⟩ := hf4 hb
        constructor
        · intro h
          have h1 := hmono q (popSize - 1) hq (by omega) (by omega)
          have h2 := hmono (popSize - 1) popSize (by omega) (by omega) (by omega)
          omega
        · intro h
          by_contra hge
          have := hmono popSize q (by omega) hq (by omega)
          omega
    refine ⟨els[popSize].2, ?_, ?_⟩
    · intro i
      constructor
      · intro hi
        obtain ⟨e, he, rfl⟩ := List.mem_map.mp hi
        obtain ⟨k, hk, rfl⟩ := List.mem_iff_getElem.mp he
        rw [List.length_take] at hk
        rw [List.getElem_take]
        exact ⟨_, (hcut k (by omega)).mp (by omega), hget k _ (List.getElem?_eq_getElem _)⟩
      · rintro ⟨r, hrR, hir⟩
        have := hmem i r hir
        obtain ⟨k, hk, he⟩ := List.mem_iff_getElem.mp this
        refine List.mem_map.mpr ⟨(i, r), ?_, rfl⟩
        apply List.mem_of_getElem? (i := k)
        rw [List.getElem?_take, if_pos ((hcut k hk).mpr (by rw [he]; exact hrR)), List.getElem?_eq_getElem hk, he]
    · by_cases hb : els[popSize - 1].2 = els[popSize].2
      · right
        intro i
        constructor
        · intro hi
          obtain ⟨e, he, rfl⟩ := List.mem_map.mp hi
          obtain ⟨k, hk, rfl⟩ := List.mem_iff_getElem.mp he
          rw [List.length_drop, List.length_take] at hk
          simp only [List.getElem_drop, List.getElem_take]
          rw [← (hf5 hb (first + k) (by omega)).mp ⟨by omega, by omega⟩]
          exact hget (first + k) _ (List.getElem?_eq_getElem _)
        · intro hir
          obtain ⟨k, hk, he⟩ := List.mem_iff_getElem.mp (hmem i _ hir)
          obtain ⟨hk1, hk2⟩ := (hf5 hb k hk).mpr (by rw [he])
          refine List.mem_map.mpr ⟨(i, els[popSize].2), ?_, rfl⟩
          apply List.mem_of_getElem? (i := k - first)
          rw [slice_get _ _ _ _ (by omega), show first + (k - first) = k by omega, List.getElem?_eq_getElem hk, he]
      · left
        obtain ⟨e1, e2⟩ := hf4 hb
        refine ⟨by omega, ?_⟩
        rw [List.map_eq_nil_iff, List.drop_eq_nil_iff, List.length_take]
        omega
  · intro i hi
    have : ∃ e ∈ els.take last, e.1 = i := by
      rcases List.mem_append.mp hi with h | h
      · obtain ⟨e, he, rfl⟩ := List.mem_map.mp h
        exact ⟨e, (List.take_sublist_take_left (by omega : first ≤ last)).subset he, rfl⟩
      · obtain ⟨e, he, rfl⟩ := List.mem_map.mp h
        exact ⟨e, List.mem_of_mem_drop he, rfl⟩
    obtain ⟨e, hel, rfl⟩ := this
    obtain ⟨row, c, hc0, hc1, hc2, hc3⟩ := g14 e hel
    obtain ⟨v, hv1, -, hv3⟩ := updateIdealPoint_spec m s.ideal fmat hs.ideal hm (List.ne_nil_of_length_pos (by omega))
    rw [g13] at hv1
    obtain rfl := Option.some.inj hv1
    obtain ⟨f, i, d, ha1, ha2, ha3⟩ := associateOne_closest m s.refLines t.ideal t.nadir row hs.lines hs.nonempty hu (hm row (List.mem_of_getElem? hc0)) g10.ideal g12
      (fun j x q hx hq => (hv3 j q hq).2.1 row (List.mem_of_getElem? hc0) x hx)
    rw [hc3] at ha1
    obtain ⟨e1, e2⟩ := Prod.mk.inj (Option.some.inj ha1)
    refine ⟨row, f, hc0, ha2, ?_⟩
    dsimp only
    rw [hc1]
    simp only [Option.map_some, Option.getD_some]
    rw [e1, e2]
    exact ha3
  · show (chosen 0).map (·.1) = []
    rw [g18]; rfl
  · intro k hk
    obtain ⟨e, he, x, hx, h1, h2, h3, h4, h5, h6⟩ := g19 k hk
    have hcnt : ∀ j r, nicheCount (fun i => ((t.info[i]?).map (·.refIdx)).getD 0) ((els.take first).map (·.1)) draw j r =
        (els.take first).countP (fun e => refOf t.info e == r) + (List.range j).countP (fun j => draw j == r) := by
      intro j r
      unfold nicheCount
      rw [List.countP_map]
      rfl
    refine ⟨e.1, List.mem_map.mpr ⟨e, he, rfl⟩, x.1, List.mem_map.mpr ⟨x, hx, rfl⟩, ?_, h2, ?_, h4, h5.map _, fun h => by rw [h6 h]⟩
    · intro d hd hnc
      obtain ⟨d', hd', rfl⟩ := List.mem_map.mp hd
      rw [hcnt, hcnt]
      exact h1 d' hd' hnc
    · intro d hd hdr
      obtain ⟨d', hd', rfl⟩ := List.mem_map.mp hd
      exact h3 d' hd' hdr
  · intro r
    show niche.getD r 0 = _
    rw [g17]
    unfold nicheCount
    rw [List.countP_map]
    rfl
end

/-- **C32 (optimal solutions).** After a replacement the optimal solutions are exactly the members of the new population that no member of the new population dominates. -/
theorem C32_optimal_solutions (sort : SortNat) (hsort : SortNatContract sort) (pick : Nat → Nat → Nat) (hpick : ∀ i n, 0 < n → pick i n < n) (m : Nat) (hm0 : 0 < m)
    (s : Nsga3 K) (hs : Nsga3Ok m s) (fmat : List (List K)) (hm : IsMatrix m fmat) (els : List (Nat × Nat)) (hels : IsNdSort (RowDominates (finRows fmat)) fmat.length els)
    (popSize : Nat) (h0 : 0 < popSize) (hlt : popSize < fmat.length) :
    ∃ sel s', nsga3Next sort pick s fmat els popSize = some (sel, s') ∧ s'.optimal.Pairwise (· < ·) ∧
      ∀ p, p ∈ s'.optimal ↔ ∃ i, sel[p]? = some i ∧ ∀ j ∈ sel, ¬ RowDominates (finRows fmat) j i := by
  obtain ⟨sel, s', h1, ⟨h2, h2', h2''⟩, h3, h5, h7, -, -⟩ := C32_replacement sort hsort pick hpick m hm0 s hs fmat hm els hels popSize h0 hlt
  obtain ⟨hc1, hc2⟩ := C48_find_indices (fun c : CandInfo K => c.rank == 0) s'.info
  refine ⟨sel, s', h1, hc1, ?_⟩
  intro p
  unfold Nsga3.optimal
  rw [hc2]
  constructor
  · rintro ⟨c, hr, h0r⟩
    rw [beq_iff_eq] at h0r
    have hpl : p < sel.length := by rw [h2, ← h5]; exact (List.getElem?_eq_some_iff.mp hr).1
    refine ⟨sel[p], List.getElem?_eq_getElem hpl, ?_⟩
    obtain ⟨c', hr', hk⟩ := h7 p _ (List.getElem?_eq_getElem hpl)
    rw [hr] at hr'
    obtain rfl := Option.some.inj hr'
    rw [h0r] at hk
    intro j hj hd
    exact hk.2 ⟨hk.1, j, h2'' j hj, hd⟩
  · rintro ⟨i, hi, hnd⟩
    obtain ⟨c, hr, hk⟩ := h7 p i hi
    refine ⟨c, hr, ?_⟩
    rw [beq_iff_eq]
    by_contra hne
    obtain ⟨r, hr'⟩ := Nat.exists_eq_succ_of_ne_zero hne
    rw [hr'] at hk
    obtain ⟨j, hj, hd⟩ := rank_succ_dominated _ _ _ _ hk
    exact hnd j (h3 i j _ _ (List.mem_of_getElem? hi) hk hj (by omega)) hd

/-- **C32 (initialization).** After the initialization the state fits the reference lines and the objectives, and the information of each candidate is stored at its position. -/
theorem C32_initialize (m : Nat) (hm0 : 0 < m) (refLines : List (List K)) (hl : IsMatrix m refLines) (hne : refLines ≠ []) (nadir : List K) (info : List (CandInfo K)) (niche : List Nat)
    (fmat : List (List K)) (hm : IsMatrix m fmat) (hf : fmat ≠ []) (els : List (Nat × Nat)) (hels : IsNdSort (RowDominates (finRows fmat)) fmat.length els) :
    ∃ s, nsga3Init refLines nadir info niche fmat els = some s ∧ Nsga3Ok m s ∧ s.refLines = refLines ∧ s.info.length = fmat.length ∧
      (∀ i c, s.info[i]? = some c → HasRank (RowDominates (finRows fmat)) fmat.length c.rank i ∧ c.refIdx < refLines.length) ∧
      ∀ r, s.nicheCounts.getD r 0 = s.info.countP (fun c => c.refIdx == r) := by
  obtain ⟨hp, hs', hr⟩ := hels
  have hlen : els.length = fmat.length := by simpa using hp.length_eq
  have hnd : (els.map (·.1)).Nodup := hp.nodup_iff.mpr List.nodup_range
  have hb : ∀ e ∈ els, e.1 < fmat.length := fun e he => by simpa using hp.mem_iff.mp (List.mem_map.mpr ⟨e, he, rfl⟩)
  obtain ⟨ideal, hi1, hi2, -⟩ := C52_max m fmat hm hf
  obtain ⟨info', hj1, hj2, hj3⟩ := storeRanks_spec (resizeInfo info fmat.length) els hnd (fun e he => by rw [resizeInfo_length]; exact hb e he)
  rw [resizeInfo_length] at hj2
  set niche0 := niche.take refLines.length ++ List.replicate (refLines.length - niche.length) 0 with hn0
  have hnl : niche0.length = refLines.length := by
    rw [hn0, List.length_append, List.length_take, List.length_replicate]; omega
  obtain ⟨s, ha1, ha2, ha3, ha4, ha5, ha6, ha7, ha8, -⟩ := associatePopWithRefs_spec m hm0 ⟨refLines, info', niche0, ideal, nadir, []⟩
    ⟨hl, hne, hnl, hi2, by intro r hr; simp at hr⟩ fmat hm hf hj2 els hnd hb
  have hall : ∀ e ∈ els, ∃ c, s.info[e.1]? = some c ∧ c.rank = e.2 ∧ c.refIdx < refLines.length := by
    intro e he
    obtain ⟨row, i, d, h1, h2, h3⟩ := ha8 e he
    have h4 := hj3 e he
    rw [List.getElem?_eq_getElem (l := resizeInfo info fmat.length) (by rw [resizeInfo_length]; exact hb e he)] at h4
    have h5 : s.info[e.1]? = some ⟨e.2, i, d⟩ := by rw [h3]; show (info'[e.1]?).map _ = _; rw [h4]; rfl
    refine ⟨⟨e.2, i, d⟩, h5, rfl, ?_⟩
    show i < _
    obtain ⟨f, i', line, d', -, h6, h7, -⟩ := associateOne_spec m refLines s.ideal s.nadir row hl hne (hm row (List.mem_of_getElem? h1)) ha2.ideal ha6
    have h2' : associateOne refLines s.ideal s.nadir row = some (i, d) := h2
    rw [h2'] at h6
    rw [(Prod.mk.inj (Option.some.inj h6)).1]
    exact (List.getElem?_eq_some_iff.mp h7).1
  have hpos : ∀ i, i < fmat.length → ∃ e ∈ els, e.1 = i := by
    intro i hi
    obtain ⟨e, he, rfl⟩ := List.mem_map.mp (hp.mem_iff.mpr (by simpa using hi : i ∈ List.range fmat.length))
    exact ⟨e, he, rfl⟩
  obtain ⟨nc, hc1, hc2, hc3⟩ := recalcNicheCounts_spec s.info s.nicheCounts els (fun e he => by rw [ha5]; exact hb e he)
    (by intro e he
        obtain ⟨c, h1, -, h3⟩ := hall e he
        unfold refOf
        rw [h1, ha4]
        show c.refIdx < niche0.length
        rw [hnl]; exact h3)
  refine ⟨{ s with nicheCounts := nc }, ?_, ⟨ha2.1, ha2.2, ?_, ha2.4, ha2.5⟩, ha3, ha5, ?_, ?_⟩
  · unfold nsga3Init
    simp only [hi1, hj1, Option.bind_eq_bind, Option.bind_some]
    rw [← hn0, ha1]
    simp only [Option.bind_some, hc1, Option.pure_def]
  · show nc.length = _
    rw [hc2]; exact ha2.niche
  · intro i c hic
    have hi : i < fmat.length := by rw [← ha5]; exact (List.getElem?_eq_some_iff.mp hic).1
    obtain ⟨e, he, rfl⟩ := hpos i hi
    obtain ⟨c', h1, h2, h3⟩ := hall e he
    have : s.info[e.1]? = some c := hic
    rw [h1] at this
    obtain rfl := Option.some.inj this
    rw [h2]
    exact ⟨hr _ _ he, h3⟩
  · intro r
    show nc.getD r 0 = s.info.countP _
    rw [hc3]
    have h1 : els.countP (fun e => refOf s.info e == r) = (els.map (·.1)).countP (fun i => ((s.info[i]?).map (·.refIdx)).getD 0 == r) := by
      rw [List.countP_map]; rfl
    rw [h1, hp.countP_eq, ← ha5]
    conv_rhs => rw [show s.info = (List.range s.info.length).map (fun i => (s.info[i]?).getD ⟨0, 0, 0⟩) by
      apply List.ext_getElem (by simp)
      intro i h1 h2
      simp [List.getElem?_eq_getElem h1]]
    rw [List.countP_map]
    apply List.countP_congr
    intro i hi
    rw [List.mem_range] at hi
    simp [List.getElem?_eq_getElem hi]

omit [Field K] in
/-- **C32 (selection).** The selection returns one of the two candidates it draws. If they are associated with the same line, the one with the better rank is returned, and the closer one
if the ranks are equal. -/
theorem C32_selection (s : Nsga3 K) (coin : Bool) (i j : Nat) (a b : CandInfo K) (hi : s.info[i]? = some a) (hj : s.info[j]? = some b) :
    ∃ k c d, s.select coin i j = some k ∧ ((k = i ∧ c = a ∧ d = b) ∨ (k = j ∧ c = b ∧ d = a)) ∧
      (a.refIdx = b.refIdx → c.rank ≤ d.rank ∧ (c.rank = d.rank → c.refDist ≤ d.refDist)) := by
  unfold Nsga3.select nichedCompare
  simp only [hi, hj, Option.bind_eq_bind, Option.bind_some, Option.pure_def]
  by_cases h1 : a.refIdx = b.refIdx
  · rw [if_pos h1]
    by_cases h2 : a.rank ≠ b.rank
    · rw [if_pos h2]
      by_cases h3 : a.rank < b.rank
      · exact ⟨i, a, b, by simp [h3], Or.inl ⟨rfl, rfl, rfl⟩, fun _ => ⟨h3.le, fun h => absurd h h2⟩⟩
      · exact ⟨j, b, a, by simp [h3], Or.inr ⟨rfl, rfl, rfl⟩, fun _ => ⟨by omega, fun h => absurd h.symm h2⟩⟩
    · rw [if_neg h2]
      rw [not_not] at h2
      by_cases h3 : a.refDist < b.refDist
      · exact ⟨i, a, b, by simp [h3], Or.inl ⟨rfl, rfl, rfl⟩, fun _ => ⟨h2.le, fun _ => h3.le⟩⟩
      · exact ⟨j, b, a, by simp [h3], Or.inr ⟨rfl, rfl, rfl⟩, fun _ => ⟨h2.ge, fun _ => not_lt.mp h3⟩⟩
  · rw [if_neg h1]
    cases coin
    · exact ⟨j, b, a, rfl, Or.inr ⟨rfl, rfl, rfl⟩, fun h => absurd h h1⟩
    · exact ⟨i, a, b, rfl, Or.inl ⟨rfl, rfl, rfl⟩, fun h => absurd h h1⟩
end

/-- Insertion sort of indices. -/
def insertSortNat : SortNat := fun lt l => l.insertionSort (fun a b => lt b a = false)

theorem insertSortNat_contract : SortNatContract insertSortNat := by
  intro lt h l
  refine ⟨List.perm_insertionSort _ _, ?_⟩
  have tot : Std.Total (fun a b : Nat => lt b a = false) := ⟨fun a b => by
    by_contra hc
    push Not at hc
    simp only [ne_eq, Bool.not_eq_false] at hc
    have := h.trans _ _ _ hc.1 hc.2
    rw [h.irrefl] at this; cases this⟩
  have tr : IsTrans Nat (fun a b => lt b a = false) := ⟨fun a b c hab hbc => by
    by_contra hca
    simp only [Bool.not_eq_false] at hca
    by_cases hac : lt a b = true
    · have := h.trans c a b hca hac
      rw [hbc] at this; cases this
    · simp only [Bool.not_eq_true] at hac
      by_cases hcb : lt b c = true
      · have := h.trans b c a hcb hca
        rw [hab] at this; cases this
      · simp only [Bool.not_eq_true] at hcb
        have := h.incomp c b a hbc hcb hab hac
        rw [hca] at this; cases this⟩
  exact List.pairwise_insertionSort _ _

/-- The two reference lines along the axes. -/
def nsga3Lines : List (List ℚ) := [[0, 1], [1, 0]]

theorem nsga3Lines_unit : UnitDirections nsga3Lines := by unfold UnitDirections nsga3Lines; decide +kernel

/-- A population of six and their six children: four candidates in the first front, four in the second and four in the third. -/
def nsga3Pool : List (List ℚ) := [[10, 9], [10, 9], [10, 9], [9, 10], [8, 1], [7, 2], [2, 7], [1, 8], [0, 0], [0, 0], [0, 0], [0, 0]]

/-- The non-dominated sort of the pool. -/
def nsga3PoolEls : List (Nat × Nat) := [(0, 0), (1, 0), (2, 0), (3, 0), (4, 1), (5, 1), (6, 1), (7, 1), (8, 2), (9, 2), (10, 2), (11, 2)]

theorem nsga3PoolEls_isNdSort : IsNdSort (RowDominates (finRows nsga3Pool)) nsga3Pool.length nsga3PoolEls := by
  obtain ⟨⟨res, h1, h2⟩, -⟩ := C10_nd_sort_exact (K := ℚ) (m := 2) (fmat := finRows nsga3Pool) (by unfold IsMatrix; decide +kernel)
  have : fastNonDominatedSort (⟨0, 0⟩ : Tol ℚ) (finRows nsga3Pool) = some nsga3PoolEls := by decide +kernel
  rw [this] at h1
  obtain rfl := Option.some.inj h1
  exact h2

/-- The state after the initialization with the first six candidates of the pool. -/
def nsga3State : Nsga3 ℚ :=
  ⟨nsga3Lines, [⟨0, 0, 0⟩, ⟨0, 0, 0⟩, ⟨0, 0, 0⟩, ⟨0, 1, 0⟩, ⟨1, 0, 4⟩, ⟨1, 0, 9⟩], [5, 1], [10, 10], [9, 9], [[9, 10], [10, 9]]⟩

theorem nsga3State_initial : nsga3Init nsga3Lines [] [] [] (nsga3Pool.take 6) (nsga3PoolEls.take 6) = some nsga3State := by decide +kernel

theorem nsga3State_ok : Nsga3Ok 2 nsga3State :=
  ⟨by unfold IsMatrix; decide +kernel, by simp [nsga3State, nsga3Lines], rfl, rfl, by unfold IsMatrix; decide +kernel⟩

/-- The result of the replacement, if the first of the lines that can be drawn is drawn in each round. -/
theorem nsga3Next_pool : nsga3Next insertSortNat (fun _ _ => 0) nsga3State nsga3Pool nsga3PoolEls 6 =
    some ([0, 1, 2, 3, 5, 7], ⟨nsga3Lines, [⟨0, 0, 0⟩, ⟨0, 0, 0⟩, ⟨0, 0, 0⟩, ⟨0, 1, 0⟩, ⟨1, 0, 9⟩, ⟨1, 1, 4⟩], [3, 3], [10, 10], [9, 9], [[9, 10], [10, 9]]⟩) := by decide +kernel

/-- Non-vacuity of the initialization. -/
example : ∃ s, nsga3Init nsga3Lines [] [] [] nsga3Pool nsga3PoolEls = some s ∧ Nsga3Ok 2 s := by
  obtain ⟨s, h1, h2, -⟩ := C32_initialize 2 (by omega) nsga3Lines (by unfold IsMatrix; decide +kernel) (by decide +kernel) [] [] [] nsga3Pool (by unfold IsMatrix; decide +kernel)
    (by decide +kernel) nsga3PoolEls nsga3PoolEls_isNdSort
  exact ⟨s, h1, h2⟩

/-- Non-vacuity of the replacement, the ideal point, the association, the niching and the optimal solutions: they have the same hypotheses. -/
example : ∃ sel s', nsga3Next insertSortNat (fun _ _ => 0) nsga3State nsga3Pool nsga3PoolEls 6 = some (sel, s') ∧ LegalSelection 6 12 sel := by
  obtain ⟨sel, s', h1, h2, -⟩ := C32_replacement insertSortNat insertSortNat_contract (fun _ _ => 0) (fun _ _ h => h) 2 (by omega) nsga3State nsga3State_ok nsga3Pool
    (by unfold IsMatrix; decide +kernel) nsga3PoolEls nsga3PoolEls_isNdSort 6 (by omega) (by decide +kernel)
  exact ⟨sel, s', h1, h2⟩
example : ∃ sel s', nsga3Next insertSortNat (fun _ _ => 0) nsga3State nsga3Pool nsga3PoolEls 6 = some (sel, s') ∧ ∀ p i : Nat, sel[p]? = some i → ∃ (row f : List ℚ) (c : CandInfo ℚ), nsga3Pool[i]? = some row ∧
    s'.info[p]? = some c ∧ IsNormalized s'.ideal s'.nadir row f ∧ ClosestLine nsga3Lines f c.refIdx c.refDist :=
  C32_association insertSortNat insertSortNat_contract (fun _ _ => 0) (fun _ _ h => h) 2 (by omega) nsga3State nsga3State_ok nsga3Lines_unit nsga3Pool
    (by unfold IsMatrix; decide +kernel) nsga3PoolEls nsga3PoolEls_isNdSort 6 (by omega) (by decide +kernel)
/-- Non-vacuity of the selection. -/
example : nsga3State.select false 4 5 = some 4 ∧ nsga3State.select false 3 5 = some 5 := by decide +kernel

/-- The closest of the two lines. -/
theorem closestLine_axes (a b : ℚ) (h0 : 0 ≤ a) (h1 : 0 ≤ b) (i : Nat) (d : ℚ) (h : ClosestLine nsga3Lines [a, b] i d) : (a < b → i = 0) ∧ (b < a → i = 1) := by
  obtain ⟨line, hl, hd, hmin⟩ := h
  have hunit : ∀ l ∈ nsga3Lines, innerProduct l l = 1 := fun l hl => by rw [innerProduct_self]; exact (nsga3Lines_unit l hl).1
  have hlen : ∀ l ∈ nsga3Lines, l.length = 2 := by decide +kernel
  have hmem := List.mem_of_getElem? hl
  have hdv := lineDistSq_unit line [a, b] d (hlen line hmem) (hunit line hmem) hd
  have key : ∀ l ∈ nsga3Lines, d ≤ innerProduct [a, b] [a, b] - innerProduct l [a, b] ^ 2 := by
    intro l hl'
    obtain ⟨d', hd'⟩ := perpendicularDistanceSq_ok 2 l [a, b] (hlen l hl') rfl
    obtain ⟨-, e1, e2⟩ := perpendicularDistanceSq_unit l [a, b] d' hd' (hunit l hl')
    rw [← e1]
    exact hmin l hl' d' e2
  have k0 := key [0, 1] (by decide +kernel)
  have k1 := key [1, 0] (by decide +kernel)
  match i, hl with
  | 0, hl =>
    obtain rfl : [0, 1] = line := Option.some.inj hl
    refine ⟨fun _ => rfl, fun h => ?_⟩
    rw [hdv] at k1
    simp only [innerProduct, List.zipWith_cons_cons, List.zipWith_nil_left, List.sum_cons, List.sum_nil] at k1
    nlinarith
  | 1, hl =>
    obtain rfl : [1, 0] = line := Option.some.inj hl
    refine ⟨fun h => ?_, fun _ => rfl⟩
    rw [hdv] at k0
    simp only [innerProduct, List.zipWith_cons_cons, List.zipWith_nil_left, List.sum_cons, List.sum_nil] at k0
    nlinarith
  | i + 2, hl => simp [nsga3Lines] at hl

/-- **C32 (niching), violated.** There is a pool, in a state that is reached by the initialization with the first half of it, from which a member `i` of a front is kept and a member `j`
of the same front is rejected, although the kept members that are associated with the line of `j` are fewer by two than those that are associated with the line of `i`. (The line of `j`
was drawn in both rounds of the niching; in the second one its closest member was found again, although it had been chosen in the first one, and `i` was chosen instead.) -/
theorem C32_niching_violated : ∃ (sel : List Nat) (s' : Nsga3 ℚ), SortNatContract insertSortNat ∧ Nsga3Ok 2 nsga3State ∧ UnitDirections nsga3State.refLines ∧
    nsga3Init nsga3Lines [] [] [] (nsga3Pool.take 6) (nsga3PoolEls.take 6) = some nsga3State ∧ IsNdSort (RowDominates (finRows nsga3Pool)) nsga3Pool.length nsga3PoolEls ∧
    nsga3Next insertSortNat (fun _ _ => 0) nsga3State nsga3Pool nsga3PoolEls 6 = some (sel, s') ∧
    ∃ i j r, HasRank (RowDominates (finRows nsga3Pool)) nsga3Pool.length r i ∧ HasRank (RowDominates (finRows nsga3Pool)) nsga3Pool.length r j ∧ i ∈ sel ∧ j ∉ sel ∧
      ∀ ref : Nat → Nat, (∀ k ∈ j :: sel, ∃ row f d, nsga3Pool[k]? = some row ∧ IsNormalized s'.ideal s'.nadir row f ∧ ClosestLine nsga3State.refLines f (ref k) d) →
        sel.countP (fun k => ref k == ref j) + 1 < sel.countP (fun k => ref k == ref i) := by
  refine ⟨_, _, insertSortNat_contract, nsga3State_ok, nsga3Lines_unit, nsga3State_initial, nsga3PoolEls_isNdSort, nsga3Next_pool, 5, 6, 1,
    nsga3PoolEls_isNdSort.2.2 5 1 (by decide +kernel), nsga3PoolEls_isNdSort.2.2 6 1 (by decide +kernel), by decide +kernel, by decide +kernel, ?_⟩
  intro ref href
  have key : ∀ k ∈ [6, 0, 1, 2, 3, 5, 7], ∀ x y : ℚ, nsga3Pool[k]? = some [x, y] → x ≤ 10 → y ≤ 10 → (y < x → ref k = 0) ∧ (x < y → ref k = 1) := by
    intro k hk x y hxy hx hy
    obtain ⟨row, f, d, h1, ⟨h2, h3⟩, h4⟩ := href k hk
    rw [hxy] at h1
    obtain rfl := Option.some.inj h1
    have f0 := h3 0 x 10 9 rfl rfl rfl
    have f1 := h3 1 y 10 9 rfl rfl rfl
    have hm : max ((10 : ℚ) - 9) (1 / 100000000) = 1 := by norm_num
    rw [hm, div_one] at f0 f1
    obtain ⟨a, b, rfl⟩ : ∃ a b, f = [a, b] := List.length_eq_two.mp h2
    have ha : a = 10 - x := Option.some.inj f0
    have hb : b = 10 - y := Option.some.inj f1
    obtain ⟨g1, g2⟩ := closestLine_axes a b (by linarith) (by linarith) (ref k) d h4
    exact ⟨fun h => g1 (by linarith), fun h => g2 (by linarith)⟩
  have r0 := (key 0 (by simp) 10 9 rfl (by norm_num) (by norm_num)).1 (by norm_num)
  have r1 := (key 1 (by simp) 10 9 rfl (by norm_num) (by norm_num)).1 (by norm_num)
  have r2 := (key 2 (by simp) 10 9 rfl (by norm_num) (by norm_num)).1 (by norm_num)
  have r3 := (key 3 (by simp) 9 10 rfl (by norm_num) (by norm_num)).2 (by norm_num)
  have r5 := (key 5 (by simp) 7 2 rfl (by norm_num) (by norm_num)).1 (by norm_num)
  have r6 := (key 6 (by simp) 2 7 rfl (by norm_num) (by norm_num)).2 (by norm_num)
  have r7 := (key 7 (by simp) 1 8 rfl (by norm_num) (by norm_num)).2 (by norm_num)
  simp [List.countP_cons, r0, r1, r2, r3, r5, r6, r7]

end Gapp.Props
