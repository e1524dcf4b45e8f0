import Verif.Proofs.DoubleNsga2
import Verif.Props.Nsga2
/-!
# C86: NSGA-II in binary64 arithmetic
-/

namespace Gapp.Props
open Gapp.Model Gapp.Spec

theorem getD_nonneg (d : List Dbl) (h : ∀ x ∈ d, NonnegD x) (i : Nat) : NonnegD (d.getD i (.fin 0)) := by
  rw [List.getD_eq_getElem?_getD]
  rcases hi : d[i]? with _ | x
  · exact Or.inr ⟨0, rfl, le_refl _⟩
  · exact h x (List.mem_of_getElem? hi)

theorem distGreaterD_swo (d : List Dbl) (h : ∀ x ∈ d, NonnegD x) : StrictWeakOrder (distGreaterD d) :=
  swo_of_dblKey_gt (fun e : Nat × Nat => d.getD e.1 (.fin 0)) (fun e => nonneg_ne_nan (getD_nonneg d h e.1))

/-- The sort of the split front. -/
theorem sortPartialFrontD_spec (sort : SortFn) (hsort : SortContract sort) (recip : Bool) (ncols : Nat) (fmat : List (List Dbl)) (hm : IsMatrix ncols fmat) (hmod : ∀ r ∈ fmat, ∀ v ∈ r, ModerateD v)
    (els : List (Nat × Nat)) (hp : (els.map (·.1)).Perm (List.range fmat.length)) (hs : els.Pairwise (fun a b => a.2 ≤ b.2))
    (popSize : Nat) (h0 : 0 < popSize) (hle : popSize ≤ els.length) :
    ∃ els', sortPartialFrontD sort recip ncols fmat els popSize = some els' ∧ els'.Perm els ∧ els'.map (·.2) = els.map (·.2) ∧
      ∀ r, (∃ e ∈ els'.take popSize, e.2 = r) → (∃ e ∈ els'.drop popSize, e.2 = r) → ∃ (front : List (Nat × Nat)) (d : Nat → Dbl),
        (∀ e, e ∈ front ↔ e ∈ els ∧ e.2 = r) ∧ (front.map (·.1)).Nodup ∧ IsCrowdingD recip ncols fmat (front.map (·.1)) d ∧
        ∀ a ∈ els'.take popSize, ∀ b ∈ els'.drop popSize, a.2 = r → b.2 = r → Dbl.le (d b.1) (d a.1) = true := by
  obtain ⟨hc1, hc2⟩ := C11_partial_front els hs popSize h0
  have hnd : (els.map (·.1)).Nodup := hp.nodup_iff.mpr List.nodup_range
  have hlt : ∀ e ∈ els, e.1 < fmat.length := fun e he => by
    have := hp.mem_iff.mp (List.mem_map.mpr ⟨e, he, rfl⟩); simpa using this
  have hmono : ∀ (i j : Nat) (hi : i < els.length) (hj : j < els.length), i ≤ j → els[i].2 ≤ els[j].2 := by
    intro i j hi hj hij
    rcases Nat.lt_or_eq_of_le hij with h | rfl
    · exact List.pairwise_iff_getElem.mp hs i j hi hj h
    · exact Nat.le_refl _
  -- elements on both sides of the cut have the rank of the cut
  have hcut : ∀ els' : List (Nat × Nat), els'.map (·.2) = els.map (·.2) → ∀ r, (∃ e ∈ els'.take popSize, e.2 = r) → (∃ e ∈ els'.drop popSize, e.2 = r) →
      ∃ h : popSize < els.length, els[popSize - 1].2 = r ∧ els[popSize].2 = r := by
    intro els' hr r ⟨a, ha, har⟩ ⟨b, hb, hbr⟩
    obtain ⟨p, hpl, rfl⟩ := List.getElem_of_mem ha
    obtain ⟨q, hql, rfl⟩ := List.getElem_of_mem hb
    have hlen : els'.length = els.length := by simpa using congrArg List.length hr
    simp only [List.length_take, List.length_drop] at hpl hql
    have hrank : ∀ j (h : j < els'.length), els'[j].2 = (els[j]'(by omega)).2 := by
      intro j h
      have := congrArg (·[j]?) hr
      simp only [List.getElem?_map, List.getElem?_eq_getElem h, List.getElem?_eq_getElem (show j < els.length by omega), Option.map_some] at this
      exact Option.some.inj this
    rw [List.getElem_take, hrank] at har
    rw [List.getElem_drop, hrank] at hbr
    have h1 := hmono p (popSize - 1) (by omega) (by omega) (by omega)
    have h2 := hmono (popSize - 1) popSize (by omega) (by omega) (by omega)
    have h3 := hmono popSize (popSize + q) (by omega) (by omega) (by omega)
    exact ⟨by omega, by omega, by omega⟩
  rcases Nat.lt_or_eq_of_le hle with hn | heq
  swap
  · refine ⟨els, ?_, List.Perm.refl _, rfl, ?_⟩
    · simp [sortPartialFrontD, hc1 heq]
    · intro r h1 h2
      obtain ⟨h, -⟩ := hcut els rfl r h1 h2
      omega
  · obtain ⟨first, last, hpf, hf, hl, hlen, hdiff, hsame⟩ := hc2 hn
    by_cases heq : els[popSize - 1].2 = els[popSize].2
    swap
    · obtain ⟨rfl, rfl⟩ := hdiff heq
      refine ⟨els, ?_, List.Perm.refl _, rfl, ?_⟩
      · simp [sortPartialFrontD, hpf]
      · intro r h1 h2
        obtain ⟨_, h3, h4⟩ := hcut els rfl r h1 h2
        omega
    · have hblock := hsame heq
      have hin1 := (hblock (popSize - 1) (by omega)).mpr heq
      have hin2 := (hblock popSize (by omega)).mpr rfl
      set part := (els.take last).drop first with hpart
      have hsplit : els = els.take first ++ part ++ els.drop last := by
        have h1 : els.take last = els.take first ++ part := by
          rw [hpart]
          conv_lhs => rw [← List.take_append_drop first (els.take last)]
          rw [List.take_take, Nat.min_eq_left (by omega)]
        rw [← h1, List.take_append_drop]
      have hpartlen : part.length = last - first := by simp [hpart]; omega
      have hpartmem : ∀ e, e ∈ part ↔ e ∈ els ∧ e.2 = els[popSize].2 := by
        intro e
        constructor
        · intro he
          obtain ⟨k, hk, rfl⟩ := List.getElem_of_mem he
          rw [hpartlen] at hk
          have hge : part[k] = els[first + k]'(by omega) := by simp [hpart]
          rw [hge]
          exact ⟨List.getElem_mem _, (hblock (first + k) (by omega)).mp ⟨by omega, by omega⟩⟩
        · rintro ⟨he, hr⟩
          obtain ⟨k, hk, rfl⟩ := List.getElem_of_mem he
          have := (hblock k hk).mpr hr
          have hge : part[k - first]'(by omega) = els[k] := by simp only [hpart, List.getElem_drop, List.getElem_take]; congr 1; omega
          rw [← hge]; exact List.getElem_mem _
      have hpartsub : List.Sublist part els := by
        rw [hpart]; exact (List.drop_sublist _ _).trans (List.take_sublist _ _)
      have hpartnd : (part.map (·.1)).Nodup := hnd.sublist (hpartsub.map _)
      obtain ⟨d, hd1, hd2, hdn, hd3⟩ := crowdingDistancesD_isCrowding sort hsort recip ncols fmat hm hmod [part]
        (by intro f hf' h; rw [List.mem_singleton] at hf'; subst hf'; have := congrArg List.length h; rw [hpartlen] at this; simp at this; omega)
        (by simpa using hpartnd) (by intro e he; exact hlt e (hpartsub.subset (by simpa using he)))
      set sorted := sort (distGreaterD d) (sortChainD sort fmat ncols part) with hsorted
      have hsw : StrictWeakOrder (distGreaterD d) := distGreaterD_swo d hdn
      have hsrt := hsort (distGreaterD d) hsw (sortChainD sort fmat ncols part)
      have hperm : sorted.Perm part := hsrt.1.trans (sortChainD_perm sort hsort fmat hmod ncols part)
      have hsl : sorted.length = last - first := by rw [hperm.length_eq, hpartlen]
      have hranks : (els.take first ++ sorted ++ els.drop last).map (·.2) = els.map (·.2) := by
        conv_rhs => rw [hsplit]
        simp only [List.map_append]
        rw [ranks_const_perm part sorted hperm (fun a ha b hb => by rw [((hpartmem a).mp ha).2, ((hpartmem b).mp hb).2])]
      refine ⟨els.take first ++ sorted ++ els.drop last, ?_, ?_, hranks, ?_⟩
      · unfold sortPartialFrontD
        simp only [hpf, Option.bind_eq_bind, Option.bind_some]
        rw [if_neg (by omega)]
        rw [← hpart, hd1]
        simp [hsorted]
      · conv_rhs => rw [hsplit]
        exact (hperm.append_left _).append_right _
      · intro r h1 h2
        obtain ⟨_, _, hr⟩ := hcut _ hranks r h1 h2
        refine ⟨part, fun i => d.getD i (.fin 0), by intro e; rw [hpartmem, hr], hpartnd, hd3 part (by simp), ?_⟩
        intro a ha b hb har hbr
        obtain ⟨p, hpl, rfl⟩ := List.getElem_of_mem ha
        obtain ⟨q, hql, rfl⟩ := List.getElem_of_mem hb
        have hlenall : (els.take first ++ sorted ++ els.drop last).length = els.length := by simpa using congrArg List.length hranks
        simp only [List.length_take, List.length_drop, hlenall] at hpl hql
        have hrank : ∀ j (h : j < (els.take first ++ sorted ++ els.drop last).length), ((els.take first ++ sorted ++ els.drop last)[j]).2 = (els[j]'(by omega)).2 := by
          intro j h
          have := congrArg (·[j]?) hranks
          simp only [List.getElem?_map, List.getElem?_eq_getElem h, List.getElem?_eq_getElem (show j < els.length by omega), Option.map_some] at this
          exact Option.some.inj this
        have hmid : ∀ j (hj1 : first ≤ j) (hj2 : j < last) (h : j < (els.take first ++ sorted ++ els.drop last).length),
            (els.take first ++ sorted ++ els.drop last)[j] = sorted[j - first]'(by omega) := by
          intro j hj1 hj2 h
          rw [List.getElem_append_left (by simp; omega), List.getElem_append_right (by simp; omega)]
          congr 1
          simp; omega
        simp only [List.getElem_take, List.getElem_drop] at har hbr ⊢
        rw [hrank p (by omega)] at har
        rw [hrank (popSize + q) (by omega)] at hbr
        have hp' := (hblock p (by omega)).mpr (by rw [har, hr])
        have hq' := (hblock (popSize + q) (by omega)).mpr (by rw [hbr, hr])
        rw [hmid p hp'.1 hp'.2, hmid (popSize + q) hq'.1 hq'.2]
        have := List.pairwise_iff_getElem.mp hsrt.2 (p - first) (popSize + q - first) (by rw [← hsorted]; omega) (by rw [← hsorted]; omega) (by omega)
        exact le_of_not_lt (nonneg_ne_nan (getD_nonneg d hdn _)) (nonneg_ne_nan (getD_nonneg d hdn _)) this

/-- The result of `nextPopulation`, step by step. -/
theorem nsga2NextD_steps (sort : SortFn) (hsort : SortContract sort) (recip : Bool) (ncols : Nat) (fmat : List (List Dbl)) (hm : IsMatrix ncols fmat) (hmod : ∀ r ∈ fmat, ∀ v ∈ r, ModerateD v)
    (els : List (Nat × Nat)) (hp : (els.map (·.1)).Perm (List.range fmat.length)) (hs : els.Pairwise (fun a b => a.2 ≤ b.2))
    (popSize : Nat) (h0 : 0 < popSize) (hle : popSize ≤ fmat.length) :
    ∃ (els' kept : List (Nat × Nat)) (dists : List Dbl), sortPartialFrontD sort recip ncols fmat els popSize = some els' ∧ kept.Perm (els'.take popSize) ∧ kept.map (·.2) = (els'.take popSize).map (·.2) ∧
      nsga2NextD sort recip ncols fmat els popSize = some (kept.map (·.1), ⟨kept.map (·.2), dists⟩) ∧ dists.length = popSize ∧ ∀ x ∈ dists, NonnegD x := by
  have hlen : els.length = fmat.length := by simpa using hp.length_eq
  obtain ⟨els', h1, h2, h3, -⟩ := sortPartialFrontD_spec sort hsort recip ncols fmat hm hmod els hp hs popSize h0 (by omega)
  have hlen' : els'.length = fmat.length := by rw [h2.length_eq, hlen]
  have hs' : els'.Pairwise (fun a b => a.2 ≤ b.2) := by
    have : (els.map (·.2)).Pairwise (· ≤ ·) := List.pairwise_map.mpr hs
    rw [← h3] at this
    exact List.pairwise_map.mp this
  have htl : (els'.take popSize).length = popSize := by rw [List.length_take]; omega
  obtain ⟨fs, hf1, hf2, hf3, hf4, -⟩ := frontsList_spec (els'.take popSize) (hs'.sublist (List.take_sublist _ _))
    (by intro h; rw [h] at htl; simp at htl; omega)
  have hnd : (els'.map (·.1)).Nodup := ((h2.map (·.1)).trans hp).nodup_iff.mpr List.nodup_range
  obtain ⟨d, hd1, hd2, hdn, -⟩ := crowdingDistancesD_isCrowding sort hsort recip ncols fmat hm hmod fs hf3
    (by rw [hf2]; exact hnd.sublist ((List.take_sublist _ _).map _))
    (by
      rw [hf2]
      intro e he
      have := ((h2.map (·.1)).trans hp).mem_iff.mp (List.mem_map.mpr ⟨e, List.mem_of_mem_take he, rfl⟩)
      simpa using this)
  refine ⟨els', (fs.map (sortChainD sort fmat ncols)).flatten, d.take popSize, h1, ?_, ?_, ?_, by simp [hd2, hle], fun x hx => hdn x (List.mem_of_mem_take hx)⟩
  · have := flatten_map_perm (sortChainD sort fmat ncols) (sortChainD_perm sort hsort fmat hmod ncols) fs
    rwa [hf2] at this
  · rw [ranks_const_flatten _ (sortChainD_perm sort hsort fmat hmod ncols) fs hf4, hf2]
  · unfold nsga2NextD
    rw [h1]
    simp only [Option.bind_eq_bind, Option.bind_some, frontsResize]
    rw [if_pos (by omega)]
    simp only [Option.bind_some, hf1, hd1]
    rfl

/-- **C86 (NSGA-II, part).** The fitness values of the pool are finite numbers, at most half of the largest `double` in magnitude, possibly negative, and `els` is the result of the non-dominated
sort of the pool. The next population has `popSize` different members of the pool; it keeps a member only if it keeps all the members of the better fronts; in a front from which only some
members fit, it keeps those with the largest (rounded) crowding distances; no crowding distance is NaN, and none is negative.
(Missing: infinite values, and larger finite values; see `C86_nsga2_infinite_violated` and `C86_nsga2_large_violated`.) -/
theorem C86_nsga2_partial (dom : Nat → Nat → Prop) (sort : SortFn) (hsort : SortContract sort) (recip : Bool) (ncols : Nat) (fmat : List (List Dbl)) (hm : IsMatrix ncols fmat) (hmod : ∀ r ∈ fmat, ∀ v ∈ r, ModerateD v)
    (els : List (Nat × Nat)) (hels : IsNdSort dom fmat.length els) (popSize : Nat) (h0 : 0 < popSize) (hle : popSize ≤ fmat.length) :
    ∃ sel s, nsga2NextD sort recip ncols fmat els popSize = some (sel, s) ∧ LegalSelection popSize fmat.length sel ∧
      (∀ i j r q, i ∈ sel → HasRank dom fmat.length r i → HasRank dom fmat.length q j → q < r → j ∈ sel) ∧
      (∀ r, ∃ (front : List Nat) (d : Nat → Dbl), front.Nodup ∧ (∀ i, i ∈ front ↔ HasRank dom fmat.length r i) ∧
        IsCrowdingD recip ncols fmat front d ∧ ∀ i ∈ front, ∀ j ∈ front, i ∈ sel → j ∉ sel → Dbl.le (d j) (d i) = true) ∧
      s.ranks.length = popSize ∧ s.dists.length = popSize ∧ (∀ x ∈ s.dists, NonnegD x) ∧ ∀ (p i : Nat), sel[p]? = some i → ∃ r : Nat, s.ranks[p]? = some r ∧ HasRank dom fmat.length r i := by
  obtain ⟨hp, hs, hr⟩ := hels
  have hlen : els.length = fmat.length := by simpa using hp.length_eq
  obtain ⟨els', h1, h2, h3, h4⟩ := sortPartialFrontD_spec sort hsort recip ncols fmat hm hmod els hp hs popSize h0 (by omega)
  obtain ⟨els'', kept, dists, g1, g2, g3, g4, g5, g6⟩ := nsga2NextD_steps sort hsort recip ncols fmat hm hmod els hp hs popSize h0 hle
  obtain rfl : els' = els'' := by rw [h1] at g1; exact Option.some.inj g1
  have hlen' : els'.length = fmat.length := by rw [h2.length_eq, hlen]
  have hnd : (els'.map (·.1)).Nodup := ((h2.map (·.1)).trans hp).nodup_iff.mpr List.nodup_range
  have hkl : kept.length = popSize := by rw [g2.length_eq, List.length_take]; omega
  have hs' : els'.Pairwise (fun a b => a.2 ≤ b.2) := by
    have : (els.map (·.2)).Pairwise (· ≤ ·) := List.pairwise_map.mpr hs
    rw [← h3] at this
    exact List.pairwise_map.mp this
  -- membership
  have hmem : ∀ i r, HasRank dom fmat.length r i → (i, r) ∈ els' := by
    intro i r h
    have hi : i < fmat.length := by
      have mono : ∀ k, Remaining dom fmat.length k i → i < fmat.length := by
        intro k
        induction k with
        | zero => exact id
        | succ k ih => exact fun h => ih h.1
      exact mono _ h.1
    have : i ∈ els'.map (·.1) := ((h2.map (·.1)).trans hp).mem_iff.mpr (by simpa using hi)
    obtain ⟨⟨i', s⟩, hm', rfl⟩ := List.mem_map.mp this
    rw [hasRank_unique h (hr _ _ (h2.mem_iff.mp hm'))]
    exact hm'
  have hrank : ∀ e ∈ els', HasRank dom fmat.length e.2 e.1 := fun e he => hr _ _ (h2.mem_iff.mp he)
  have hsel : ∀ i r, HasRank dom fmat.length r i → (i ∈ kept.map (·.1) ↔ (i, r) ∈ els'.take popSize) := by
    intro i r h
    constructor
    · intro hi
      obtain ⟨⟨i', s⟩, hm', rfl⟩ := List.mem_map.mp hi
      have := g2.mem_iff.mp hm'
      rw [hasRank_unique h (hrank _ (List.mem_of_mem_take this))]
      exact this
    · intro hi
      exact List.mem_map.mpr ⟨(i, r), g2.mem_iff.mpr hi, rfl⟩
  have hdrop : ∀ e, e ∈ els' → e ∉ els'.take popSize → e ∈ els'.drop popSize := by
    intro e he hn
    rw [← List.take_append_drop popSize els', List.mem_append] at he
    exact he.resolve_left hn
  refine ⟨_, _, g4, ⟨by simp [hkl], ((g2.map (·.1)).nodup_iff.mpr (hnd.sublist ((List.take_sublist _ _).map _))), ?_⟩, ?_, ?_, by simp [hkl], g5, g6, ?_⟩
  · intro i hi
    obtain ⟨e, he, rfl⟩ := List.mem_map.mp hi
    have := ((h2.map (·.1)).trans hp).mem_iff.mp (List.mem_map.mpr ⟨e, List.mem_of_mem_take (g2.mem_iff.mp he), rfl⟩)
    simpa using this
  · intro i j r q hi hir hjq hqr
    rw [hsel i r hir] at hi
    rw [hsel j q hjq]
    by_contra hn
    have hb := hdrop _ (hmem j q hjq) hn
    have := (List.pairwise_append.mp (by rw [List.take_append_drop]; exact hs' : (els'.take popSize ++ els'.drop popSize).Pairwise (fun a b => a.2 ≤ b.2))).2.2 _ hi _ hb
    simp only at this
    omega
  · intro r
    by_cases hboth : (∃ e ∈ els'.take popSize, e.2 = r) ∧ (∃ e ∈ els'.drop popSize, e.2 = r)
    · obtain ⟨front, d, hd1, hd2, hd3, hd4⟩ := h4 r hboth.1 hboth.2
      have hfm : ∀ i, i ∈ front.map (·.1) ↔ HasRank dom fmat.length r i := by
        intro i
        constructor
        · intro hi
          obtain ⟨e, he, rfl⟩ := List.mem_map.mp hi
          obtain ⟨he1, he2⟩ := (hd1 e).mp he
          rw [← he2]; exact hrank e (h2.mem_iff.mpr he1)
        · intro hi
          exact List.mem_map.mpr ⟨(i, r), (hd1 _).mpr ⟨h2.mem_iff.mp (hmem i r hi), rfl⟩, rfl⟩
      refine ⟨front.map (·.1), d, hd2, hfm, hd3, ?_⟩
      intro i hi j hj hik hjk
      have hir := (hfm i).mp hi
      have hjr := (hfm j).mp hj
      rw [hsel i r hir] at hik
      rw [hsel j r hjr] at hjk
      exact hd4 _ hik _ (hdrop _ (hmem j r hjr) hjk) rfl rfl
    · -- the front is kept or rejected as a whole: the distances of the whole front
      obtain ⟨d, hd1, hd2, hdn, hd3⟩ := crowdingDistancesD_isCrowding sort hsort recip ncols fmat hm hmod
        (if (els.filter (fun e => e.2 == r)) = [] then [] else [els.filter (fun e => e.2 == r)])
        (by intro f hf; split at hf
            · simp at hf
            · rename_i hne; rw [List.mem_singleton] at hf; rw [hf]; exact hne)
        (by split
            · simp
            · simp only [List.flatten_cons, List.flatten_nil, List.append_nil]
              exact (hp.nodup_iff.mpr List.nodup_range).sublist (List.filter_sublist.map _))
        (by intro e he; split at he
            · simp at he
            · simp only [List.flatten_cons, List.flatten_nil, List.append_nil, List.mem_filter] at he
              have := hp.mem_iff.mp (List.mem_map.mpr ⟨e, he.1, rfl⟩)
              simpa using this)
      have hfm : ∀ i, i ∈ (els.filter (fun e => e.2 == r)).map (·.1) ↔ HasRank dom fmat.length r i := by
        intro i
        constructor
        · intro hi
          obtain ⟨e, he, rfl⟩ := List.mem_map.mp hi
          simp only [List.mem_filter, beq_iff_eq] at he
          rw [← he.2]; exact hr _ _ he.1
        · intro hi
          exact List.mem_map.mpr ⟨(i, r), by simp [h2.mem_iff.mp (hmem i r hi)], rfl⟩
      refine ⟨(els.filter (fun e => e.2 == r)).map (·.1), fun i => d.getD i (.fin 0), (hp.nodup_iff.mpr List.nodup_range).sublist (List.filter_sublist.map _), hfm, ?_, ?_⟩
      · by_cases hne : els.filter (fun e => e.2 == r) = []
        · rw [hne]
          exact ⟨fun _ _ => .fin 0, fun _ => [], fun _ _ => .fin 0, fun _ _ => ⟨List.Perm.refl _, List.Pairwise.nil, by simp⟩, by simp⟩
        · exact hd3 _ (by rw [if_neg hne]; simp)
      · intro i hi j hj hik hjk
        exfalso
        have hir := (hfm i).mp hi
        have hjr := (hfm j).mp hj
        rw [hsel i r hir] at hik
        rw [hsel j r hjr] at hjk
        exact hboth ⟨⟨_, hik, rfl⟩, ⟨_, hdrop _ (hmem j r hjr) hjk, rfl⟩⟩
  · intro p i hpi
    simp only [List.getElem?_map, Option.map_eq_some_iff] at hpi ⊢
    obtain ⟨e, he, rfl⟩ := hpi
    exact ⟨e.2, ⟨e, he, rfl⟩, hrank e (List.mem_of_mem_take (g2.mem_iff.mp (List.mem_of_getElem? he)))⟩


/-! ## Concrete cases -/

/-- A pool of six candidates with negative values: four that do not dominate each other, and two that are dominated. -/
def negativePool : List (List Dbl) := [[.fin (-9), .fin 0], [.fin (-8), .fin (-1)], [.fin (-4), .fin (-2)], [.fin 1, .fin (-9)], [.fin (-10), .fin (-10)], [.fin (-11), .fin (-10)]]

def negativePoolEls : List (Nat × Nat) := [(0, 0), (1, 0), (2, 0), (3, 0), (4, 1), (5, 2)]

theorem isNdSort_of_fnds (fmat : List (List Dbl)) (hm : IsMatrix 2 (dblRows fmat)) (els : List (Nat × Nat)) (h : fastNonDominatedSort (⟨0, 0⟩ : Tol ℚ) (dblRows fmat) = some els) :
    IsNdSort (RowDominates (dblRows fmat)) fmat.length els := by
  obtain ⟨⟨res, h1, h2⟩, -⟩ := C10_nd_sort_exact (K := ℚ) (m := 2) hm
  rw [h] at h1
  obtain rfl := Option.some.inj h1
  simpa [dblRows] using h2

theorem negativePoolEls_isNdSort : IsNdSort (RowDominates (dblRows negativePool)) negativePool.length negativePoolEls :=
  isNdSort_of_fnds _ (by unfold IsMatrix; decide +kernel) _ (by decide +kernel)

theorem moderate_of_small {x : ℚ} (h : |x| ≤ 2 ^ 970) : ModerateD (.fin x) := by
  refine ⟨x, rfl, h.trans ?_⟩
  have e : (2 : ℚ) ^ 1023 = 2 ^ 970 * 2 ^ 53 := by rw [← pow_add]
  have h0 : (0 : ℚ) < 2 ^ 970 := by positivity
  rw [e]
  generalize (2 : ℚ) ^ 970 = t at h0
  norm_num
  linarith

/-- Non-vacuity: three members of the first front are kept, and the one with the smallest crowding distance is rejected. -/
example : ∃ sel s, nsga2NextD insertSort false 2 negativePool negativePoolEls 3 = some (sel, s) ∧ LegalSelection 3 6 sel ∧ (∀ x ∈ s.dists, NonnegD x) := by
  obtain ⟨sel, s, h1, h2, -, -, -, -, h3, -⟩ := C86_nsga2_partial _ insertSort insertSort_contract false 2 negativePool (by unfold IsMatrix; decide +kernel)
    (by
      have : ∀ r ∈ negativePool, ∀ v ∈ r, ∃ x ∈ [(-11 : ℚ), -10, -9, -8, -4, -2, -1, 0, 1], v = .fin x := by decide +kernel
      intro r hr v hv
      obtain ⟨x, hx, rfl⟩ := this r hr v hv
      apply moderate_of_small
      have h16 : |x| ≤ 2 ^ 4 := by clear hr hv; revert x; decide +kernel
      exact h16.trans (pow_le_pow_right₀ (by norm_num) (by norm_num)))
    negativePoolEls negativePoolEls_isNdSort 3 (by norm_num) (by decide)
  exact ⟨sel, s, h1, h2, h3⟩
example : (nsga2NextD insertSort false 2 negativePool negativePoolEls 3).map (fun x => (x.1, x.2.ranks)) = some ([3, 2, 0], [0, 0, 0]) := by decide +kernel

/-! ## Infinite and large values -/

/-- A pool whose fourth candidate has an infinite value; the first four candidates do not dominate each other. -/
def infinitePool : List (List Dbl) := [[.fin 0, .fin 5], [.fin 1, .fin 4], [.fin 2, .fin 3], [.pinf, .fin 0], [.fin 0, .fin 0], [.fin 0, .fin 0]]

def infinitePoolEls : List (Nat × Nat) := [(0, 0), (1, 0), (2, 0), (3, 0), (4, 1), (5, 1)]

/-- **C86 (NSGA-II, violated).** NSGA-II does not support infinite values: for the pool `infinitePool`, from the first front of which three candidates are kept, the crowding distance of the third
candidate is NaN (however the compiler evaluates the division), so that the comparison by which the front is sorted is not a strict weak order of its members: the behaviour of `std::sort` is undefined. -/
theorem C86_nsga2_infinite_violated (recip : Bool) : IsNdSort (RowDominates (dblRows infinitePool)) infinitePool.length infinitePoolEls ∧ partialFront infinitePoolEls 3 = some (0, 4) ∧
    ∃ front dists, crowdingDistancesD insertSort recip 2 infinitePool [infinitePoolEls.take 4] = some ([front], dists) ∧ dists[2]? = some .nan ∧ front.Perm (infinitePoolEls.take 4) ∧
      SortUndefined (distGreaterD dists) front := by
  refine ⟨isNdSort_of_fnds _ (by unfold IsMatrix; decide +kernel) _ (by decide +kernel), by decide +kernel, [(3, 0), (2, 0), (1, 0), (0, 0)],
    [.pinf, .fin (3602879701896397 / 9007199254740992), .nan, .pinf, .fin 0, .fin 0], by revert recip; decide +kernel, rfl, by decide, ?_⟩
  exact ⟨(3, 0), by decide, (2, 0), by decide, (1, 0), by decide, by decide +kernel⟩

/-- A pool with large finite values; the first five candidates do not dominate each other. -/
def largePool : List (List Dbl) := [[.fin (-2 ^ 1023 - 2 ^ 1000), .fin 5], [.fin (-2 ^ 1023), .fin 4], [.fin 1, .fin 3], [.fin (2 ^ 1023), .fin 2], [.fin (2 ^ 1023 + 2 ^ 1000), .fin 1],
  [.fin (-2 ^ 1023 - 2 ^ 1000), .fin 0]]

def largePoolEls : List (Nat × Nat) := [(0, 0), (1, 0), (2, 0), (3, 0), (4, 0), (5, 1)]

/-- **C86 (NSGA-II, violated).** The same is true of finite values whose differences are larger than the largest number of the type `double`. -/
theorem C86_nsga2_large_violated (recip : Bool) : (∀ r ∈ largePool, ∀ v ∈ r, v.isFinite = true) ∧ IsNdSort (RowDominates (dblRows largePool)) largePool.length largePoolEls ∧
    partialFront largePoolEls 4 = some (0, 5) ∧
    ∃ front dists, crowdingDistancesD insertSort recip 2 largePool [largePoolEls.take 5] = some ([front], dists) ∧ dists[2]? = some .nan ∧ front.Perm (largePoolEls.take 5) ∧
      SortUndefined (distGreaterD dists) front := by
  refine ⟨by decide +kernel, isNdSort_of_fnds _ (by unfold IsMatrix; decide +kernel) _ (by decide +kernel), by decide +kernel, [(4, 0), (3, 0), (2, 0), (1, 0), (0, 0)],
    [.pinf, .fin (1 / 2), .nan, .fin (1 / 2), .pinf, .fin 0], by revert recip; decide +kernel, rfl, by decide, ?_⟩
  exact ⟨(4, 0), by decide, (2, 0), by decide, (1, 0), by decide, by decide +kernel⟩

end Gapp.Props
