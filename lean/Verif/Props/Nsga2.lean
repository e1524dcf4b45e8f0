import Mathlib.Data.List.Sort
import Verif.Proofs.Nsga2
import Verif.Props.NdSort
import Verif.Props.Replacement
/-!
# C31: NSGA-II

The fitness values are finite and compared exactly (zero tolerances).
-/

namespace Gapp.Props
open Gapp.Model Gapp.Spec

/-- The fronts of a list sorted by rank. -/
theorem frontsList_spec (els : List (Nat × Nat)) (hs : els.Pairwise (fun a b => a.2 ≤ b.2)) (hne : els ≠ []) :
    ∃ fs, frontsList els = some fs ∧ fs.flatten = els ∧ (∀ g ∈ fs, g ≠ []) ∧
      (∀ g ∈ fs, ∀ a ∈ g, ∀ b ∈ g, a.2 = b.2) ∧ fs.Pairwise (fun g h => ∀ a ∈ g, ∀ b ∈ h, a.2 < b.2) := by
  cases els with
  | nil => exact absurd rfl hne
  | cons e rest =>
    obtain ⟨h1, h2, h3, h4⟩ := frontsLoop_spec e.2 [] (e :: rest) (Or.inr ⟨e, rest, rfl, rfl⟩) (by simp) (by simpa using hs)
    exact ⟨_, rfl, by simpa using h1, h2, h3, h4⟩

/-- A reordering of elements of equal rank has the same ranks. -/
theorem ranks_const_perm (f g : List (Nat × Nat)) (hp : g.Perm f) (hc : ∀ a ∈ f, ∀ b ∈ f, a.2 = b.2) : g.map (·.2) = f.map (·.2) := by
  apply List.ext_getElem (by simpa using hp.length_eq)
  intro k h1 h2
  simp only [List.length_map] at h1 h2
  simp only [List.getElem_map]
  exact hc _ (hp.mem_iff.mp (List.getElem_mem h1)) _ (List.getElem_mem h2)

theorem ranks_const_flatten (c : List (Nat × Nat) → List (Nat × Nat)) (hc : ∀ f, (c f).Perm f) :
    ∀ (fs : List (List (Nat × Nat))), (∀ g ∈ fs, ∀ a ∈ g, ∀ b ∈ g, a.2 = b.2) → (fs.map c).flatten.map (·.2) = fs.flatten.map (·.2)
  | [], _ => rfl
  | f :: fs, h => by
      simp only [List.map_cons, List.flatten_cons, List.map_append]
      rw [ranks_const_perm f (c f) (hc f) (h f List.mem_cons_self), ranks_const_flatten c hc fs (fun g hg => h g (List.mem_cons_of_mem _ hg))]

section
variable {K : Type} [Field K] [LinearOrder K]

/-- The sort of the split front. -/
theorem sortPartialFront_spec (sort : SortFn) (hsort : SortContract sort) (eps : K) (ncols : Nat) (fmat : List (List K)) (hm : IsMatrix ncols fmat)
    (els : List (Nat × Nat)) (hp : (els.map (·.1)).Perm (List.range fmat.length)) (hs : els.Pairwise (fun a b => a.2 ≤ b.2))
    (popSize : Nat) (h0 : 0 < popSize) (hle : popSize ≤ els.length) :
    ∃ els', sortPartialFront sort eps ncols fmat els popSize = some els' ∧ els'.Perm els ∧ els'.map (·.2) = els.map (·.2) ∧
      ∀ r, (∃ e ∈ els'.take popSize, e.2 = r) → (∃ e ∈ els'.drop popSize, e.2 = r) → ∃ (front : List (Nat × Nat)) (d : Nat → WithTop K),
        (∀ e, e ∈ front ↔ e ∈ els ∧ e.2 = r) ∧ (front.map (·.1)).Nodup ∧ IsCrowding eps ncols fmat (front.map (·.1)) d ∧
        ∀ a ∈ els'.take popSize, ∀ b ∈ els'.drop popSize, a.2 = r → b.2 = r → d b.1 ≤ d a.1 := by
  obtain ⟨hc1, hc2⟩ := C11_partial_front els hs popSize h0
  have hnd : (els.map (·.1)).Nodup := hp.nodup_iff.mpr List.nodup_range
  have hlt : ∀ e ∈ els, e.1 < fmat.length := fun e he => by
    have := hp.mem_iff.mp (List.mem_map.mpr ⟨e, he, rfl⟩); simpa using this
  have hmono : ∀ (i j : Nat) (hi : i < els.length) (hj : j < els.length), i ≤ j → els[i].2 ≤ els[j].2 := by
    intro i j hi hj hij
    rcases Nat.lt_or_eq_of_le hij with h | rfl
    · exact List.pairwise_iff_getElem.mp hs i j hi hj h
    · exact Nat.le_refl _
  -- elements on both sides of the cut have the rank of the cut
  have hcut : ∀ els' : List (Nat × Nat), els'.map (·.2) = els.map (·.2) → ∀ r, (∃ e ∈ els'.take popSize, e.2 = r) → (∃ e ∈ els'.drop popSize, e.2 = r) →
      ∃ h : popSize < els.length, els[popSize - 1].2 = r ∧ els[popSize].2 = r := by
    intro els' hr r ⟨a, ha, har⟩ ⟨b, hb, hbr⟩
    obtain ⟨p, hpl, rfl⟩ := List.getElem_of_mem ha
    obtain ⟨q, hql, rfl⟩ := List.getElem_of_mem hb
    have hlen : els'.length = els.length := by simpa using congrArg List.length hr
    simp only [List.length_take, List.length_drop] at hpl hql
    have hrank : ∀ j (h : j < els'.length), els'[j].2 = (els[j]'(by omega)).2 := by
      intro j h
      have := congrArg (·[j]?) hr
      simp only [List.getElem?_map, List.getElem?_eq_getElem h, List.getElem?_eq_getElem (show j < els.length by omega), Option.map_some] at this
      exact Option.some.inj this
    rw [List.getElem_take, hrank] at har
    rw [List.getElem_drop, hrank] at hbr
    have h1 := hmono p (popSize - 1) (by omega) (by omega) (by omega)
    have h2 := hmono (popSize - 1) popSize (by omega) (by omega) (by omega)
    have h3 := hmono popSize (popSize + q) (by omega) (by omega) (by omega)
    exact ⟨by omega, by omega, by omega⟩
  rcases Nat.lt_or_eq_of_le hle with hn | heq
  swap
  · refine ⟨els, ?_, List.Perm.refl _, rfl, ?_⟩
    · simp [sortPartialFront, hc1 heq]
    · intro r h1 h2
      obtain ⟨h, -⟩ := hcut els rfl r h1 h2
      omega
  · obtain ⟨first, last, hpf, hf, hl, hlen, hdiff, hsame⟩ := hc2 hn
    by_cases heq : els[popSize - 1].2 = els[popSize].2
    swap
    · obtain ⟨rfl, rfl⟩ := hdiff heq
      refine ⟨els, ?_, List.Perm.refl _, rfl, ?_⟩
      · simp [sortPartialFront, hpf]
      · intro r h1 h2
        obtain ⟨_, h3, h4⟩ := hcut els rfl r h1 h2
        omega
    · have hblock := hsame heq
      have hin1 := (hblock (popSize - 1) (by omega)).mpr heq
      have hin2 := (hblock popSize (by omega)).mpr rfl
      set part := (els.take last).drop first with hpart
      have hsplit : els = els.take first ++ part ++ els.drop last := by
        have h1 : els.take last = els.take first ++ part := by
          rw [hpart]
          conv_lhs => rw [← List.take_append_drop first (els.take last)]
          rw [List.take_take, Nat.min_eq_left (by omega)]
        rw [← h1, List.take_append_drop]
      have hpartlen : part.length = last - first := by simp [hpart]; omega
      have hpartmem : ∀ e, e ∈ part ↔ e ∈ els ∧ e.2 = els[popSize].2 := by
        intro e
        constructor
        · intro he
          obtain ⟨k, hk, rfl⟩ := List.getElem_of_mem he
          rw [hpartlen] at hk
          have hge : part[k] = els[first + k]'(by omega) := by simp [hpart]
          rw [hge]
          exact ⟨List.getElem_mem _, (hblock (first + k) (by omega)).mp ⟨by omega, by omega⟩⟩
        · rintro ⟨he, hr⟩
          obtain ⟨k, hk, rfl⟩ := List.getElem_of_mem he
          have := (hblock k hk).mpr hr
          have hge : part[k - first]'(by omega) = els[k] := by simp only [hpart, List.getElem_drop, List.getElem_take]; congr 1; omega
          rw [← hge]; exact List.getElem_mem _
      have hpartsub : List.Sublist part els := by
        rw [hpart]; exact (List.drop_sublist _ _).trans (List.take_sublist _ _)
      have hpartnd : (part.map (·.1)).Nodup := hnd.sublist (hpartsub.map _)
      obtain ⟨d, hd1, hd2, hd3⟩ := crowdingDistances_isCrowding sort hsort eps ncols fmat hm [part]
        (by intro f hf' h; rw [List.mem_singleton] at hf'; subst hf'; have := congrArg List.length h; rw [hpartlen] at this; simp at this; omega)
        (by simpa using hpartnd) (by intro e he; exact hlt e (hpartsub.subset (by simpa using he)))
      set sorted := sort (distGreater d) (sortChain sort fmat ncols part) with hsorted
      have hsw : StrictWeakOrder (distGreater d) := swo_of_key (V := (WithTop K)ᵒᵈ) (fun e : Nat × Nat => OrderDual.toDual (d.getD e.1 0))
      have hsrt := hsort (distGreater d) hsw (sortChain sort fmat ncols part)
      have hperm : sorted.Perm part := hsrt.1.trans (sortChain_perm sort hsort fmat ncols part)
      have hsl : sorted.length = last - first := by rw [hperm.length_eq, hpartlen]
      have hranks : (els.take first ++ sorted ++ els.drop last).map (·.2) = els.map (·.2) := by
        conv_rhs => rw [hsplit]
        simp only [List.map_append]
        rw [ranks_const_perm part sorted hperm (fun a ha b hb => by rw [((hpartmem a).mp ha).2, ((hpartmem b).mp hb).2])]
      refine ⟨els.take first ++ sorted ++ els.drop last, ?_, ?_, hranks, ?_⟩
      · unfold sortPartialFront
        simp only [hpf, Option.bind_eq_bind, Option.bind_some]
        rw [if_neg (by omega)]
        rw [← hpart, hd1]
        simp [hsorted]
      · conv_rhs => rw [hsplit]
        exact (hperm.append_left _).append_right _
      · intro r h1 h2
        obtain ⟨_, _, hr⟩ := hcut _ hranks r h1 h2
        refine ⟨part, fun i => d.getD i 0, by intro e; rw [hpartmem, hr], hpartnd, hd3 part (by simp), ?_⟩
        intro a ha b hb har hbr
        obtain ⟨p, hpl, rfl⟩ := List.getElem_of_mem ha
        obtain ⟨q, hql, rfl⟩ := List.getElem_of_mem hb
        have hlenall : (els.take first ++ sorted ++ els.drop last).length = els.length := by simpa using congrArg List.length hranks
        simp only [List.length_take, List.length_drop, hlenall] at hpl hql
        have hrank : ∀ j (h : j < (els.take first ++ sorted ++ els.drop last).length), ((els.take first ++ sorted ++ els.drop last)[j]).2 = (els[j]'(by omega)).2 := by
          intro j h
          have := congrArg (·[j]?) hranks
          simp only [List.getElem?_map, List.getElem?_eq_getElem h, List.getElem?_eq_getElem (show j < els.length by omega), Option.map_some] at this
          exact Option.some.inj this
        have hmid : ∀ j (hj1 : first ≤ j) (hj2 : j < last) (h : j < (els.take first ++ sorted ++ els.drop last).length),
            (els.take first ++ sorted ++ els.drop last)[j] = sorted[j - first]'(by omega) := by
          intro j hj1 hj2 h
          rw [List.getElem_append_left (by simp; omega), List.getElem_append_right (by simp; omega)]
          congr 1
          simp; omega
        simp only [List.getElem_take, List.getElem_drop] at har hbr ⊢
        rw [hrank p (by omega)] at har
        rw [hrank (popSize + q) (by omega)] at hbr
        have hp' := (hblock p (by omega)).mpr (by rw [har, hr])
        have hq' := (hblock (popSize + q) (by omega)).mpr (by rw [hbr, hr])
        rw [hmid p hp'.1 hp'.2, hmid (popSize + q) hq'.1 hq'.2]
        have := List.pairwise_iff_getElem.mp hsrt.2 (p - first) (popSize + q - first) (by rw [← hsorted]; omega) (by rw [← hsorted]; omega) (by omega)
        simpa [distGreater] using this

end

/-- Something dominated in the rest is dominated by something of the rank before. -/
theorem rank_succ_dominated (dom : Nat → Nat → Prop) (n k i : Nat) (h : HasRank dom n (k + 1) i) : ∃ j, HasRank dom n k j ∧ dom j i := by
  obtain ⟨⟨h1, j, hj, hd⟩, h2⟩ := h
  refine ⟨j, ⟨hj, fun hr => h2 ⟨⟨h1, j, hj, hd⟩, j, hr, hd⟩⟩, hd⟩

section
variable {K : Type} [Field K] [LinearOrder K] [IsStrictOrderedRing K]

/-- The result of `nextPopulation`, step by step. -/
theorem nsga2Next_steps (sort : SortFn) (hsort : SortContract sort) (eps : K) (ncols : Nat) (fmat : List (List K)) (hm : IsMatrix ncols fmat)
    (els : List (Nat × Nat)) (hp : (els.map (·.1)).Perm (List.range fmat.length)) (hs : els.Pairwise (fun a b => a.2 ≤ b.2))
    (popSize : Nat) (h0 : 0 < popSize) (hle : popSize ≤ fmat.length) :
    ∃ (els' kept : List (Nat × Nat)) (dists : List (WithTop K)), sortPartialFront sort eps ncols fmat els popSize = some els' ∧ kept.Perm (els'.take popSize) ∧ kept.map (·.2) = (els'.take popSize).map (·.2) ∧
      nsga2Next sort eps ncols fmat els popSize = some (kept.map (·.1), ⟨kept.map (·.2), dists⟩) ∧ dists.length = popSize := by
  have hlen : els.length = fmat.length := by simpa using hp.length_eq
  obtain ⟨els', h1, h2, h3, -⟩ := sortPartialFront_spec sort hsort eps ncols fmat hm els hp hs popSize h0 (by omega)
  have hlen' : els'.length = fmat.length := by rw [h2.length_eq, hlen]
  have hs' : els'.Pairwise (fun a b => a.2 ≤ b.2) := by
    have : (els.map (·.2)).Pairwise (· ≤ ·) := List.pairwise_map.mpr hs
    rw [← h3] at this
    exact List.pairwise_map.mp this
  have htl : (els'.take popSize).length = popSize := by rw [List.length_take]; omega
  obtain ⟨fs, hf1, hf2, hf3, hf4, -⟩ := frontsList_spec (els'.take popSize) (hs'.sublist (List.take_sublist _ _))
    (by intro h; rw [h] at htl; simp at htl; omega)
  have hnd : (els'.map (·.1)).Nodup := ((h2.map (·.1)).trans hp).nodup_iff.mpr List.nodup_range
  obtain ⟨d, hd1, hd2, -⟩ := crowdingDistances_isCrowding sort hsort eps ncols fmat hm fs hf3
    (by rw [hf2]; exact hnd.sublist ((List.take_sublist _ _).map _))
    (by
      rw [hf2]
      intro e he
      have := ((h2.map (·.1)).trans hp).mem_iff.mp (List.mem_map.mpr ⟨e, List.mem_of_mem_take he, rfl⟩)
      simpa using this)
  refine ⟨els', (fs.map (sortChain sort fmat ncols)).flatten, d.take popSize, h1, ?_, ?_, ?_, by simp [hd2, hle]⟩
  · have := flatten_map_perm (sortChain sort fmat ncols) (sortChain_perm sort hsort fmat ncols) fs
    rwa [hf2] at this
  · rw [ranks_const_flatten _ (sortChain_perm sort hsort fmat ncols) fs hf4, hf2]
  · unfold nsga2Next
    rw [h1]
    simp only [Option.bind_eq_bind, Option.bind_some, frontsResize]
    rw [if_pos (by omega)]
    simp only [Option.bind_some, hf1, hd1]
    rfl

/-- **C31 (replacement).** The pool has the matrix `fmat` of (finite) fitness values, and `els` is the result of the non-dominated sort of it. The next population
* has `popSize` different members of the pool;
* keeps a member only if it keeps all the members of the strictly better fronts;
* in a front from which only some members fit, keeps those with the largest crowding distances: there is an assignment `d` of crowding distances to the front, such that no rejected
  member has a larger distance than a kept member;
and the stored ranks are the ranks of the selected members, in the order of the new population. -/
theorem C31_replacement (sort : SortFn) (hsort : SortContract sort) (eps : K) (ncols : Nat) (fmat : List (List K)) (hm : IsMatrix ncols fmat)
    (els : List (Nat × Nat)) (hels : IsNdSort (RowDominates (finRows fmat)) fmat.length els) (popSize : Nat) (h0 : 0 < popSize) (hle : popSize ≤ fmat.length) :
    ∃ sel s, nsga2Next sort eps ncols fmat els popSize = some (sel, s) ∧ LegalSelection popSize fmat.length sel ∧
      (∀ i j r q, i ∈ sel → HasRank (RowDominates (finRows fmat)) fmat.length r i → HasRank (RowDominates (finRows fmat)) fmat.length q j → q < r → j ∈ sel) ∧
      (∀ r, ∃ (front : List Nat) (d : Nat → WithTop K), front.Nodup ∧ (∀ i, i ∈ front ↔ HasRank (RowDominates (finRows fmat)) fmat.length r i) ∧
        IsCrowding eps ncols fmat front d ∧ ∀ i ∈ front, ∀ j ∈ front, i ∈ sel → j ∉ sel → d j ≤ d i) ∧
      s.ranks.length = popSize ∧ s.dists.length = popSize ∧ ∀ (p i : Nat), sel[p]? = some i → ∃ r : Nat, s.ranks[p]? = some r ∧ HasRank (RowDominates (finRows fmat)) fmat.length r i := by
  obtain ⟨hp, hs, hr⟩ := hels
  have hlen : els.length = fmat.length := by simpa using hp.length_eq
  obtain ⟨els', h1, h2, h3, h4⟩ := sortPartialFront_spec sort hsort eps ncols fmat hm els hp hs popSize h0 (by omega)
  obtain ⟨els'', kept, dists, g1, g2, g3, g4, g5⟩ := nsga2Next_steps sort hsort eps ncols fmat hm els hp hs popSize h0 hle
  obtain rfl : els' = els'' := by rw [h1] at g1; exact Option.some.inj g1
  have hlen' : els'.length = fmat.length := by rw [h2.length_eq, hlen]
  have hnd : (els'.map (·.1)).Nodup := ((h2.map (·.1)).trans hp).nodup_iff.mpr List.nodup_range
  have hkl : kept.length = popSize := by rw [g2.length_eq, List.length_take]; omega
  have hs' : els'.Pairwise (fun a b => a.2 ≤ b.2) := by
    have : (els.map (·.2)).Pairwise (· ≤ ·) := List.pairwise_map.mpr hs
    rw [← h3] at this
    exact List.pairwise_map.mp this
  -- membership
  have hmem : ∀ i r, HasRank (RowDominates (finRows fmat)) fmat.length r i → (i, r) ∈ els' := by
    intro i r h
    have hi : i < fmat.length := by
      have mono : ∀ k, Remaining (RowDominates (finRows fmat)) fmat.length k i → i < fmat.length := by
        intro k
        induction k with
        | zero => exact id
        | succ k ih => exact fun h => ih h.1
      exact mono _ h.1
    have : i ∈ els'.map (·.1) := ((h2.map (·.1)).trans hp).mem_iff.mpr (by simpa using hi)
    obtain ⟨⟨i', s⟩, hm', rfl⟩ := List.mem_map.mp this
    rw [hasRank_unique h (hr _ _ (h2.mem_iff.mp hm'))]
    exact hm'
  have hrank : ∀ e ∈ els', HasRank (RowDominates (finRows fmat)) fmat.length e.2 e.1 := fun e he => hr _ _ (h2.mem_iff.mp he)
  have hsel : ∀ i r, HasRank (RowDominates (finRows fmat)) fmat.length r i → (i ∈ kept.map (·.1) ↔ (i, r) ∈ els'.take popSize) := by
    intro i r h
    constructor
    · intro hi
      obtain ⟨⟨i', s⟩, hm', rfl⟩ := List.mem_map.mp hi
      have := g2.mem_iff.mp hm'
      rw [hasRank_unique h (hrank _ (List.mem_of_mem_take this))]
      exact this
    · intro hi
      exact List.mem_map.mpr ⟨(i, r), g2.mem_iff.mpr hi, rfl⟩
  have hdrop : ∀ e, e ∈ els' → e ∉ els'.take popSize → e ∈ els'.drop popSize := by
    intro e he hn
    rw [← List.take_append_drop popSize els', List.mem_append] at he
    exact he.resolve_left hn
  refine ⟨_, _, g4, ⟨by simp [hkl], ((g2.map (·.1)).nodup_iff.mpr (hnd.sublist ((List.take_sublist _ _).map _))), ?_⟩, ?_, ?_, by simp [hkl], g5, ?_⟩
  · intro i hi
    obtain ⟨e, he, rfl⟩ := List.mem_map.mp hi
    have := ((h2.map (·.1)).trans hp).mem_iff.mp (List.mem_map.mpr ⟨e, List.mem_of_mem_take (g2.mem_iff.mp he), rfl⟩)
    simpa using this
  · intro i j r q hi hir hjq hqr
    rw [hsel i r hir] at hi
    rw [hsel j q hjq]
    by_contra hn
    have hb := hdrop _ (hmem j q hjq) hn
    have := (List.pairwise_append.mp (by rw [List.take_append_drop]; exact hs' : (els'.take popSize ++ els'.drop popSize).Pairwise (fun a b => a.2 ≤ b.2))).2.2 _ hi _ hb
    simp only at this
    omega
  · intro r
    by_cases hboth : (∃ e ∈ els'.take popSize, e.2 = r) ∧ (∃ e ∈ els'.drop popSize, e.2 = r)
    · obtain ⟨front, d, hd1, hd2, hd3, hd4⟩ := h4 r hboth.1 hboth.2
      have hfm : ∀ i, i ∈ front.map (·.1) ↔ HasRank (RowDominates (finRows fmat)) fmat.length r i := by
        intro i
        constructor
        · intro hi
          obtain ⟨e, he, rfl⟩ := List.mem_map.mp hi
          obtain ⟨he1, he2⟩ := (hd1 e).mp he
          rw [← he2]; exact hrank e (h2.mem_iff.mpr he1)
        · intro hi
          exact List.mem_map.mpr ⟨(i, r), (hd1 _).mpr ⟨h2.mem_iff.mp (hmem i r hi), rfl⟩, rfl⟩
      refine ⟨front.map (·.1), d, hd2, hfm, hd3, ?_⟩
      intro i hi j hj hik hjk
      have hir := (hfm i).mp hi
      have hjr := (hfm j).mp hj
      rw [hsel i r hir] at hik
      rw [hsel j r hjr] at hjk
      exact hd4 _ hik _ (hdrop _ (hmem j r hjr) hjk) rfl rfl
    · -- the front is kept or rejected as a whole: the distances of the whole front
      obtain ⟨d, hd1, hd2, hd3⟩ := crowdingDistances_isCrowding sort hsort eps ncols fmat hm
        (if (els.filter (fun e => e.2 == r)) = [] then [] else [els.filter (fun e => e.2 == r)])
        (by intro f hf; split at hf
            · simp at hf
            · rename_i hne; rw [List.mem_singleton] at hf; rw [hf]; exact hne)
        (by split
            · simp
            · simp only [List.flatten_cons, List.flatten_nil, List.append_nil]
              exact (hp.nodup_iff.mpr List.nodup_range).sublist (List.filter_sublist.map _))
        (by intro e he; split at he
            · simp at he
            · simp only [List.flatten_cons, List.flatten_nil, List.append_nil, List.mem_filter] at he
              have := hp.mem_iff.mp (List.mem_map.mpr ⟨e, he.1, rfl⟩)
              simpa using this)
      have hfm : ∀ i, i ∈ (els.filter (fun e => e.2 == r)).map (·.1) ↔ HasRank (RowDominates (finRows fmat)) fmat.length r i := by
        intro i
        constructor
        · intro hi
          obtain ⟨e, he, rfl⟩ := List.mem_map.mp hi
          simp only [List.mem_filter, beq_iff_eq] at he
          rw [← he.2]; exact hr _ _ he.1
        · intro hi
          exact List.mem_map.mpr ⟨(i, r), by simp [h2.mem_iff.mp (hmem i r hi)], rfl⟩
      refine ⟨(els.filter (fun e => e.2 == r)).map (·.1), fun i => d.getD i 0, (hp.nodup_iff.mpr List.nodup_range).sublist (List.filter_sublist.map _), hfm, ?_, ?_⟩
      · by_cases hne : els.filter (fun e => e.2 == r) = []
        · rw [hne]
          exact ⟨fun _ _ => 0, fun _ => [], fun _ _ => 0, fun _ _ => ⟨List.Perm.refl _, List.Pairwise.nil, by simp⟩, by simp⟩
        · exact hd3 _ (by rw [if_neg hne]; simp)
      · intro i hi j hj hik hjk
        exfalso
        have hir := (hfm i).mp hi
        have hjr := (hfm j).mp hj
        rw [hsel i r hir] at hik
        rw [hsel j r hjr] at hjk
        exact hboth ⟨⟨_, hik, rfl⟩, ⟨_, hdrop _ (hmem j r hjr) hjk, rfl⟩⟩
  · intro p i hpi
    simp only [List.getElem?_map, Option.map_eq_some_iff] at hpi ⊢
    obtain ⟨e, he, rfl⟩ := hpi
    exact ⟨e.2, ⟨e, he, rfl⟩, hrank e (List.mem_of_mem_take (g2.mem_iff.mp (List.mem_of_getElem? he)))⟩

/-- **C31 (initialization).** After the initialization the ranks and the distances are those of the candidates, position by position. -/
theorem C31_initialize (sort : SortFn) (hsort : SortContract sort) (eps : K) (ncols : Nat) (fmat : List (List K)) (hm : IsMatrix ncols fmat) (hne : fmat ≠ [])
    (els : List (Nat × Nat)) (hels : IsNdSort (RowDominates (finRows fmat)) fmat.length els) :
    ∃ s, Nsga2.init sort eps ncols fmat els = some s ∧ s.ranks.length = fmat.length ∧ s.dists.length = fmat.length ∧
      (∀ i r, s.ranks[i]? = some r ↔ HasRank (RowDominates (finRows fmat)) fmat.length r i) ∧
      ∀ i r, HasRank (RowDominates (finRows fmat)) fmat.length r i → ∃ front : List Nat, front.Nodup ∧ i ∈ front ∧ (∀ j, j ∈ front ↔ HasRank (RowDominates (finRows fmat)) fmat.length r j) ∧
        IsCrowding eps ncols fmat front (fun j => s.dists.getD j 0) := by
  obtain ⟨hp, hs, hr⟩ := hels
  have hlen : els.length = fmat.length := by simpa using hp.length_eq
  have helne : els ≠ [] := by
    intro h; rw [h] at hlen; exact hne (List.length_eq_zero_iff.mp hlen.symm)
  obtain ⟨⟨rs, hrs1, hrs2, hrs3⟩, -, -⟩ := C11_front_bookkeeping els hs (by rw [hlen]; exact hp)
  obtain ⟨fs, hf1, hf2, hf3, hf4, hf5⟩ := frontsList_spec els hs helne
  have hnd : (els.map (·.1)).Nodup := hp.nodup_iff.mpr List.nodup_range
  obtain ⟨d, hd1, hd2, hd3⟩ := crowdingDistances_isCrowding sort hsort eps ncols fmat hm fs hf3 (by rw [hf2]; exact hnd)
    (by rw [hf2]; intro e he; have := hp.mem_iff.mp (List.mem_map.mpr ⟨e, he, rfl⟩); simpa using this)
  have hmem : ∀ i r, HasRank (RowDominates (finRows fmat)) fmat.length r i ↔ (i, r) ∈ els := by
    intro i r
    refine ⟨fun h => ?_, hr i r⟩
    have hi : i < fmat.length := by
      have mono : ∀ k, Remaining (RowDominates (finRows fmat)) fmat.length k i → i < fmat.length := by
        intro k
        induction k with
        | zero => exact id
        | succ k ih => exact fun h => ih h.1
      exact mono _ h.1
    have : i ∈ els.map (·.1) := hp.mem_iff.mpr (by simpa using hi)
    obtain ⟨⟨i', s⟩, hm', rfl⟩ := List.mem_map.mp this
    rw [hasRank_unique h (hr _ _ hm')]
    exact hm'
  refine ⟨⟨rs, d⟩, by simp [Nsga2.init, hrs1, hf1, hd1], by rw [hrs2, hlen], hd2, ?_, ?_⟩
  · intro i r; rw [hmem, ← hrs3]
  · intro i r h
    have hin := (hmem i r).mp h
    rw [← hf2, List.mem_flatten] at hin
    obtain ⟨g, hg, hig⟩ := hin
    refine ⟨g.map (·.1), hnd.sublist ?_, List.mem_map.mpr ⟨_, hig, rfl⟩, ?_, hd3 g hg⟩
    · rw [← hf2]; exact (List.sublist_flatten_of_mem hg).map _
    · intro j
      constructor
      · intro hj
        obtain ⟨e, he, rfl⟩ := List.mem_map.mp hj
        have := hf4 g hg e he _ hig
        rw [hmem]
        have he' : e ∈ els := by rw [← hf2]; exact List.mem_flatten.mpr ⟨g, hg, he⟩
        have hee : (e.1, r) = e := Prod.ext rfl this.symm
        rw [hee]; exact he'
      · intro hj
        have hjm := (hmem j r).mp hj
        rw [← hf2, List.mem_flatten] at hjm
        obtain ⟨g', hg', hjg'⟩ := hjm
        have : g' = g := by
          by_contra hne'
          have hpw := hf5
          obtain ⟨p, hpl, rfl⟩ := List.getElem_of_mem hg
          obtain ⟨q, hql, rfl⟩ := List.getElem_of_mem hg'
          rcases Nat.lt_trichotomy p q with h' | h' | h'
          · have := List.pairwise_iff_getElem.mp hpw p q hpl hql h' _ hig _ hjg'; simp at this
          · subst h'; exact hne' rfl
          · have := List.pairwise_iff_getElem.mp hpw q p hql hpl h' _ hjg' _ hig; simp at this
        subst this
        exact List.mem_map.mpr ⟨_, hjg', rfl⟩

omit [IsStrictOrderedRing K] in
/-- **C31 (selection).** The tournament returns one of its two participants: the one with the lower stored rank, and among equal ranks not the one with the smaller stored distance. -/
theorem C31_selection (s : Nsga2 K) (i j : Nat) (ri rj : Nat) (di dj : WithTop K) (hri : s.ranks[i]? = some ri) (hrj : s.ranks[j]? = some rj)
    (hdi : s.dists[i]? = some di) (hdj : s.dists[j]? = some dj) :
    ∃ k, s.select i j = some k ∧ (k = i ∨ k = j) ∧ (ri < rj → k = i) ∧ (rj < ri → k = j) ∧ (ri = rj → (dj < di → k = i) ∧ (di < dj → k = j)) := by
  unfold Nsga2.select
  simp only [hri, hrj, hdi, hdj, Option.bind_eq_bind, Option.bind_some]
  by_cases h1 : ri < rj
  · rw [if_pos h1]
    exact ⟨i, rfl, Or.inl rfl, fun _ => rfl, fun h => by omega, fun h => by omega⟩
  · rw [if_neg h1]
    by_cases h2 : rj < ri
    · rw [if_pos h2]
      exact ⟨j, rfl, Or.inr rfl, fun h => by omega, fun _ => rfl, fun h => by omega⟩
    · rw [if_neg h2]
      by_cases h3 : dj < di
      · rw [if_pos h3]
        exact ⟨i, rfl, Or.inl rfl, fun _ => rfl, fun h => by omega, fun _ => ⟨fun _ => rfl, fun h => absurd (lt_trans h3 h) (lt_irrefl _)⟩⟩
      · rw [if_neg h3]
        exact ⟨j, rfl, Or.inr rfl, fun h => by omega, fun _ => rfl, fun _ => ⟨fun h => absurd h h3, fun _ => rfl⟩⟩

/-- **C31 (selection from the initial population).** Parents of the first generation are chosen by their rank in the population, and by their crowding distance in their front.
(Missing: the same for the later generations, where it is false, see `C31_selection_misaligned`.) -/
theorem C31_initial_selection_partial (sort : SortFn) (hsort : SortContract sort) (eps : K) (ncols : Nat) (fmat : List (List K)) (hm : IsMatrix ncols fmat) (hne : fmat ≠ [])
    (els : List (Nat × Nat)) (hels : IsNdSort (RowDominates (finRows fmat)) fmat.length els) :
    ∃ s, Nsga2.init sort eps ncols fmat els = some s ∧ ∀ i j ri rj, HasRank (RowDominates (finRows fmat)) fmat.length ri i → HasRank (RowDominates (finRows fmat)) fmat.length rj j →
      ∃ k, s.select i j = some k ∧ (k = i ∨ k = j) ∧ (ri < rj → k = i) ∧ (rj < ri → k = j) ∧
        (ri = rj → ∃ (front : List Nat) (d : Nat → WithTop K), front.Nodup ∧ (∀ x, x ∈ front ↔ HasRank (RowDominates (finRows fmat)) fmat.length ri x) ∧
          IsCrowding eps ncols fmat front d ∧ d i ≤ d k ∧ d j ≤ d k) := by
  obtain ⟨s, hs1, hs2, hs3, hs4, hs5⟩ := C31_initialize sort hsort eps ncols fmat hm hne els hels
  refine ⟨s, hs1, ?_⟩
  intro i j ri rj hi hj
  have hri := (hs4 i ri).mpr hi
  have hrj := (hs4 j rj).mpr hj
  have hil : i < s.dists.length := by rw [hs3, ← hs2]; exact (List.getElem?_eq_some_iff.mp hri).1
  have hjl : j < s.dists.length := by rw [hs3, ← hs2]; exact (List.getElem?_eq_some_iff.mp hrj).1
  obtain ⟨k, hk1, hk2, hk3, hk4, hk5⟩ := C31_selection s i j ri rj _ _ hri hrj (List.getElem?_eq_getElem hil) (List.getElem?_eq_getElem hjl)
  refine ⟨k, hk1, hk2, hk3, hk4, ?_⟩
  intro heq
  obtain ⟨front, hf1, hf2, hf3, hf4⟩ := hs5 i ri hi
  refine ⟨front, _, hf1, hf3, hf4, ?_⟩
  have hgi : s.dists.getD i 0 = s.dists[i] := by simp [hil]
  have hgj : s.dists.getD j 0 = s.dists[j] := by simp [hjl]
  obtain ⟨h1, h2⟩ := hk5 heq
  rcases hk2 with rfl | rfl
  · refine ⟨le_refl _, ?_⟩
    simp only [hgi, hgj]
    by_contra hc
    have := h2 (not_le.mp hc)
    subst this
    exact hc (le_refl _)
  · refine ⟨?_, le_refl _⟩
    simp only [hgi, hgj]
    by_contra hc
    have := h1 (not_le.mp hc)
    subst this
    exact hc (le_refl _)

/-- **C31 (selection by rank in every generation).** After a replacement, the participant with the lower rank wins the tournament. -/
theorem C31_selection_rank (sort : SortFn) (hsort : SortContract sort) (eps : K) (ncols : Nat) (fmat : List (List K)) (hm : IsMatrix ncols fmat)
    (els : List (Nat × Nat)) (hels : IsNdSort (RowDominates (finRows fmat)) fmat.length els) (popSize : Nat) (h0 : 0 < popSize) (hle : popSize ≤ fmat.length) :
    ∃ sel s, nsga2Next sort eps ncols fmat els popSize = some (sel, s) ∧ ∀ (p q : Nat) (i j ri rj : Nat), sel[p]? = some i → sel[q]? = some j →
      HasRank (RowDominates (finRows fmat)) fmat.length ri i → HasRank (RowDominates (finRows fmat)) fmat.length rj j →
      ∃ k, s.select p q = some k ∧ (k = p ∨ k = q) ∧ (ri < rj → k = p) ∧ (rj < ri → k = q) := by
  obtain ⟨sel, s, h1, h2, h3, h4, h5, h6, h7⟩ := C31_replacement sort hsort eps ncols fmat hm els hels popSize h0 hle
  refine ⟨sel, s, h1, ?_⟩
  intro p q i j ri rj hp hq hi hj
  obtain ⟨r, hr1, hr2⟩ := h7 p i hp
  obtain ⟨t, ht1, ht2⟩ := h7 q j hq
  rw [hasRank_unique hr2 hi] at hr1
  rw [hasRank_unique ht2 hj] at ht1
  have hpl : p < s.dists.length := by rw [h6, ← h5]; exact (List.getElem?_eq_some_iff.mp hr1).1
  have hql : q < s.dists.length := by rw [h6, ← h5]; exact (List.getElem?_eq_some_iff.mp ht1).1
  obtain ⟨k, hk1, hk2, hk3, hk4, -⟩ := C31_selection s p q ri rj _ _ hr1 ht1 (List.getElem?_eq_getElem hpl) (List.getElem?_eq_getElem hql)
  exact ⟨k, hk1, hk2, hk3, hk4⟩

/-- **C31 (optimal solutions).** After a replacement the optimal solutions are exactly the members of the new population that no member of the new population dominates. -/
theorem C31_optimal_solutions (sort : SortFn) (hsort : SortContract sort) (eps : K) (ncols : Nat) (fmat : List (List K)) (hm : IsMatrix ncols fmat)
    (els : List (Nat × Nat)) (hels : IsNdSort (RowDominates (finRows fmat)) fmat.length els) (popSize : Nat) (h0 : 0 < popSize) (hle : popSize ≤ fmat.length) :
    ∃ sel s, nsga2Next sort eps ncols fmat els popSize = some (sel, s) ∧ s.optimal.Pairwise (· < ·) ∧
      ∀ p, p ∈ s.optimal ↔ ∃ i, sel[p]? = some i ∧ ∀ j ∈ sel, ¬ RowDominates (finRows fmat) j i := by
  obtain ⟨sel, s, h1, ⟨h2, h2', h2''⟩, h3, -, h5, h6, h7⟩ := C31_replacement sort hsort eps ncols fmat hm els hels popSize h0 hle
  obtain ⟨hc1, hc2⟩ := C48_find_indices (fun r => r == 0) s.ranks
  refine ⟨sel, s, h1, hc1, ?_⟩
  intro p
  unfold Nsga2.optimal
  rw [hc2]
  constructor
  · rintro ⟨r, hr, h0r⟩
    rw [beq_iff_eq] at h0r
    subst h0r
    have hpl : p < sel.length := by rw [h2, ← h5]; exact (List.getElem?_eq_some_iff.mp hr).1
    refine ⟨sel[p], List.getElem?_eq_getElem hpl, ?_⟩
    obtain ⟨r', hr', hk⟩ := h7 p _ (List.getElem?_eq_getElem hpl)
    rw [hr] at hr'
    obtain rfl := Option.some.inj hr'
    intro j hj hd
    exact hk.2 ⟨hk.1, j, h2'' j hj, hd⟩
  · rintro ⟨i, hi, hnd⟩
    obtain ⟨r, hr, hk⟩ := h7 p i hi
    refine ⟨r, hr, ?_⟩
    cases r with
    | zero => rfl
    | succ r =>
      exfalso
      obtain ⟨j, hj, hd⟩ := rank_succ_dominated _ _ _ _ hk
      exact hnd j (h3 i j _ _ (List.mem_of_getElem? hi) hk hj (by omega)) hd
end

/-- Insertion sort. -/
def insertSort : SortFn := fun lt l => l.insertionSort (fun a b => lt b a = false)

theorem insertSort_contract : SortContract insertSort := by
  intro lt h l
  refine ⟨List.perm_insertionSort _ _, ?_⟩
  have tot : Std.Total (fun a b : Nat × Nat => lt b a = false) := ⟨fun a b => by
    by_contra hc
    push Not at hc
    simp only [ne_eq, Bool.not_eq_false] at hc
    have := h.trans _ _ _ hc.1 hc.2
    rw [h.irrefl] at this; cases this⟩
  have tr : IsTrans (Nat × Nat) (fun a b => lt b a = false) := ⟨fun a b c hab hbc => by
    by_contra hca
    simp only [Bool.not_eq_false] at hca
    by_cases hac : lt a b = true
    · have := h.trans c a b hca hac
      rw [hbc] at this; cases this
    · simp only [Bool.not_eq_true] at hac
      by_cases hcb : lt b c = true
      · have := h.trans b c a hcb hca
        rw [hab] at this; cases this
      · simp only [Bool.not_eq_true] at hcb
        have := h.incomp c b a hbc hcb hab hac
        rw [hca] at this; cases this⟩
  exact List.pairwise_insertionSort _ _

/-- A pool of six candidates: three that do not dominate each other, and three that are dominated. -/
def nsga2Pool : List (List ℚ) := [[4, 0], [0, 4], [-1, -1], [-1, -1], [-1, -2], [2, 2]]

/-- The non-dominated sort of the pool. -/
def nsga2PoolEls : List (Nat × Nat) := [(0, 0), (1, 0), (5, 0), (2, 1), (3, 1), (4, 2)]

theorem nsga2PoolEls_isNdSort : IsNdSort (RowDominates (finRows nsga2Pool)) nsga2Pool.length nsga2PoolEls := by
  obtain ⟨⟨res, h1, h2⟩, -⟩ := C10_nd_sort_exact (K := ℚ) (m := 2) (fmat := finRows nsga2Pool) (by unfold IsMatrix; decide +kernel)
  have : fastNonDominatedSort (⟨0, 0⟩ : Tol ℚ) (finRows nsga2Pool) = some nsga2PoolEls := by decide +kernel
  rw [this] at h1
  obtain rfl := Option.some.inj h1
  exact h2

/-- The new population: the rows of the selected candidates. -/
def nsga2NewPop : List (List ℚ) := [[4, 0], [2, 2], [0, 4]]

/-- The non-dominated sort of the new population. -/
def nsga2NewEls : List (Nat × Nat) := [(0, 0), (1, 0), (2, 0)]

theorem nsga2NewEls_isNdSort : IsNdSort (RowDominates (finRows nsga2NewPop)) nsga2NewPop.length nsga2NewEls := by
  obtain ⟨⟨res, h1, h2⟩, -⟩ := C10_nd_sort_exact (K := ℚ) (m := 2) (fmat := finRows nsga2NewPop) (by unfold IsMatrix; decide +kernel)
  have : fastNonDominatedSort (⟨0, 0⟩ : Tol ℚ) (finRows nsga2NewPop) = some nsga2NewEls := by decide +kernel
  rw [this] at h1
  obtain rfl := Option.some.inj h1
  exact h2

/-- **C31, violated.** The distances that are stored by a replacement are not those of the members of the new population at the same positions (they are indexed by the position in the
pool). In this pool the new population is the three candidates of the first front, the second of which is between the other two; computed for the new population, its crowding distance
is smaller than that of the third (`s'`), but the tournament of the second and the third returns the second. -/
theorem C31_selection_misaligned : ∃ (sel : List Nat) (s s' : Nsga2 ℚ) (d1 d2 : WithTop ℚ),
    IsNdSort (RowDominates (finRows nsga2Pool)) nsga2Pool.length nsga2PoolEls ∧
    nsga2Next insertSort (1 / 100000000) 2 nsga2Pool nsga2PoolEls 3 = some (sel, s) ∧ sel.mapM (fun i => nsga2Pool[i]?) = some nsga2NewPop ∧
    IsNdSort (RowDominates (finRows nsga2NewPop)) nsga2NewPop.length nsga2NewEls ∧
    Nsga2.init insertSort (1 / 100000000) 2 nsga2NewPop nsga2NewEls = some s' ∧ s.ranks = s'.ranks ∧ s'.ranks[1]? = s'.ranks[2]? ∧
    s'.dists[1]? = some d1 ∧ s'.dists[2]? = some d2 ∧ d1 < d2 ∧ s.select 1 2 = some 1 ∧ s'.select 1 2 = some 2 := by
  have h1 : (nsga2Next insertSort (1 / 100000000 : ℚ) 2 nsga2Pool nsga2PoolEls 3).map (fun x => (x.1, x.2.ranks, x.2.select 1 2)) = some ([0, 5, 1], [0, 0, 0], some 1) := by decide +kernel
  have h2 : (Nsga2.init insertSort (1 / 100000000 : ℚ) 2 nsga2NewPop nsga2NewEls).map (fun x => (x.ranks, x.dists[1]?, x.dists[2]?, x.select 1 2)) =
    some ([0, 0, 0], some ((2 : ℚ) : WithTop ℚ), some ⊤, some 2) := by decide +kernel
  obtain ⟨⟨sel, s⟩, hs, he⟩ := Option.map_eq_some_iff.mp h1
  obtain ⟨s', hs', he'⟩ := Option.map_eq_some_iff.mp h2
  simp only [Prod.mk.injEq] at he he'
  obtain ⟨e1, e2, e3⟩ := he
  obtain ⟨f1, f2, f3, f4⟩ := he'
  refine ⟨sel, s, s', _, _, nsga2PoolEls_isNdSort, hs, by rw [e1]; decide +kernel, nsga2NewEls_isNdSort, hs', by rw [e2, f1], by rw [f1]; rfl, f2, f3, ?_, e3, f4⟩
  exact WithTop.coe_lt_top _

/-- Non-vacuity: the hypotheses of the theorems hold of the pool and of insertion sort, with a population of four that splits the second front. -/
example : ∃ sel s, nsga2Next insertSort (1 / 100000000 : ℚ) 2 nsga2Pool nsga2PoolEls 4 = some (sel, s) ∧ LegalSelection 4 6 sel := by
  obtain ⟨sel, s, h1, h2, -⟩ := C31_replacement insertSort insertSort_contract (1 / 100000000 : ℚ) 2 nsga2Pool (by unfold IsMatrix; decide +kernel) nsga2PoolEls nsga2PoolEls_isNdSort 4
    (by decide) (by decide)
  exact ⟨sel, s, h1, h2⟩
example : (nsga2Next insertSort (1 / 100000000 : ℚ) 2 nsga2Pool nsga2PoolEls 2).map (·.1) = some [0, 1] := by decide +kernel
example : (nsga2Next insertSort (1 / 100000000 : ℚ) 2 nsga2Pool nsga2PoolEls 4).map (fun x => (x.1, x.2.optimal)) = some ([0, 5, 1, 2], [0, 1, 2]) := by decide +kernel

end Gapp.Props
