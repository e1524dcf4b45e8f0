import Verif.Proofs.NdSort
import Verif.Props.ParetoFront
/-!
# C10, C11: non-dominated sorting and the bookkeeping of fronts
-/

namespace Gapp.Props
open Gapp.Model Gapp.Spec Flt
variable {K : Type} [CommRing K] [LinearOrder K] [IsStrictOrderedRing K]

/-- **C10.** Under exact comparison, for every matrix with `m` columns, each of the three algorithms terminates
without an invalid access and returns every row exactly once, ordered by rank, with the rank defined by repeatedly removing the
non-dominated rows:
* the fast non-dominated sort,
* the dominance degree sort, for all results of its unstable sorts and every order of the stores of its parallel phase,
* the efficient non-dominated sort (the one `nonDominatedSort` uses), for every result of its unstable sort. -/
theorem C10_nd_sort_exact {m : Nat} {fmat : FMat K} (hm : IsMatrix m fmat) :
    (∃ res, fastNonDominatedSort (⟨0, 0⟩ : Tol K) fmat = some res ∧
      IsNdSort (RowDominates fmat) fmat.length res) ∧
    (∀ marks, IsMarking (⟨0, 0⟩ : Tol K) fmat m marks → ∃ res, dominanceDegreeSort fmat marks = some res ∧
      IsNdSort (RowDominates fmat) fmat.length res) ∧
    (∀ indices, IsArgsort (rowLexLess fmat) fmat.length indices →
      ∃ res, efficientNonDominatedSort (⟨0, 0⟩ : Tol K) fmat indices = some res ∧
        IsNdSort (RowDominates fmat) fmat.length res) := by
  have hspo := rowSPO hm
  have heq : (fun j i => rowLess (⟨0, 0⟩ : Tol K) fmat i j = true) = RowDominates fmat := by
    funext j i; exact propext (rowLess_zero fmat i j)
  rw [← heq]
  refine ⟨?_, ?_, ?_⟩
  · exact fnds_isNdSort hspo (fun i j _ _ => (rowCmp_zero fmat i j).1) (fun i j _ _ => (rowCmp_zero fmat i j).2)
  · intro marks hmk
    exact dds_isNdSort hspo marks (fun r c hr hc _ => marking_dom hm hmk r c hr hc)
  · intro indices hs
    exact ens_isNdSort hspo indices (topoSorted_of_argsort hm hs) hs.1

/-- A specification rank is unique. -/
theorem hasRank_unique {dom : Nat → Nat → Prop} {n k l i : Nat} (h1 : HasRank dom n k i) (h2 : HasRank dom n l i) :
    k = l := by
  have mono : ∀ (d k : Nat), Remaining dom n (k + d) i → Remaining dom n k i := by
    intro d
    induction d with
    | zero => intro k h; exact h
    | succ d ih => intro k h; exact ih k h.1
  rcases Nat.lt_trichotomy k l with h | h | h
  · exact absurd (mono (l - (k + 1)) (k + 1) (by rw [show k + 1 + (l - (k + 1)) = l by omega]; exact h2.1)) h1.2
  · exact h
  · exact absurd (mono (k - (l + 1)) (l + 1) (by rw [show l + 1 + (k - (l + 1)) = k by omega]; exact h1.1)) h2.2

/-- **C10 (agreement).** Two results that satisfy the specification – in particular those of the three algorithms –
give every row the same rank. -/
theorem C10_nd_sorts_agree {dom : Nat → Nat → Prop} {n : Nat} {a b : List (Nat × Nat)}
    (ha : IsNdSort dom n a) (hb : IsNdSort dom n b) : ∀ i r, (i, r) ∈ a ↔ (i, r) ∈ b := by
  have key : ∀ (a b : List (Nat × Nat)), IsNdSort dom n a → IsNdSort dom n b → ∀ i r, (i, r) ∈ a → (i, r) ∈ b := by
    intro a b ha hb i r hm
    have : i ∈ b.map (·.1) := hb.1.mem_iff.2 (ha.1.mem_iff.1 (List.mem_map.2 ⟨_, hm, rfl⟩))
    obtain ⟨⟨i', s⟩, hm', rfl⟩ := List.mem_map.1 this
    rw [hasRank_unique (ha.2.2 _ _ hm) (hb.2.2 _ _ hm')]
    exact hm'
  exact fun i r => ⟨key a b ha hb i r, key b a hb ha i r⟩

/-- A matrix with three fronts and a duplicate row. -/
def exampleNdMatrix : FMat ℤ :=
  [[fin 0, fin 0], [fin 3, fin 1], [fin 1, fin 1], [fin 1, fin 3], [fin 0, fin 0], [fin 2, fin 0]]

/-- Non-vacuity: the three algorithms on it. -/
example : IsMatrix 2 exampleNdMatrix := by unfold IsMatrix; decide
example : fastNonDominatedSort (⟨0, 0⟩ : Tol ℤ) exampleNdMatrix = some [(1, 0), (3, 0), (5, 1), (2, 1), (0, 2), (4, 2)] := by
  decide +kernel
example : IsArgsort (rowLexLess exampleNdMatrix) 6 [1, 5, 3, 2, 4, 0] ∧
    efficientNonDominatedSort (⟨0, 0⟩ : Tol ℤ) exampleNdMatrix [1, 5, 3, 2, 4, 0] =
      some [(3, 0), (1, 0), (2, 1), (5, 1), (0, 2), (4, 2)] := by
  refine ⟨⟨by decide, by decide⟩, by decide +kernel⟩
example : ∃ marks, IsMarking (⟨0, 0⟩ : Tol ℤ) exampleNdMatrix 2 marks ∧
    dominanceDegreeSort exampleNdMatrix marks = some [(1, 0), (3, 0), (2, 1), (5, 1), (0, 2), (4, 2)] := by
  refine ⟨((List.range 2).flatMap (fun obj => taskMarks (⟨0, 0⟩ : Tol ℤ) exampleNdMatrix obj
    (if obj = 0 then [1, 5, 3, 2, 4, 0] else [3, 1, 2, 5, 4, 0]))).reverse, ⟨fun obj =>
      if obj = 0 then [1, 5, 3, 2, 4, 0] else [3, 1, 2, 5, 4, 0], ?_, List.reverse_perm _⟩, by decide +kernel⟩
  intro obj ho
  rcases obj with _ | _ | obj
  · exact ⟨by decide, by decide⟩
  · exact ⟨by decide, by decide⟩
  · omega

/-- **C11.** For a list of (index, rank) pairs sorted by rank, in which every index below the length occurs once (the
result of a non-dominated sort):
* `ranks()` gives every index its rank;
* `fronts()` are non-empty ranges that concatenate to the whole list, of constant rank inside and strictly increasing
  rank from one to the next;
* `resize(k)` keeps the first `k` elements. -/
theorem C11_front_bookkeeping (els : List (Nat × Nat)) (hs : els.Pairwise (fun a b => a.2 ≤ b.2))
    (hp : (els.map (·.1)).Perm (List.range els.length)) :
    (∃ rs, frontsRanks els = some rs ∧ rs.length = els.length ∧ ∀ i r, (i, r) ∈ els ↔ rs[i]? = some r) ∧
    (els ≠ [] → ∃ fs, frontsList els = some fs ∧ fs.flatten = els ∧ (∀ g ∈ fs, g ≠ []) ∧
      (∀ g ∈ fs, ∀ a ∈ g, ∀ b ∈ g, a.2 = b.2) ∧ fs.Pairwise (fun g h => ∀ a ∈ g, ∀ b ∈ h, a.2 < b.2)) ∧
    (∀ k, k ≤ els.length → frontsResize els k = some (els.take k)) := by
  refine ⟨?_, ?_, ?_⟩
  · obtain ⟨rs, h1, h2, h3⟩ := frontsRanks_spec els hp
    refine ⟨rs, h1, h2, fun i r => ⟨h3 i r, ?_⟩⟩
    intro hr
    obtain ⟨hi, _⟩ := List.getElem?_eq_some_iff.1 hr
    have : i ∈ els.map (·.1) := hp.mem_iff.2 (List.mem_range.2 (by omega))
    obtain ⟨⟨i', s⟩, hm, rfl⟩ := List.mem_map.1 this
    have := h3 _ _ hm
    rw [hr] at this
    cases this
    exact hm
  · intro hne
    cases els with
    | nil => exact absurd rfl hne
    | cons e rest =>
      obtain ⟨h1, h2, h3, h4⟩ := frontsLoop_spec e.2 [] (e :: rest) (Or.inr ⟨e, rest, rfl, rfl⟩) (by simp) (by simpa using hs)
      exact ⟨_, rfl, by simpa using h1, h2, h3, h4⟩
  · intro k hk
    rw [frontsResize, if_pos hk]

/-- **C11 (partial front).** For a rank-sorted list and `0 < size < length`, `partialFront(size)` is the range `[first, last)`
around the cut at `size`: it is empty when the cut separates two fronts, and otherwise it is exactly the elements of the
front that the cut splits. With `size = length` there is nothing to split and the range is empty. -/
theorem C11_partial_front (els : List (Nat × Nat)) (hs : els.Pairwise (fun a b => a.2 ≤ b.2)) (size : Nat) (h0 : 0 < size) :
    (size = els.length → partialFront els size = some (0, 0)) ∧
    (∀ hn : size < els.length, ∃ first last, partialFront els size = some (first, last) ∧
      first ≤ size ∧ size ≤ last ∧ last ≤ els.length ∧
      (els[size - 1].2 ≠ els[size].2 → first = size ∧ last = size) ∧
      (els[size - 1].2 = els[size].2 →
        ∀ i (hi : i < els.length), (first ≤ i ∧ i < last) ↔ els[i].2 = els[size].2)) := by
  refine ⟨?_, fun hn => partialFront_spec els hs size h0 hn⟩
  intro he
  unfold partialFront
  rw [if_pos ⟨h0, by omega⟩, if_pos he]

/-- Non-vacuity: a list with three fronts, cut inside, at the border of, and at the end of a front. -/
example : let els := [(3, 0), (1, 0), (2, 1), (5, 1), (0, 1), (4, 2)]
    frontsRanks els = some [1, 0, 1, 0, 2, 1] ∧
    frontsList els = some [[(3, 0), (1, 0)], [(2, 1), (5, 1), (0, 1)], [(4, 2)]] ∧
    partialFront els 3 = some (2, 5) ∧ partialFront els 2 = some (2, 2) ∧ partialFront els 6 = some (0, 0) := by
  decide

end Gapp.Props
