import Verif.Proofs.ParetoFront
import Mathlib.Algebra.Order.Ring.Int
/-!
# C08: findParetoFront returns exactly the non-dominated rows
-/

namespace Gapp.Props
open Gapp.Model Gapp.Spec Flt
variable {K : Type} [CommRing K] [LinearOrder K] [IsStrictOrderedRing K]

/-- Row `j` of a matrix exactly dominates row `i`. -/
abbrev RowDominates (fmat : FMat K) (j i : Nat) : Prop :=
  ExactDominates (fmat.getD j []) (fmat.getD i [])

/-- **C08.** Under exact comparison, for every matrix with `m` columns: all four implementations – the
public `findParetoFront`, BEST, the sorting based one and Kung's algorithm, the latter two for every
possible result of the unstable sort – terminate without an invalid access and return, without
repetition, exactly the indices of the non-dominated rows. -/
theorem C08_pareto_front_exact {m : Nat} {fmat : FMat K} (hm : IsMatrix m fmat) :
    (∃ res, findParetoFront (⟨0, 0⟩ : Tol K) m fmat = some res ∧
      IsParetoFront (RowDominates fmat) fmat.length res) ∧
    (∃ res, findParetoFrontBest (⟨0, 0⟩ : Tol K) fmat = some res ∧
      IsParetoFront (RowDominates fmat) fmat.length res) ∧
    (∀ indices, IsArgsort (rowLexLess fmat) fmat.length indices →
      IsParetoFront (RowDominates fmat) fmat.length (findParetoFrontSort (⟨0, 0⟩ : Tol K) fmat indices)) ∧
    (fmat ≠ [] → ∀ indices, IsArgsort (rowLexLess fmat) fmat.length indices →
      ∃ res, findParetoFrontKung (⟨0, 0⟩ : Tol K) fmat indices = some res ∧
        IsParetoFront (RowDominates fmat) fmat.length res) := by
  have hspo := rowSPO hm
  have heq : (fun j i => rowLess (⟨0, 0⟩ : Tol K) fmat i j = true) = RowDominates fmat := by
    funext j i; exact propext (rowLess_zero fmat i j)
  have hbest : ∃ res, findParetoFrontBest (⟨0, 0⟩ : Tol K) fmat = some res ∧
      IsParetoFront (RowDominates fmat) fmat.length res := by
    rw [← heq]
    exact bestOuter_front hspo (fun i j _ _ => (rowCmp_zero fmat i j).1)
      (fun i j _ _ => (rowCmp_zero fmat i j).2)
  refine ⟨?_, hbest, ?_, ?_⟩
  · unfold findParetoFront
    split
    · rename_i he
      subst he
      exact ⟨[], rfl, by simp, by simp⟩
    · rename_i hne
      split
      · rename_i h1
        subst h1
        obtain ⟨res, h1, h2⟩ := findParetoFront1D_spec (t := (⟨0, 0⟩ : Tol K)) ⟨le_rfl, le_rfl⟩
          zero_le_one hm hne
        refine ⟨res, h1, ?_⟩
        simpa only [dominates_zero] using h2
      · exact hbest
  · intro indices hs
    rw [findParetoFrontSort, frontSortLoop_eq hspo indices
      (fun x hx => by simpa using hs.1.mem_iff.1 hx) (topoSorted_of_argsort hm hs), ← heq]
    exact front_of_filter hs.1
  · intro hne indices hs
    refine ⟨_, kungImpl_eq hspo _ indices (Nat.le_refl _) ?_
      (fun x hx => by simpa using hs.1.mem_iff.1 hx) (topoSorted_of_argsort hm hs), ?_⟩
    · rintro rfl
      have := hs.1.length_eq
      simp at this
      exact hne (List.length_eq_zero_iff.1 this.symm)
    · rw [← heq]; exact front_of_filter hs.1

/-- **C08 (agreement).** The implementations return the same set of indices. -/
theorem C08_pareto_front_implementations_agree {m : Nat} {fmat : FMat K} (hm : IsMatrix m fmat) (hne : fmat ≠ [])
    (indices : List Nat) (hs : IsArgsort (rowLexLess fmat) fmat.length indices) :
    ∃ a b, findParetoFrontBest (⟨0, 0⟩ : Tol K) fmat = some a ∧
      findParetoFrontKung (⟨0, 0⟩ : Tol K) fmat indices = some b ∧
      a.Perm b ∧ a.Perm (findParetoFrontSort (⟨0, 0⟩ : Tol K) fmat indices) := by
  obtain ⟨-, ⟨a, ha, hA⟩, hS, hK⟩ := C08_pareto_front_exact hm
  obtain ⟨b, hb, hB⟩ := hK hne indices hs
  have hS := hS indices hs
  refine ⟨a, b, ha, hb, ?_, ?_⟩
  · exact (List.perm_ext_iff_of_nodup hA.1 hB.1).2 fun i => (hA.2 i).trans (hB.2 i).symm
  · exact (List.perm_ext_iff_of_nodup hA.1 hS.1).2 fun i => (hA.2 i).trans (hS.2 i).symm

/-- **C08 (one objective, any tolerance).** With a single objective and any tolerances with relative part at
most 1, the result is the set of rows that no row exceeds by more than the tolerance. -/
theorem C08_pareto_front_single_objective {t : Tol K} (ht : t.Valid) (hr : t.rel ≤ 1) {fmat : FMat K}
    (hm : IsMatrix 1 fmat) :
    ∃ res, findParetoFront t 1 fmat = some res ∧
      IsParetoFront (fun j i => Dominates t (fmat.getD j []) (fmat.getD i [])) fmat.length res := by
  unfold findParetoFront
  split
  · rename_i he
    subst he
    exact ⟨[], rfl, by simp, by simp⟩
  · rename_i hne
    simp only [if_true]
    exact findParetoFront1D_spec ht hr hm hne

/-- A small matrix with duplicates, dominated rows in front of and behind their dominators. -/
def exampleMatrix : FMat ℤ :=
  [[fin 1, fin 1], [fin 3, fin 0], [fin 2, fin 2], [fin 2, fin 2], [fin 0, fin 3], [fin 1, fin 2]]

example : IsMatrix 2 exampleMatrix := by unfold IsMatrix; decide
example : findParetoFront (⟨0, 0⟩ : Tol ℤ) 2 exampleMatrix = some [2, 1, 3, 4] := by decide +kernel
example : IsArgsort (rowLexLess exampleMatrix) 6 [1, 3, 2, 5, 0, 4] :=
  ⟨by decide, by decide⟩
example : findParetoFrontSort (⟨0, 0⟩ : Tol ℤ) exampleMatrix [1, 3, 2, 5, 0, 4] = [1, 3, 2, 4] := by
  decide +kernel
example : (⟨1, 0⟩ : Tol ℤ).Valid ∧ findParetoFront (⟨1, 0⟩ : Tol ℤ) 1 [[fin 1], [fin 5], [fin 4]] = some [1, 2] :=
  ⟨⟨by decide, by decide⟩, by decide⟩

/-- **C56.** For a non-empty matrix, under exact comparison, the nadir point is defined
and each of its coordinates is the smallest value of that coordinate among the non-dominated rows. -/
theorem C56_nadir_point {m : Nat} {fmat : FMat K} (hm : IsMatrix m fmat) (hne : fmat ≠ []) :
    ∃ p, findNadirPoint (⟨0, 0⟩ : Tol K) m fmat = some p ∧ p.length = m ∧
      ∀ k (hk : k < p.length),
        (∀ i, i < fmat.length → (∀ j, j < fmat.length → ¬ RowDominates fmat j i) →
          ∀ x, (fmat.getD i [])[k]? = some x → p[k] ≤ x) ∧
        (∃ i, i < fmat.length ∧ (∀ j, j < fmat.length → ¬ RowDominates fmat j i) ∧
          (fmat.getD i [])[k]? = some p[k]) := by
  obtain ⟨⟨front, hf, hF⟩, -⟩ := C08_pareto_front_exact hm
  obtain ⟨rows, hr1, hr2⟩ := select_rows (fmat := fmat) (l := front) (fun i hi => ((hF.2 i).1 hi).1)
  have hlen0 : 0 < fmat.length := List.length_pos_iff.2 hne
  have hfne : front ≠ [] := by
    obtain ⟨y, hy, -, hny⟩ := exists_maximal (rowSPO hm) (List.range fmat.length)
      (fun x hx => by simpa using hx) _ 0 (by simpa using hlen0) (Nat.le_refl _)
    have : y ∈ front := (hF.2 y).2 ⟨by simpa using hy, fun j hj hd => by
      have := nd_iff.1 hny j (by simpa using hj)
      rw [← Bool.not_eq_true, rowLess_zero] at this
      exact this hd⟩
    intro h0; rw [h0] at this; simp at this
  have hrlen : ∀ r ∈ rows, r.length = m := by
    intro r hr
    rw [hr2] at hr
    obtain ⟨i, hi, rfl⟩ := List.mem_map.1 hr
    exact row_length hm ((hF.2 i).1 hi).1
  cases hrows : rows with
  | nil => rw [hrows] at hr2; exact absurd (List.map_eq_nil_iff.1 hr2.symm) hfne
  | cons q qs =>
    rw [hrows] at hrlen
    obtain ⟨n1, n2⟩ := foldl_elementwiseMin_spec m q qs (hrlen q (by simp))
      (fun r hr => hrlen r (List.mem_cons_of_mem _ hr))
    refine ⟨qs.foldl elementwiseMin q, ?_, n1, ?_⟩
    · rw [findNadirPoint, if_neg hne, hf]
      simp only [Option.bind_eq_bind, Option.bind_some, hr1, hrows, Option.pure_def]
    · intro k hk
      obtain ⟨n3, n4⟩ := n2 k hk
      refine ⟨?_, ?_⟩
      · intro i hi hmax x hx
        have : fmat.getD i [] ∈ q :: qs := by
          rw [← hrows, hr2]; exact List.mem_map.2 ⟨i, (hF.2 i).2 ⟨hi, hmax⟩, rfl⟩
        exact n3 _ this x hx
      · obtain ⟨r, hr, hx⟩ := n4
        rw [← hrows, hr2] at hr
        obtain ⟨i, hi, rfl⟩ := List.mem_map.1 hr
        exact ⟨i, ((hF.2 i).1 hi).1, ((hF.2 i).1 hi).2, hx⟩

example : findNadirPoint (⟨0, 0⟩ : Tol ℤ) 2 exampleMatrix = some [fin 0, fin 0] := by decide +kernel

end Gapp.Props
