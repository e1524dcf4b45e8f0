import Verif.Proofs.DblOrder
import Verif.Proofs.Nsga2
/-!
# C86: infinite fitness values of the single-objective selections

The tournament and the rank selection support infinite fitness values (`/repo/src/algorithm/soga_selection.hpp`). Here the fitness values are values of the type `double` that are numbers.
-/

namespace Gapp.Props
open Gapp.Model Gapp.Spec

/-- **C86 (tournament).** With infinite fitness values too, tournament selection returns a drawn candidate, and none of the drawn candidates is better. -/
theorem C86_tournament (size : Nat) (hs : 0 < size) (f : List Dbl) (hnan : ∀ x ∈ f, x ≠ .nan) (hf : size ≤ f.length) (draws : List Nat) (hd : draws.length = size)
    (hr : ∀ i ∈ draws, i < f.length) :
    ∃ i fi, tournamentSelectD size f draws = some i ∧ i ∈ draws ∧ f[i]? = some fi ∧ ∀ j ∈ draws, ∀ fj, f[j]? = some fj → Dbl.le fj fi = true := by
  have hv : draws.mapM (fun i => f[i]?) = some (draws.map (fun i => f.getD i .nan)) := by
    apply ListAux.mapM_eq_some_of_forall _ _ _ (by simp)
    intro k h h'
    have := hr _ (List.getElem_mem h)
    rw [List.getElem_map, List.getElem?_eq_getElem this, List.getD_eq_getElem?_getD, List.getElem?_eq_getElem this]
    rfl
  set vals := draws.map (fun i => f.getD i .nan) with hvals
  have hvn : ∀ x ∈ vals, x ≠ .nan := by
    intro x hx
    obtain ⟨i, hi, rfl⟩ := List.mem_map.mp hx
    have := hr i hi
    rw [List.getD_eq_getElem?_getD, List.getElem?_eq_getElem this]
    exact hnan _ (List.getElem_mem _)
  have hne : vals ≠ [] := by
    intro h
    have := congrArg List.length h
    rw [hvals, List.length_map] at this
    simp at this; subst this; simp at hd; omega
  have hmap := maxElement_map dblKey (fun x => x ≠ .nan) (fun a b ha hb => (lt_iff_key ha hb).symm) vals hvn
  obtain ⟨x, hx, h1, -⟩ := C48_max_element (vals.map dblKey) (by simpa using hne)
  rw [hmap, List.getElem?_map, Option.map_eq_some_iff] at hx
  obtain ⟨v, hv1, rfl⟩ := hx
  have hlt : maxElement vals < draws.length := by have := (List.getElem?_eq_some_iff.mp hv1).1; rw [hvals, List.length_map] at this; exact this
  have hfv : f[draws[maxElement vals]]? = some v := by
    rw [hvals] at hv1
    rw [List.getElem?_map, List.getElem?_eq_getElem (by rw [← hvals]; exact hlt)] at hv1
    have hlt' := hr _ (List.getElem_mem hlt)
    rw [Option.map_some, List.getD_eq_getElem?_getD, List.getElem?_eq_getElem (by exact hlt')] at hv1
    rw [List.getElem?_eq_getElem hlt']
    exact hv1
  refine ⟨draws[maxElement vals], v, ?_, List.getElem_mem hlt, hfv, ?_⟩
  · unfold tournamentSelectD
    rw [if_pos ⟨by omega, hd⟩, hv]
    exact List.getElem?_eq_getElem hlt
  · intro j hj fj hfj
    rw [le_iff_key (hnan _ (List.mem_of_getElem? hfj)) (hnan _ (List.mem_of_getElem? hfv))]
    refine not_lt.mp (h1 _ (List.mem_map.mpr ⟨fj, ?_, rfl⟩))
    refine List.mem_map.mpr ⟨j, hj, ?_⟩
    rw [List.getD_eq_getElem?_getD, hfj]
    rfl

/-- **C86 (rank selection).** The comparator of the sort is a strict order for infinite fitness values too, and whatever the result `indices` of the sort is: the weights are between the
two weights of the settings, they are not smaller for a candidate with a greater fitness, the worst candidate has the smaller and the best one the greater weight, and the candidates are
selected in proportion to the weights (up to rounding). -/
theorem C86_rank (fl : CdfFlags) (fused : Bool) (sumQ : Dbl → List Dbl → Dbl) (hsum : SumContract sumQ) (lerp : Dbl → Dbl → Dbl → Dbl) (hlerp : LerpContract lerp)
    (minW maxW : ℚ) (hmin : IsDouble minW) (hmax : IsDouble maxW) (h0 : 0 ≤ minW) (hle : minW ≤ maxW) (hbig : 2 ^ (-1022 : ℤ) ≤ maxW ∨ maxW = 0)
    (fvec : List Dbl) (hnan : ∀ x ∈ fvec, x ≠ .nan) (h2 : 2 ≤ fvec.length) (hn : fvec.length < 2 ^ 46) (indices : List ℕ) (hsort : IsArgsortOf false Dbl.lt fvec indices) :
    ∃ ws : List ℚ, rankWeightsD lerp (.fin minW) (.fin maxW) indices = some (ws.map .fin) ∧ ws.length = fvec.length ∧
      (∀ (i j : Nat) (fi fj : Dbl) (wi wj : ℚ), fvec[i]? = some fi → fvec[j]? = some fj → ws[i]? = some wi → ws[j]? = some wj → Dbl.lt fi fj = true → wi ≤ wj) ∧
      (∀ w ∈ ws, minW ≤ w ∧ w ≤ maxW) ∧
      (∀ i, indices[0]? = some i → ws[i]? = some minW) ∧ (∀ i, indices[fvec.length - 1]? = some i → ws[i]? = some maxW) ∧
      SelectsNearlyByWeight ws ((fvec.length + 12) / 2 ^ 53) (rankSelectD fl fused sumQ lerp (.fin minW) (.fin maxW) indices) := by
  obtain ⟨ws, e1, e2, e3, e4, e5, e6⟩ := C29_double_rank_partial fl fused sumQ hsum lerp hlerp minW maxW hmin hmax h0 hle hbig (fvec.map (dblRankIn fvec)) (by simpa using h2)
    (by simpa using hn) indices (argsort_rank fvec hnan indices hsort)
  rw [List.length_map] at e5 e6
  refine ⟨ws, e1, by simpa using e2.1, ?_, e3, e4, e5, e6⟩
  intro i j fi fj wi wj hi hj hwi hwj hlt
  refine e2.2.2 i j (dblRankIn fvec fi) (dblRankIn fvec fj) wi wj (by rw [List.getElem?_map, hi]; rfl) (by rw [List.getElem?_map, hj]; rfl) hwi hwj ?_
  rw [dblRankIn_lt fvec hnan (List.mem_of_getElem? hi) (List.mem_of_getElem? hj)]
  exact hlt

/-- **C86 (comparator).** On fitness values that are numbers, infinite or not, the comparison is a strict weak order, as `std::sort` requires. -/
theorem C86_comparator (fvec : List Dbl) (hnan : ∀ x ∈ fvec, x ≠ .nan) : StrictWeakOrder (fun i j : Fin fvec.length => Dbl.lt fvec[i] fvec[j]) := by
  have h : ∀ i j : Fin fvec.length, Dbl.lt fvec[i] fvec[j] = decide (dblKey fvec[i] < dblKey fvec[j]) := by
    intro i j
    rw [Bool.eq_iff_iff, decide_eq_true_eq]
    exact lt_iff_key (hnan _ (List.getElem_mem _)) (hnan _ (List.getElem_mem _))
  simp only [h]
  exact swo_of_key (fun i : Fin fvec.length => dblKey fvec[i])

/-- Concrete case: a tournament with the two infinities. -/
example : tournamentSelectD 3 [.fin 1, .pinf, .ninf, .fin 7] [2, 3, 1] = some 1 := by decide

/-- Concrete case: the indices sorted by fitness values with the two infinities. -/
theorem sorted_infinities : IsArgsortOf false Dbl.lt [.fin 1, .pinf, .ninf, .fin 7] [2, 0, 3, 1] := by
  unfold IsArgsortOf
  simp only [Bool.false_eq_true, if_false]
  exact ⟨by decide, by decide⟩

/-- Concrete case: the weights of these candidates. -/
example : ∃ ws : List ℚ, rankWeightsD lerpOnce (.fin 0) (.fin 2) [2, 0, 3, 1] = some (ws.map .fin) ∧ ws[2]? = some 0 ∧ ws[1]? = some 2 ∧
    SelectsNearlyByWeight ws (16 / 2 ^ 53) (rankSelectD ⟨false, false⟩ false sumInOrder lerpOnce (.fin 0) (.fin 2) [2, 0, 3, 1]) := by
  have h0 : IsDouble 0 := by simpa using isDouble_nat (n := 0) (by norm_num)
  have h2 : IsDouble 2 := by simpa using isDouble_nat (n := 2) (by norm_num)
  obtain ⟨ws, e1, -, -, -, e4, e5, e6⟩ := C86_rank ⟨false, false⟩ false sumInOrder sumInOrder_contract lerpOnce lerpOnce_contract 0 2 h0 h2 le_rfl (by norm_num)
    (Or.inl ((two_zpow_le (a := -1022) (b := 1) (by norm_num)).trans (by norm_num))) [.fin 1, .pinf, .ninf, .fin 7] (by decide) (by norm_num) (by norm_num) [2, 0, 3, 1] sorted_infinities
  refine ⟨ws, e1, e4 2 rfl, e5 1 rfl, ?_⟩
  norm_num at e6 ⊢
  exact e6

end Gapp.Props
