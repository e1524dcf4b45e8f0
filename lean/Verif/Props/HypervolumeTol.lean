import Verif.Proofs.HypervolumeTol
import Verif.Props.Hypervolume
/-!
# C89: the hypervolume with tolerant comparisons
-/

namespace Gapp.Props
open Gapp.Model Gapp.Spec MeasureTheory

/-- For any tolerances, matrix and dimension: the hypervolume is defined, and it depends neither on the schedule of the parallel loop nor on the order in which the sort puts equal points. -/
theorem C89_deterministic (m : Nat) (t : Tol ℝ) (sort sort' : RowSort ℝ) (hs : RowSortContract m sort) (hs' : RowSortContract m sort') (schedule schedule' : Nat → List Nat)
    (hsched : IsSchedule schedule) (hsched' : IsSchedule schedule') (fmat : List (List ℝ)) (hm : IsMatrix m fmat) (ref : List ℝ) (hr : ref.length = m) (hb : RefBelow ref fmat) :
    ∃ v, hypervolume t sort schedule fmat.length fmat ref = some v ∧ hypervolume t sort' schedule' fmat.length fmat ref = some v ∧ hypervolumeSeq t sort (fmat.length + 1) fmat ref = some v := by
  obtain ⟨D, hD⟩ := exists_lossBound m t ref fmat
  obtain ⟨v, e, _⟩ := hypervolumeSeq_tol m t ref hr fmat D hD sort (fun f hf => (hs f hf).1) (fmat.length + 1) fmat (Nat.lt_succ_self _) hm (colsFrom_self m fmat) hb
  refine ⟨v, ?_, ?_, e⟩
  · rw [hypervolume_par_tol m t ref hr fmat D hD sort (fun f hf => (hs f hf).1) schedule hsched fmat.length fmat (le_refl _) hm (colsFrom_self m fmat) hb, e]
  · rw [hypervolume_par_tol m t ref hr fmat D hD sort' (fun f hf => (hs' f hf).1) schedule' hsched' fmat.length fmat (le_refl _) hm (colsFrom_self m fmat) hb,
      ← hypervolumeSeq_sort m t ref sort sort' hs hs' _ fmat hm, e]

/-- If any two different values of an objective differ by more than the tolerance, the hypervolume is the Lebesgue measure of the dominated part of the space. -/
theorem C89_exact (m : Nat) (t : Tol ℝ) (sort : RowSort ℝ) (hs : RowSortContract m sort) (schedule : Nat → List Nat) (hsched : IsSchedule schedule)
    (fmat : List (List ℝ)) (hm : IsMatrix m fmat) (ref : List ℝ) (hr : ref.length = m) (hb : RefBelow ref fmat) (ha : ValuesApart t.abs t.rel fmat) :
    hypervolume t sort schedule fmat.length fmat ref = some (volume (dominatedRegion m ref fmat)).toReal := by
  have hD := lossBound_apart m t ref fmat hm ha
  obtain ⟨v, e, h⟩ := hypervolumeSeq_tol m t ref hr fmat 0 hD sort (fun f hf => (hs f hf).1) (fmat.length + 1) fmat (Nat.lt_succ_self _) hm (colsFrom_self m fmat) hb
  rw [hypervolume_par_tol m t ref hr fmat 0 hD sort (fun f hf => (hs f hf).1) schedule hsched fmat.length fmat (le_refl _) hm (colsFrom_self m fmat) hb, e]
  rw [mul_zero, abs_nonpos_iff, sub_eq_zero] at h
  rw [h]
  rfl

/-- With one objective the hypervolume is the distance of the best value from the reference point, for any tolerances. -/
theorem C89_one_objective (t : Tol ℝ) (sort : RowSort ℝ) (hs : RowSortContract 1 sort) (schedule : Nat → List Nat) (hsched : IsSchedule schedule)
    (values : List ℝ) (ref : ℝ) (hb : ∀ y ∈ values, ref ≤ y) (x : ℝ) (hx : x ∈ values) (hmax : ∀ y ∈ values, y ≤ x) :
    hypervolume t sort schedule values.length (values.map (fun y => [y])) [ref] = some (x - ref) := by
  have hm : IsMatrix 1 (values.map (fun y => [y])) := by
    intro r hr
    obtain ⟨y, _, rfl⟩ := List.mem_map.mp hr
    rfl
  have hrb : RefBelow [ref] (values.map (fun y => [y])) := by
    intro p hp i a b ha hb'
    obtain ⟨y, hy, rfl⟩ := List.mem_map.mp hp
    cases i with
    | zero =>
      simp only [List.getElem?_cons_zero, Option.some.injEq] at ha hb'
      rw [← ha, ← hb']
      exact hb y hy
    | succ i => simp at ha
  obtain ⟨v, e1, _, e2⟩ := C89_deterministic 1 t sort sort hs hs schedule schedule hsched hsched _ hm [ref] rfl hrb
  rw [List.length_map] at e1 e2
  rw [e1, ← e2]
  exact (hypervolumeSeq_one t ref sort hs (values.length + 1) values (Nat.lt_succ_self _) hb).2 x hx hmax

/-- The error caused by the tolerances: at most `2 ^ n - 1` times the volume of the slabs whose thickness is the tolerance, for `n` points. -/
theorem C89_error (m : Nat) (t : Tol ℝ) (sort : RowSort ℝ) (hs : RowSortContract m sort) (schedule : Nat → List Nat) (hsched : IsSchedule schedule)
    (fmat : List (List ℝ)) (hm : IsMatrix m fmat) (ref : List ℝ) (hr : ref.length = m) (hb : RefBelow ref fmat) (len tol : Fin m → ℝ) (hl0 : ∀ i, 0 ≤ len i) (ht0 : ∀ i, 0 ≤ tol i)
    (hl : ExtentAtMost m ref len fmat) (ht : ToleranceAtMost m t.abs t.rel tol fmat) :
    ∃ v, hypervolume t sort schedule fmat.length fmat ref = some v ∧ |v - (volume (dominatedRegion m ref fmat)).toReal| ≤ (2 ^ fmat.length - 1) * slabVolume m len tol := by
  have hD := lossBound_slab m t ref hr fmat hm len tol ht0 hl0 hl ht
  obtain ⟨v, e, h⟩ := hypervolumeSeq_tol m t ref hr fmat _ hD sort (fun f hf => (hs f hf).1) (fmat.length + 1) fmat (Nat.lt_succ_self _) hm (colsFrom_self m fmat) hb
  refine ⟨v, ?_, h⟩
  rw [hypervolume_par_tol m t ref hr fmat _ hD sort (fun f hf => (hs f hf).1) schedule hsched fmat.length fmat (le_refl _) hm (colsFrom_self m fmat) hb, e]

/-! ## Concrete cases -/

/-- The hypotheses of the exact case with the tolerance 1 / 2: the values of each objective are equal or at least 1 apart. -/
theorem valuesApart_example : ValuesApart (1 / 2) 0 [[1, 3], [2, 2], [3, 1]] := by
  intro p hp q hq i x y hx hy hne
  fin_cases hp <;> fin_cases hq <;> (rcases i with _ | _ | i <;> simp at hx hy <;> subst hx <;> subst hy <;> first | exact absurd rfl hne | (norm_num [abs_of_nonneg, abs_of_nonpos]))

example : ∃ sort : RowSort ℝ, RowSortContract 2 sort ∧
    hypervolume (⟨1 / 2, 0⟩ : Tol ℝ) sort List.range 3 [[1, 3], [2, 2], [3, 1]] [0, 0] = some (volume (dominatedRegion 2 [0, 0] [[1, 3], [2, 2], [3, 1]])).toReal := by
  obtain ⟨sort, h⟩ := exists_rowSort 2
  refine ⟨sort, h, C89_exact 2 _ sort h List.range isSchedule_range [[1, 3], [2, 2], [3, 1]] ?_ [0, 0] rfl ?_ valuesApart_example⟩
  · intro r hr
    fin_cases hr <;> rfl
  · intro p hp i a b ha hb
    fin_cases hp <;> (rcases i with _ | _ | i <;> simp at ha hb <;> subst ha <;> subst hb <;> norm_num)

/-- The hypotheses of the bound: coordinates up to 10, an absolute tolerance of 1. The slabs have the volume 20. -/
example : ExtentAtMost 2 [0, 0] (fun _ => 10) [[10, 9], [5, 10]] ∧ ToleranceAtMost 2 1 0 (fun _ => 1) [[10, 9], [5, 10]] ∧ slabVolume 2 (fun _ => 10) (fun _ => 1) = 20 := by
  refine ⟨?_, ?_, ?_⟩
  · intro p hp i x r hx hr
    fin_cases hp <;> (fin_cases i <;> simp at hx hr <;> subst hx <;> subst hr <;> norm_num)
  · intro p hp q hq i x y hx hy
    simp
  · unfold slabVolume
    rw [Fin.sum_univ_two]
    norm_num

/-- The values 5 and 4.5 are equal within the tolerance 1, and the better one counts. -/
example : hypervolume (⟨1, 0⟩ : Tol ℚ) hvSort List.range 3 [[9 / 2], [5], [2]] [0] = some 5 := by decide +kernel

/-- The value can be too small: a point that is better than another one by no more than the tolerance in one objective is left out. -/
theorem C89_too_small : hypervolume (⟨1, 0⟩ : Tol ℚ) hvSort List.range 2 [[10, 9], [5, 10]] [0, 0] = some 90 ∧
    hypervolume (⟨0, 0⟩ : Tol ℚ) hvSort List.range 2 [[10, 9], [5, 10]] [0, 0] = some 95 := by decide +kernel

/-- The value can also be too large: a point that is left out of a nested volume is counted twice. -/
theorem C89_too_large : hypervolume (⟨1, 0⟩ : Tol ℚ) hvSort List.range 3 [[5, 7], [7, 2], [7, 3]] [0, 0] = some 46 ∧
    hypervolume (⟨0, 0⟩ : Tol ℚ) hvSort List.range 3 [[5, 7], [7, 2], [7, 3]] [0, 0] = some 41 := by decide +kernel

/-- And adding a point can lower it, which is impossible with exact comparisons (`C33_monotone`): the new point replaces one that is worse by more than the tolerance in one objective
and better by less than the tolerance in the other. -/
theorem C89_not_monotone : hypervolume (⟨1, 0⟩ : Tol ℚ) hvSort List.range 1 [[100, 10]] [0, 0] = some 1000 ∧
    hypervolume (⟨1, 0⟩ : Tol ℚ) hvSort List.range 2 [[100, 10], [203 / 2, 9]] [0, 0] = some (1827 / 2) := by decide +kernel

/-- The same with the default tolerances of math.hpp:52-53: the values are wrong, by no more than the bound of `C89_error`. -/
theorem C89_default_tolerances :
    hypervolume (⟨1 / 10 ^ 12, 10 / 2 ^ 52⟩ : Tol ℚ) hvSort List.range 2 [[2, 1], [1, 1 + 1 / 10 ^ 12]] [0, 0] = some 2 ∧
    hypervolume (⟨0, 0⟩ : Tol ℚ) hvSort List.range 2 [[2, 1], [1, 1 + 1 / 10 ^ 12]] [0, 0] = some (2 + 1 / 10 ^ 12) ∧
    hypervolume (⟨1 / 10 ^ 12, 10 / 2 ^ 52⟩ : Tol ℚ) hvSort List.range 3 [[1, 2], [2, 1], [2, 1 + 1 / 10 ^ 12]] [0, 0] = some (3 + 2 / 10 ^ 12) ∧
    hypervolume (⟨0, 0⟩ : Tol ℚ) hvSort List.range 3 [[1, 2], [2, 1], [2, 1 + 1 / 10 ^ 12]] [0, 0] = some (3 + 1 / 10 ^ 12) := by decide +kernel

end Gapp.Props
