import Verif.Proofs.Hypervolume
import Verif.Proofs.NdSort
import Verif.Props.Nsga3
import Mathlib.Data.List.FinRange
/-!
# C33, C34: the hypervolume metrics
-/

namespace Gapp.Props
open Gapp.Model Gapp.Spec MeasureTheory

/-- `sort` is a possible behaviour of the unstable sort of the rows of matrices with `m` columns. -/
def RowSortContract {K : Type} [Field K] [LinearOrder K] (m : Nat) (sort : RowSort K) : Prop :=
  ∀ fmat, IsMatrix m fmat → IsArgsort (rowLexLess (finRows fmat)) fmat.length (sort fmat)

/-- The `n` iterations of a parallel loop are executed once each, in any order. -/
def IsSchedule (schedule : Nat → List Nat) : Prop := ∀ n, (schedule n).Perm (List.range n)

/-! ## C33 -/

/-- `hypervolume` returns the Lebesgue measure of the union of the boxes between the reference point and the points, for every matrix, dimension, result of the sort and schedule. The
nesting of the calls is at most the number of rows. -/
theorem C33_hypervolume (m : Nat) (sort : RowSort ℝ) (hs : RowSortContract m sort) (schedule : Nat → List Nat) (hsched : IsSchedule schedule)
    (fmat : List (List ℝ)) (hm : IsMatrix m fmat) (ref : List ℝ) (hr : ref.length = m) (hb : RefBelow ref fmat) :
    hypervolume (⟨0, 0⟩ : Tol ℝ) sort schedule fmat.length fmat ref = some (volume (dominatedRegion m ref fmat)).toReal ∧ volume (dominatedRegion m ref fmat) ≠ ⊤ :=
  ⟨hypervolume_spec m ref hr sort (fun f hf => (hs f hf).1) schedule hsched fmat.length fmat (le_refl _) hm hb, region_finite m ref fmat⟩

/-- The parallel and the sequential version agree. -/
theorem C33_seq_par (m : Nat) (sort sort' : RowSort ℝ) (hs : RowSortContract m sort) (hs' : RowSortContract m sort') (schedule : Nat → List Nat) (hsched : IsSchedule schedule)
    (fmat : List (List ℝ)) (hm : IsMatrix m fmat) (ref : List ℝ) (hr : ref.length = m) (hb : RefBelow ref fmat) :
    hypervolume (⟨0, 0⟩ : Tol ℝ) sort schedule fmat.length fmat ref = hypervolumeSeq (⟨0, 0⟩ : Tol ℝ) sort' (fmat.length + 1) fmat ref := by
  rw [(C33_hypervolume m sort hs schedule hsched fmat hm ref hr hb).1]
  exact (hypervolumeSeq_spec m ref hr sort' (fun f hf => (hs' f hf).1) (fmat.length + 1) fmat (Nat.lt_succ_self _) hm hb).symm

/-- Two sets of points, each point of which is nowhere better than some point of the other, have the same hypervolume: the order, duplicates and dominated points do not matter. -/
theorem C33_same_front (m : Nat) (sort : RowSort ℝ) (hs : RowSortContract m sort) (schedule schedule' : Nat → List Nat) (hsched : IsSchedule schedule) (hsched' : IsSchedule schedule')
    (a b : List (List ℝ)) (ha : IsMatrix m a) (hb : IsMatrix m b) (ref : List ℝ) (hr : ref.length = m) (hra : RefBelow ref a) (hrb : RefBelow ref b)
    (hab : ∀ p ∈ a, ∃ q ∈ b, ∀ (i : Nat) (x y : ℝ), p[i]? = some x → q[i]? = some y → x ≤ y) (hba : ∀ q ∈ b, ∃ p ∈ a, ∀ (i : Nat) (x y : ℝ), q[i]? = some x → p[i]? = some y → x ≤ y) :
    hypervolume (⟨0, 0⟩ : Tol ℝ) sort schedule a.length a ref = hypervolume (⟨0, 0⟩ : Tol ℝ) sort schedule' b.length b ref := by
  rw [(C33_hypervolume m sort hs schedule hsched a ha ref hr hra).1, (C33_hypervolume m sort hs schedule' hsched' b hb ref hr hrb).1]
  have hsub : ∀ a b : List (List ℝ), IsMatrix m a → IsMatrix m b → (∀ p ∈ a, ∃ q ∈ b, ∀ (i : Nat) (x y : ℝ), p[i]? = some x → q[i]? = some y → x ≤ y) →
      dominatedRegion m ref a ⊆ dominatedRegion m ref b := by
    rintro a b ha hb h x ⟨p, hp, hx⟩
    obtain ⟨q, hq, hle⟩ := h p hp
    refine ⟨q, hq, fun i => ⟨(hx i).1, le_trans (hx i).2 ?_⟩⟩
    have h1 : (i : Nat) < p.length := by rw [ha p hp]; exact i.2
    have h2 : (i : Nat) < q.length := by rw [hb q hq]; exact i.2
    have := hle i _ _ (List.getElem?_eq_getElem h1) (List.getElem?_eq_getElem h2)
    simpa [List.getD_eq_getElem?_getD, h1, h2] using this
  rw [Set.Subset.antisymm (hsub a b ha hb hab) (hsub b a hb ha hba)]

/-- A better set of points does not have a lower hypervolume. -/
theorem C33_monotone (m : Nat) (sort : RowSort ℝ) (hs : RowSortContract m sort) (schedule : Nat → List Nat) (hsched : IsSchedule schedule)
    (a b : List (List ℝ)) (hb : IsMatrix m b) (ref : List ℝ) (hr : ref.length = m) (hrb : RefBelow ref b) (hab : ∀ p ∈ a, p ∈ b) :
    ∃ va vb, hypervolume (⟨0, 0⟩ : Tol ℝ) sort schedule a.length a ref = some va ∧ hypervolume (⟨0, 0⟩ : Tol ℝ) sort schedule b.length b ref = some vb ∧ 0 ≤ va ∧ va ≤ vb := by
  refine ⟨_, _, (C33_hypervolume m sort hs schedule hsched a (fun p hp => hb p (hab p hp)) ref hr (fun p hp => hrb p (hab p hp))).1, (C33_hypervolume m sort hs schedule hsched b hb ref hr hrb).1,
    ENNReal.toReal_nonneg, ?_⟩
  refine ENNReal.toReal_mono (region_finite m ref b) (measure_mono ?_)
  rintro x ⟨p, hp, hx⟩
  exact ⟨p, hab p hp, hx⟩

/-- The metric `Hypervolume` records the volume of each generation. -/
theorem C33_metric (m : Nat) (sort : RowSort ℝ) (hs : RowSortContract m sort) (schedule : Nat → List Nat) (hsched : IsSchedule schedule)
    (gens : List (List (List ℝ))) (hg : ∀ g ∈ gens, IsMatrix m g) (ref : List ℝ) (hr : ref.length = m) (hb : ∀ g ∈ gens, RefBelow ref g) :
    hypervolumeRun (fun fmat ref => hypervolume (⟨0, 0⟩ : Tol ℝ) sort schedule fmat.length fmat ref) ref m gens = some (gens.map (dominatedVolume m ref)) := by
  unfold hypervolumeRun
  rw [if_pos hr]
  induction gens with
  | nil => rfl
  | cons g gens ih =>
    rw [List.mapM_cons, ih (fun g' h => hg g' (by simp [h])) (fun g' h => hb g' (by simp [h]))]
    dsimp only
    rw [(C33_hypervolume m sort hs schedule hsched g (hg g (by simp)) ref hr (hb g (by simp))).1]
    rfl

/-! ## C34 -/

/-- In every run, after every update: the reference point is the worst value of each objective among all the points of all the generations, and there is a value for each generation. The
stored values are never less than the hypervolume with respect to this reference point. They are equal to it with one or two objectives, and with any number of objectives for the
generations since the last change of the reference point. -/
theorem C34_auto_hypervolume_partial (m : Nat) (sort : RowSort ℝ) (hs : RowSortContract m sort) (schedule : Nat → List Nat) (hsched : IsSchedule schedule)
    (gens : List (List (List ℝ))) (hne : gens ≠ []) (hg : ∀ g ∈ gens, IsMatrix m g ∧ g ≠ []) :
    ∃ (s : AutoHypervolume ℝ) (w : List ℝ), autoHvRun (fun fmat ref => hypervolume (⟨0, 0⟩ : Tol ℝ) sort schedule fmat.length fmat ref) m gens = some s ∧
      s.worstPoint = w.map WithTop.some ∧ PerObjective m gens.flatten w Spec.IsMin ∧ s.data.length = gens.length ∧
      ∀ (i : Nat) (g : List (List ℝ)) (v : ℝ), gens[i]? = some g → s.data[i]? = some v →
        dominatedVolume m w g ≤ v ∧ (m ≤ 2 → v = dominatedVolume m w g) ∧ (PerObjective m (gens.take (i + 1)).flatten w Spec.IsMin → v = dominatedVolume m w g) := by
  obtain ⟨s, e, hinv⟩ := autoHvRun_spec m (fun fmat ref => hypervolume (⟨0, 0⟩ : Tol ℝ) sort schedule fmat.length fmat ref)
    (fun fmat ref h1 h2 h3 => (C33_hypervolume m sort hs schedule hsched fmat h1 ref h2 h3).1) gens hg
  rcases hinv.worst with ⟨h, _⟩ | ⟨_, w, hw, hmin⟩
  · exact absurd h hne
  · exact ⟨s, w, e, hw, hmin, hinv.dataLen, fun i g v hgi hv => hinv.volumes w hw i g v hgi hv⟩

/-! ## Concrete cases -/

theorem lexGreater_asymm : ∀ (a b : FVec ℝ), lexGreater a b = true → lexGreater b a = false
  | [], _, h => by cases h
  | _ :: _, [], h => by cases h
  | a :: as, b :: bs, h => by
      unfold lexGreater at h ⊢
      split at h
      · rename_i hne
        rw [if_pos (Ne.symm hne)]
        exact decide_eq_false (not_lt.mpr (of_decide_eq_true h).le)
      · rename_i heq
        push Not at heq
        rw [if_neg (by simp [heq])]
        exact lexGreater_asymm as bs h

theorem lexGreater_trans_false : ∀ (a b c : FVec ℝ), a.length = b.length → b.length = c.length → lexGreater b a = false → lexGreater c b = false → lexGreater c a = false
  | [], b, c, h1, h2, _, _ => by
      rw [List.length_eq_zero_iff.mp (show c.length = 0 by rw [← h2, ← h1]; rfl)]
      rfl
  | a :: as, b :: bs, c :: cs, h1, h2, hba, hcb => by
      unfold lexGreater at hba hcb ⊢
      split at hba
      · have hba' := not_lt.mp (of_decide_eq_false hba)
        rename_i hne
        have hlt : b < a := lt_of_le_of_ne hba' hne
        split at hcb
        · have hcb' := not_lt.mp (of_decide_eq_false hcb)
          have : c < a := lt_of_le_of_lt hcb' hlt
          rw [if_pos (ne_of_lt this)]
          exact decide_eq_false (not_lt.mpr this.le)
        · rename_i heq
          push Not at heq
          rw [heq, if_pos hne]
          exact decide_eq_false (not_lt.mpr hba')
      · rename_i heq
        push Not at heq
        split at hcb
        · rename_i hne
          rw [← heq, if_pos hne]
          exact hcb
        · rename_i heq2
          push Not at heq2
          rw [if_neg (by rw [heq2, heq]; simp)]
          exact lexGreater_trans_false as bs cs (by simpa using h1) (by simpa using h2) hba hcb

/-- There is a sort with the contract. -/
theorem exists_rowSort (m : Nat) : ∃ sort : RowSort ℝ, RowSortContract m sort := by
  have : ∀ fmat : List (List ℝ), ∃ res, IsMatrix m fmat → IsArgsort (rowLexLess (finRows fmat)) fmat.length res := by
    intro fmat
    by_cases hm : IsMatrix m fmat
    · have hlen : ∀ i : Fin fmat.length, ((finRows fmat).getD i []).length = m := by
        intro i
        rw [finRows_getD fmat i i.2, List.length_map]
        exact hm _ (List.getElem_mem i.2)
      let R : Fin fmat.length → Fin fmat.length → Prop := fun i j => rowLexLess (finRows fmat) j i = false
      have tot : Std.Total R := ⟨fun a b => by
        by_cases h : rowLexLess (finRows fmat) b a = true
        · exact Or.inr (lexGreater_asymm _ _ h)
        · exact Or.inl (by simpa using h)⟩
      have tr : IsTrans (Fin fmat.length) R := ⟨fun a b c h1 h2 => lexGreater_trans_false _ _ _ (by rw [hlen, hlen]) (by rw [hlen, hlen]) h1 h2⟩
      have hd : DecidableRel R := fun i j => by unfold R; infer_instance
      refine ⟨((List.finRange fmat.length).insertionSort R).map Fin.val, fun _ => ⟨?_, ?_⟩⟩
      · have := (List.perm_insertionSort R (List.finRange fmat.length)).map Fin.val
        rwa [List.map_coe_finRange_eq_range] at this
      · rw [List.pairwise_map]
        exact List.pairwise_insertionSort R _
    · exact ⟨[], fun h => absurd h hm⟩
  choose sort h using this
  exact ⟨sort, h⟩

theorem isSchedule_range : IsSchedule List.range := fun _ => List.Perm.refl _

/-- The backward order is another schedule. -/
theorem isSchedule_reverse : IsSchedule (fun n => (List.range n).reverse) := fun n => List.reverse_perm _

/-- A sort that can be executed. -/
def hvSort : RowSort ℚ := fun fmat => insertSortNat (rowLexLess (finRows fmat)) (List.range fmat.length)

/-- Three points on the front with a duplicate and a dominated point. -/
example : hypervolume (⟨0, 0⟩ : Tol ℚ) hvSort (fun n => (List.range n).reverse) 5 [[1, 3], [2, 2], [1, 1], [3, 1], [2, 2]] [0, 0] = some 6 := by decide +kernel

/-- With a positive tolerance, a point that is better than another one by less than the tolerance is left out, and so is the volume that only it dominates. -/
example : hypervolume (⟨1, 0⟩ : Tol ℚ) hvSort List.range 2 [[10, 10], [5, 21 / 2]] [0, 0] = some 100 ∧
    hypervolume (⟨0, 0⟩ : Tol ℚ) hvSort List.range 2 [[10, 10], [5, 21 / 2]] [0, 0] = some (205 / 2) := by decide +kernel

/-- Three objectives. -/
example : hypervolume (⟨0, 0⟩ : Tol ℚ) hvSort List.range 3 [[1, 2, 3], [2, 3, 1], [3, 1, 2]] [0, 0, 0] = some 13 := by decide +kernel

example : ∃ sort : RowSort ℝ, RowSortContract 2 sort ∧
    hypervolume (⟨0, 0⟩ : Tol ℝ) sort List.range 3 [[1, 3], [2, 2], [3, 1]] [0, 0] = some (volume (dominatedRegion 2 [0, 0] [[1, 3], [2, 2], [3, 1]])).toReal := by
  obtain ⟨sort, h⟩ := exists_rowSort 2
  refine ⟨sort, h, (C33_hypervolume 2 sort h List.range isSchedule_range [[1, 3], [2, 2], [3, 1]] ?_ [0, 0] rfl ?_).1⟩
  · intro r hr
    fin_cases hr <;> rfl
  · intro p hp i a b ha hb
    fin_cases hp <;> (rcases i with _ | _ | i <;> simp at ha hb <;> subst ha <;> subst hb <;> norm_num)

/-- A run with two objectives: the reference point changes in the second generation, and the first value is the hypervolume with respect to the new one. -/
example : (autoHvRun (fun fmat ref => hypervolume (⟨0, 0⟩ : Tol ℚ) hvSort List.range fmat.length fmat ref) 2 [[[1, 3], [2, 2], [3, 1]], [[0, 4], [2, 0]]]).map (fun s => (s.data, s.worstPoint)) =
      some ([6, 0], [((0 : ℚ) : WithTop ℚ), ((0 : ℚ) : WithTop ℚ)]) ∧
    hypervolume (⟨0, 0⟩ : Tol ℚ) hvSort List.range 3 [[1, 3], [2, 2], [3, 1]] [0, 0] = some 6 := by decide +kernel

theorem region_null (m : Nat) (ref : List ℝ) (hr : ref.length = m) : ∀ ps : List (List ℝ), (∀ p ∈ ps, p.length = m ∧ (∀ i : Fin m, ref.getD i 0 ≤ p.getD i 0) ∧ (List.zipWith (· - ·) p ref).prod = 0) →
    volume (dominatedRegion m ref ps) = 0
  | [], _ => by rw [region_nil]; simp
  | p :: ps, h => by
      rw [region_cons]
      obtain ⟨h1, h2, h3⟩ := h p (by simp)
      refine measure_union_null ?_ (region_null m ref hr ps (fun q hq => h q (by simp [hq])))
      have := box_volume m ref p hr h1 h2
      unfold volumeBetween at this
      rw [if_pos (by rw [h1, hr]), h3, abs_zero, Option.some.injEq] at this
      rcases (ENNReal.toReal_eq_zero_iff _).mp this.symm with h | h
      · exact h
      · exact absurd h (box_finite m ref p)

/-- With three objectives a stored value need not be the hypervolume with respect to the reference point. In the first generation all the points have the same value of the first
objective, so that its hypervolume is zero. When the second generation lowers the worst value of that objective, the hypervolume of the first one remains zero if each of its points is as
bad as the worst one in another objective, but the volume of the box of its ideal point grows. -/
theorem C34_violated (sort : RowSort ℝ) (hs : RowSortContract 3 sort) (schedule : Nat → List Nat) (hsched : IsSchedule schedule) :
    ∃ (s : AutoHypervolume ℝ), autoHvRun (fun fmat ref => hypervolume (⟨0, 0⟩ : Tol ℝ) sort schedule fmat.length fmat ref) 3 [[[1, 2, 1], [1, 1, 2]], [[0, 1, 1]]] = some s ∧
      s.worstPoint = [((0 : ℝ) : WithTop ℝ), ((1 : ℝ) : WithTop ℝ), ((1 : ℝ) : WithTop ℝ)] ∧ s.data[0]? = some 1 ∧ dominatedVolume 3 [0, 1, 1] [[1, 2, 1], [1, 1, 2]] = 0 := by
  have hm1 : IsMatrix 3 ([[1, 2, 1], [1, 1, 2]] : List (List ℝ)) := by intro r hr; fin_cases hr <;> rfl
  have hm2 : IsMatrix 3 ([[0, 1, 1]] : List (List ℝ)) := by intro r hr; fin_cases hr; rfl
  have hb1 : RefBelow ([1, 1, 1] : List ℝ) [[1, 2, 1], [1, 1, 2]] := by
    intro p hp i a b ha hb
    fin_cases hp <;> (rcases i with _ | _ | _ | i <;> simp at ha hb <;> subst ha <;> subst hb <;> norm_num)
  have hb2 : RefBelow ([0, 1, 1] : List ℝ) [[0, 1, 1]] := by
    intro p hp i a b ha hb
    fin_cases hp
    rcases i with _ | _ | _ | i <;> simp at ha hb <;> subst ha <;> subst hb <;> norm_num
  have hv1 := (C33_hypervolume 3 sort hs schedule hsched _ hm1 [1, 1, 1] rfl hb1).1
  have hv2 := (C33_hypervolume 3 sort hs schedule hsched _ hm2 [0, 1, 1] rfl hb2).1
  have hz1 : volume (dominatedRegion 3 [1, 1, 1] [[1, 2, 1], [1, 1, 2]]) = 0 := by
    refine region_null 3 _ rfl _ ?_
    intro p hp
    fin_cases hp <;> refine ⟨rfl, ?_, by norm_num⟩ <;> (intro i; fin_cases i <;> norm_num)
  have hz2 : volume (dominatedRegion 3 [0, 1, 1] [[1, 2, 1], [1, 1, 2]]) = 0 := by
    refine region_null 3 _ rfl _ ?_
    intro p hp
    fin_cases hp <;> refine ⟨rfl, ?_, by norm_num⟩ <;> (intro i; fin_cases i <;> norm_num)
  have u1 : minFitness ([[1, 2, 1], [1, 1, 2]] : List (List ℝ)) = some [1, 1, 1] := by simp [minFitness, elementwiseMin?]
  have i1 : maxFitness ([[1, 2, 1], [1, 1, 2]] : List (List ℝ)) = some [1, 2, 2] := by simp [maxFitness, elementwiseMax?]
  have u2 : minFitness ([[0, 1, 1]] : List (List ℝ)) = some [0, 1, 1] := rfl
  have i2 : maxFitness ([[0, 1, 1]] : List (List ℝ)) = some [0, 1, 1] := rfl
  have hne1 : ([1, 1, 1] : List ℝ).map WithTop.some ≠ List.replicate 3 ⊤ := by simp
  have step1 : autoHvUpdate (fun fmat ref => hypervolume (⟨0, 0⟩ : Tol ℝ) sort schedule fmat.length fmat ref) (autoHvInit 3) [[1, 2, 1], [1, 1, 2]] =
      some ⟨[0], [[1, 2, 2]], ([1, 1, 1] : List ℝ).map WithTop.some⟩ := by
    unfold autoHvUpdate
    have e := elementwiseMin_top 3 [1, 1, 1] rfl
    simp only [u1, i1, autoHvInit, e, Option.bind_eq_bind, Option.bind_some, finitePoint_map, hv1, if_pos hne1, correctVolumes, hz1]
    rfl
  have hne2 : ([0, 1, 1] : List ℝ).map WithTop.some ≠ ([1, 1, 1] : List ℝ).map WithTop.some := fun h => by
    have := map_some_injective h
    simp at this
  have step2 : ∃ v, autoHvUpdate (fun fmat ref => hypervolume (⟨0, 0⟩ : Tol ℝ) sort schedule fmat.length fmat ref) ⟨[0], [[1, 2, 2]], ([1, 1, 1] : List ℝ).map WithTop.some⟩ [[0, 1, 1]] =
      some ⟨[1, v], [[1, 2, 2], [0, 1, 1]], ([0, 1, 1] : List ℝ).map WithTop.some⟩ := by
    refine ⟨(volume (dominatedRegion 3 [0, 1, 1] [[0, 1, 1]])).toReal, ?_⟩
    unfold autoHvUpdate
    have e : elementwiseMin? (([1, 1, 1] : List ℝ).map WithTop.some) (([0, 1, 1] : List ℝ).map WithTop.some) = some (([0, 1, 1] : List ℝ).map WithTop.some) := by
      rw [elementwiseMin_some [1, 1, 1] [0, 1, 1] (by simp)]
      simp
    have v1 : volumeBetween ([1, 2, 2] : List ℝ) [1, 1, 1] = some 0 := by simp [volumeBetween]
    have v2 : volumeBetween ([1, 2, 2] : List ℝ) [0, 1, 1] = some 1 := by
      unfold volumeBetween
      rw [if_pos (by simp)]
      norm_num
    simp only [u2, i2, e, Option.bind_eq_bind, Option.bind_some, finitePoint_map, hv2, if_pos hne2, correctVolumes, v1, v2]
    show some _ = _
    norm_num
  obtain ⟨v, step2⟩ := step2
  refine ⟨⟨[1, v], [[1, 2, 2], [0, 1, 1]], ([0, 1, 1] : List ℝ).map WithTop.some⟩, ?_, rfl, rfl, ?_⟩
  · unfold autoHvRun
    rw [List.foldlM_cons, step1]
    simp only [Option.bind_eq_bind, Option.bind_some, List.foldlM_cons, List.foldlM_nil, step2]
    rfl
  · unfold dominatedVolume
    rw [hz2]
    rfl

/-- The same with three objectives: the stored value is one, although the hypervolume with respect to the reference point is zero. -/
theorem C34_violated_model : (autoHvRun (fun fmat ref => hypervolume (⟨0, 0⟩ : Tol ℚ) hvSort List.range fmat.length fmat ref) 3 [[[1, 2, 1], [1, 1, 2]], [[0, 1, 1]]]).map (fun s => (s.data, s.worstPoint)) =
      some ([1, 0], [((0 : ℚ) : WithTop ℚ), ((1 : ℚ) : WithTop ℚ), ((1 : ℚ) : WithTop ℚ)]) ∧
    hypervolume (⟨0, 0⟩ : Tol ℚ) hvSort List.range 2 [[1, 2, 1], [1, 1, 2]] [0, 1, 1] = some 0 := by decide +kernel

end Gapp.Props
