import Mathlib.Algebra.Order.Field.Basic
import Mathlib.Algebra.Order.BigOperators.Group.List
import Mathlib.Algebra.BigOperators.Ring.List
import Mathlib.Tactic.FieldSimp
import Mathlib.Tactic.Ring
import Mathlib.Tactic.Linarith
import Mathlib.Tactic.NormNum
import Mathlib.Analysis.Real.Sqrt
import Verif.Model.Stats
import Verif.Spec.Stats
import Verif.Proofs.ListAux
/-!
# C52: statistics of a population
-/

namespace Gapp.Model
open Gapp.Spec

section
variable {V : Type}

theorem column_cons {m : Nat} {r : List V} (rows : List (List V)) {i : Nat} (hr : r.length = m) (hi : i < m) :
    column (r :: rows) i = r[i]'(by omega) :: column rows i := by
  have : r[i]? = some r[i] := List.getElem?_eq_getElem (by omega)
  simp [column, this]

theorem column_length {m : Nat} : ∀ {rows : List (List V)}, IsMatrix m rows → ∀ {i : Nat}, i < m → (column rows i).length = rows.length
  | [], _, _, _ => rfl
  | r :: rows, h, i, hi => by
    rw [column_cons rows (h r (by simp)) hi]
    simp [column_length (rows := rows) (fun r hr => h r (by simp [hr])) hi]

/-- A pointwise fold over the rows is a fold over each of the columns. -/
theorem foldlM_rows {m : Nat} (step : List V → List V → Option (List V)) (g : V → V → V)
    (hstep : ∀ a b, a.length = m → b.length = m → step a b = some (List.zipWith g a b)) :
    ∀ (rows : List (List V)), IsMatrix m rows → ∀ acc : List V, acc.length = m →
    ∃ r, rows.foldlM step acc = some r ∧ r.length = m ∧ ∀ i, i < m → r[i]? = (acc[i]?).map (fun a => (column rows i).foldl g a)
  | [], _, acc, hacc => ⟨acc, rfl, hacc, fun i hi => by simp [column]⟩
  | row :: rows, h, acc, hacc => by
    have hrow := h row (by simp)
    obtain ⟨r, h1, h2, h3⟩ := foldlM_rows step g hstep rows (fun r hr => h r (by simp [hr])) (List.zipWith g acc row) (by simp; omega)
    refine ⟨r, by rw [List.foldlM_cons, hstep acc row hacc hrow]; exact h1, h2, ?_⟩
    intro i hi
    rw [h3 i hi, column_cons rows hrow hi, List.getElem?_zipWith, List.getElem?_eq_getElem (show i < acc.length by omega),
      List.getElem?_eq_getElem (show i < row.length by omega)]
    rfl

theorem foldl_rows {β : Type} {m : Nat} (step : List V → List β → List V) (g : Nat → V → β → V)
    (hlen : ∀ a b, a.length = m → b.length = m → (step a b).length = m)
    (hstep : ∀ (a : List V) (b : List β), a.length = m → b.length = m → ∀ (i : Nat) (x : V) (y : β), a[i]? = some x → b[i]? = some y → (step a b)[i]? = some (g i x y)) :
    ∀ (rows : List (List β)), IsMatrix m rows → ∀ acc : List V, acc.length = m →
    (rows.foldl step acc).length = m ∧ ∀ i, i < m → (rows.foldl step acc)[i]? = (acc[i]?).map (fun a => (column rows i).foldl (g i) a)
  | [], _, acc, hacc => ⟨hacc, fun i hi => by simp [column]⟩
  | row :: rows, h, acc, hacc => by
    have hrow := h row (by simp)
    obtain ⟨h2, h3⟩ := foldl_rows step g hlen hstep rows (fun r hr => h r (by simp [hr])) (step acc row) (hlen _ _ hacc hrow)
    refine ⟨h2, ?_⟩
    intro i hi
    have e1 : acc[i]? = some acc[i] := List.getElem?_eq_getElem (show i < acc.length by omega)
    have e2 : row[i]? = some row[i] := List.getElem?_eq_getElem (show i < row.length by omega)
    rw [List.foldl_cons, h3 i hi, column_cons rows hrow hi, hstep acc row hacc hrow i _ _ e1 e2, e1]
    rfl
end

section
variable {V : Type} [LinearOrder V]

theorem foldl_min_spec : ∀ (vals : List V) (a : V), IsMin (a :: vals) (vals.foldl (fun a b => if b < a then b else a) a)
  | [], a => ⟨by simp, by simp⟩
  | b :: vals, a => by
    obtain ⟨h1, h2⟩ := foldl_min_spec vals (if b < a then b else a)
    refine ⟨?_, ?_⟩
    · rw [List.foldl_cons]
      rcases List.mem_cons.mp h1 with h | h
      · rw [h]; split <;> simp
      · simp [h]
    · intro y hy
      rw [List.foldl_cons]
      have h0 := h2 _ (List.mem_cons_self)
      rcases List.mem_cons.mp hy with rfl | hy
      · refine le_trans h0 ?_
        split
        · next h => exact h.le
        · exact le_rfl
      · rcases List.mem_cons.mp hy with rfl | hy
        · refine le_trans h0 ?_
          split
          · exact le_rfl
          · next h => exact not_lt.mp h
        · exact h2 y (List.mem_cons_of_mem _ hy)

theorem foldl_max_spec : ∀ (vals : List V) (a : V), IsMax (a :: vals) (vals.foldl (fun a b => if a < b then b else a) a)
  | [], a => ⟨by simp, by simp⟩
  | b :: vals, a => by
    obtain ⟨h1, h2⟩ := foldl_max_spec vals (if a < b then b else a)
    refine ⟨?_, ?_⟩
    · rw [List.foldl_cons]
      rcases List.mem_cons.mp h1 with h | h
      · rw [h]; split <;> simp
      · simp [h]
    · intro y hy
      rw [List.foldl_cons]
      have h0 := h2 _ (List.mem_cons_self)
      rcases List.mem_cons.mp hy with rfl | hy
      · refine le_trans ?_ h0
        split
        · next h => exact h.le
        · exact le_rfl
      · rcases List.mem_cons.mp hy with rfl | hy
        · refine le_trans ?_ h0
          split
          · exact le_rfl
          · next h => exact not_lt.mp h
        · exact h2 y (List.mem_cons_of_mem _ hy)
end

section
variable {K : Type} [Field K]

theorem foldl_add_mul (f : K → K) (c : K) : ∀ (vals : List K) (a : K), vals.foldl (fun m x => m + f x * c) a = a + (vals.map f).sum * c
  | [], a => by simp
  | x :: vals, a => by
    rw [List.foldl_cons, foldl_add_mul f c vals]
    simp only [List.map_cons, List.sum_cons]
    ring
end

end Gapp.Model

namespace Gapp.Props
open Gapp.Model Gapp.Spec

section
variable {V : Type} [LinearOrder V]

/-- C52: `minFitness` returns the smallest value of each objective. -/
theorem C52_min (m : Nat) (rows : List (List V)) (hm : IsMatrix m rows) (hne : rows ≠ []) :
    ∃ v, minFitness rows = some v ∧ PerObjective m rows v IsMin := by
  match rows, hne with
  | first :: rest, _ =>
    have hf := hm first (by simp)
    obtain ⟨r, h1, h2, h3⟩ := foldlM_rows (m := m) elementwiseMin? (fun a b => if b < a then b else a)
      (by intro a b ha hb; simp [elementwiseMin?, ha, hb]) rest (fun r hr => hm r (by simp [hr])) first hf
    refine ⟨r, h1, h2, ?_⟩
    intro i x hx
    have hi : i < m := by rw [← h2]; exact (List.getElem?_eq_some_iff.mp hx).1
    rw [h3 i hi, List.getElem?_eq_getElem (show i < first.length by omega)] at hx
    cases hx
    rw [column_cons rest hf hi]
    exact foldl_min_spec _ _

/-- C52: `maxFitness` returns the largest value of each objective. -/
theorem C52_max (m : Nat) (rows : List (List V)) (hm : IsMatrix m rows) (hne : rows ≠ []) :
    ∃ v, maxFitness rows = some v ∧ PerObjective m rows v IsMax := by
  match rows, hne with
  | first :: rest, _ =>
    have hf := hm first (by simp)
    obtain ⟨r, h1, h2, h3⟩ := foldlM_rows (m := m) elementwiseMax? (fun a b => if a < b then b else a)
      (by intro a b ha hb; simp [elementwiseMax?, ha, hb]) rest (fun r hr => hm r (by simp [hr])) first hf
    refine ⟨r, h1, h2, ?_⟩
    intro i x hx
    have hi : i < m := by rw [← h2]; exact (List.getElem?_eq_some_iff.mp hx).1
    rw [h3 i hi, List.getElem?_eq_getElem (show i < first.length by omega)] at hx
    cases hx
    rw [column_cons rest hf hi]
    exact foldl_max_spec _ _
end

section
variable {K : Type} [Field K] [LinearOrder K] [IsStrictOrderedRing K]

/-- C52: `fitnessMean` returns the arithmetic mean of each objective. -/
theorem C52_mean (m : Nat) (rows : List (List K)) (hm : IsMatrix m rows) (hne : rows ≠ []) :
    ∃ v, fitnessMean rows = some v ∧ PerObjective m rows v IsMean := by
  match rows, hne with
  | first :: rest, _ =>
    have hf := hm first (by simp)
    obtain ⟨h2, h3⟩ := foldl_rows (m := m) (fun mean fvec => List.zipWith (fun m f => m + f * (1 / ((first :: rest).length : K))) mean fvec)
      (fun _ m f => m + f * (1 / ((first :: rest).length : K)))
      (by intro a b ha hb; simp [ha, hb])
      (by intro a b _ _ i x y hx hy; simp [List.getElem?_zipWith, hx, hy])
      (first :: rest) hm (List.replicate first.length 0) (by simp [hf])
    refine ⟨_, rfl, h2, ?_⟩
    intro i x hx
    have hi : i < m := by rw [← h2]; exact (List.getElem?_eq_some_iff.mp hx).1
    have hx' := (h3 i hi).symm.trans hx
    rw [List.getElem?_replicate_of_lt (by omega)] at hx'
    simp only [Option.map_some, Option.some.injEq] at hx'
    have hfold := foldl_add_mul (K := K) id (1 / ((first :: rest).length : K)) (column (first :: rest) i) 0
    simp only [id_eq, List.map_id_fun, zero_add] at hfold
    rw [hfold] at hx'
    have hn : ((first :: rest).length : K) ≠ 0 := by
      have : (0 : K) < ((first :: rest).length : K) := by exact_mod_cast (Nat.succ_pos _)
      exact ne_of_gt this
    unfold IsMean
    rw [column_length hm hi, ← hx']
    field_simp

theorem isMean_unique {vals : List K} (hne : vals ≠ []) {a b : K} (ha : IsMean vals a) (hb : IsMean vals b) : a = b := by
  have hn : (vals.length : K) ≠ 0 := by
    have : (0 : K) < (vals.length : K) := by exact_mod_cast (List.length_pos_iff.mpr hne)
    exact ne_of_gt this
  exact mul_left_cancel₀ hn (ha.trans hb.symm)

/-- C52: `fitnessVariance` returns the sample variance of each objective. -/
theorem C52_variance (m : Nat) (rows : List (List K)) (hm : IsMatrix m rows) (hne : rows ≠ []) :
    ∃ v, fitnessVariance rows = some v ∧ PerObjective m rows v IsVariance := by
  obtain ⟨mean, hmean, hml, hmv⟩ := C52_mean m rows hm hne
  unfold fitnessVariance
  rw [hmean]
  match rows, hne with
  | first :: rest, hne =>
    have hf := hm first (by simp)
    by_cases h1 : (first :: rest).length = 1
    · refine ⟨List.replicate first.length 0, ?_, by simp [hf], ?_⟩
      · simp only [Option.bind_eq_bind, Option.bind_some, fitnessVarianceOf, hf, hml, if_true, h1]
      · intro i x hx
        have hi : i < m := by
          have := (List.getElem?_eq_some_iff.mp hx).1
          simpa [hf] using this
        rw [List.getElem?_replicate_of_lt (by omega)] at hx
        cases hx
        refine ⟨fun _ => rfl, fun h => ?_⟩
        rw [column_length hm hi] at h
        exact absurd h1 h
    · obtain ⟨h2, h3⟩ := foldl_rows (m := m)
        (fun var fvec => List.zipWith (fun v (p : K × K) => v + (p.1 - p.2) ^ 2 * (1 / (((first :: rest).length : K) - 1))) var (fvec.zip mean))
        (fun i v f => v + (f - (mean[i]?).getD 0) ^ 2 * (1 / (((first :: rest).length : K) - 1)))
        (by intro a b ha hb; simp [ha, hb, hml])
        (by
          intro a b ha hb i x y hx hy
          have hi : i < mean.length := by rw [hml, ← ha]; exact (List.getElem?_eq_some_iff.mp hx).1
          simp only [List.getElem?_zipWith, hx, List.zip_eq_zipWith, hy, List.getElem?_eq_getElem hi, Option.getD_some])
        (first :: rest) hm (List.replicate first.length 0) (by simp [hf])
      refine ⟨_, by simp only [Option.bind_eq_bind, Option.bind_some, fitnessVarianceOf, hf, hml, if_true, h1, if_false]; rfl, ?_, ?_⟩
      · rw [← hf] at h2 ⊢; exact h2
      · intro i x hx
        rw [← hf] at hx
        have hi : i < m := by rw [← h2]; exact (List.getElem?_eq_some_iff.mp hx).1
        have hx' := (h3 i hi).symm.trans hx
        rw [List.getElem?_replicate_of_lt (by omega)] at hx'
        simp only [Option.map_some, Option.some.injEq] at hx'
        have hi' : i < mean.length := by omega
        have hmi : mean[i]? = some mean[i] := List.getElem?_eq_getElem hi'
        rw [hmi, Option.getD_some] at hx'
        have hfold := foldl_add_mul (K := K) (fun f => (f - mean[i]) ^ 2) (1 / (((first :: rest).length : K) - 1)) (column (first :: rest) i) 0
        rw [hfold, zero_add] at hx'
        have hcl := column_length hm hi
        have hcne : column (first :: rest) i ≠ [] := by
          intro h; rw [h] at hcl; simp at hcl
        refine ⟨fun h => absurd (hcl ▸ h) h1, ?_⟩
        intro _ mu hmu
        have : mu = mean[i] := isMean_unique hcne hmu (hmv i _ hmi)
        subst this
        have hn : (((first :: rest).length : K) - 1) ≠ 0 := by
          have h2 : 1 < (first :: rest).length := by
            have : 0 < (first :: rest).length := by simp
            omega
          have : (1 : K) < ((first :: rest).length : K) := by exact_mod_cast h2
          intro h
          linarith
        rw [hcl, ← hx']
        have e : (fun y : K => (y - mean[i]) * (y - mean[i])) = fun y => (y - mean[i]) ^ 2 := by funext y; ring
        rw [e]
        field_simp

/-- C52: the smallest value is at most the mean, and the mean at most the largest. -/
theorem C52_min_le_mean_le_max (vals : List K) (lo mean hi : K) (h1 : IsMin vals lo) (h2 : IsMean vals mean) (h3 : IsMax vals hi) :
    lo ≤ mean ∧ mean ≤ hi := by
  have hpos : (0 : K) < (vals.length : K) := by exact_mod_cast (List.length_pos_of_mem h1.1)
  have hlo : ∀ l : List K, (∀ y ∈ l, lo ≤ y) → (l.length : K) * lo ≤ l.sum := by
    intro l
    induction l with
    | nil => intro _; simp
    | cons x l ih =>
      intro h
      have := ih (fun y hy => h y (by simp [hy]))
      have h0 := h x (by simp)
      rw [List.sum_cons, List.length_cons]
      push_cast
      linarith
  have hhi : ∀ l : List K, (∀ y ∈ l, y ≤ hi) → l.sum ≤ (l.length : K) * hi := by
    intro l
    induction l with
    | nil => intro _; simp
    | cons x l ih =>
      intro h
      have := ih (fun y hy => h y (by simp [hy]))
      have h0 := h x (by simp)
      rw [List.sum_cons, List.length_cons]
      push_cast
      linarith
  have a := hlo vals h1.2
  have b := hhi vals h3.2
  rw [← h2] at a b
  exact ⟨le_of_mul_le_mul_left a hpos, le_of_mul_le_mul_left b hpos⟩

theorem sum_sq_nonneg (mu : K) : ∀ l : List K, 0 ≤ (l.map (fun y => (y - mu) * (y - mu))).sum
  | [] => by simp
  | x :: l => by
    have := sum_sq_nonneg mu l
    rw [List.map_cons, List.sum_cons]
    have h := mul_self_nonneg (x - mu)
    linarith

theorem sum_sq_zero (mu : K) : ∀ l : List K, (l.map (fun y => (y - mu) * (y - mu))).sum = 0 → ∀ y ∈ l, y = mu
  | [], _, y, hy => by simp at hy
  | x :: l, h, y, hy => by
    rw [List.map_cons, List.sum_cons] at h
    have h1 := mul_self_nonneg (x - mu)
    have h2 := sum_sq_nonneg mu l
    have h3 : (x - mu) * (x - mu) = 0 := by linarith
    have h4 : (l.map (fun y => (y - mu) * (y - mu))).sum = 0 := by linarith
    rcases List.mem_cons.mp hy with rfl | hy
    · have := mul_self_eq_zero.mp h3
      linarith
    · exact sum_sq_zero mu l h4 y hy

/-- C52: the variance is not negative, and it is zero exactly if all of the values are equal. -/
theorem C52_variance_zero (vals : List K) (hne : vals ≠ []) (v : K) (hv : IsVariance vals v) :
    0 ≤ v ∧ (v = 0 ↔ ∃ c, ∀ y ∈ vals, y = c) := by
  have hlen := List.length_pos_iff.mpr hne
  by_cases h1 : vals.length = 1
  · have := hv.1 h1
    subst this
    refine ⟨le_rfl, fun _ => ?_, fun _ => rfl⟩
    match vals, h1 with
    | [x], _ => exact ⟨x, by simp⟩
  · have hposn : (0 : K) < (vals.length : K) := by exact_mod_cast hlen
    have hpos : (0 : K) < (vals.length : K) - 1 := by
      have : (1 : K) < (vals.length : K) := by exact_mod_cast (by omega : 1 < vals.length)
      linarith
    have hmean : IsMean vals (vals.sum / (vals.length : K)) := by
      unfold IsMean
      field_simp
    have e := hv.2 h1 _ hmean
    have hs := sum_sq_nonneg (vals.sum / (vals.length : K)) vals
    refine ⟨?_, ?_, ?_⟩
    · rw [← e] at hs
      exact nonneg_of_mul_nonneg_right hs hpos
    · intro h0
      rw [h0, mul_zero] at e
      exact ⟨_, sum_sq_zero _ vals e.symm⟩
    · rintro ⟨c, hc⟩
      have hmu : IsMean vals c := by
        have hs : ∀ l : List K, (∀ y ∈ l, y = c) → l.sum = (l.length : K) * c := by
          intro l
          induction l with
          | nil => intro _; simp
          | cons x l ih =>
            intro h
            rw [List.sum_cons, ih (fun y hy => h y (by simp [hy])), h x (by simp), List.length_cons]
            push_cast
            ring
        exact (hs vals hc).symm
      have e := hv.2 h1 c hmu
      have hz : (vals.map (fun y => (y - c) * (y - c))).sum = 0 := by
        apply List.sum_eq_zero
        intro z hz
        obtain ⟨y, hy, rfl⟩ := List.mem_map.mp hz
        rw [hc y hy]; ring
      rw [hz] at e
      rcases mul_eq_zero.mp e with h | h
      · exact absurd h (ne_of_gt hpos)
      · exact h

/-- C52: `fitnessStdDev` returns the square roots of the variances. -/
theorem C52_std_dev (sqrt : K → K) (hsqrt : ∀ x, 0 ≤ x → 0 ≤ sqrt x ∧ sqrt x * sqrt x = x) (m : Nat) (rows : List (List K)) (hm : IsMatrix m rows) (hne : rows ≠ []) :
    ∃ v, fitnessStdDev sqrt rows = some v ∧ PerObjective m rows v (fun vals x => 0 ≤ x ∧ IsVariance vals (x * x)) := by
  obtain ⟨v, h1, h2, h3⟩ := C52_variance m rows hm hne
  obtain ⟨mean, hmean, -⟩ := C52_mean m rows hm hne
  have h1' : fitnessVarianceOf mean rows = some v := by
    simpa [fitnessVariance, hmean] using h1
  refine ⟨v.map sqrt, by simp [fitnessStdDev, hmean, h1'], by simp [h2], ?_⟩
  intro i x hx
  rw [List.getElem?_map] at hx
  obtain ⟨y, hy, rfl⟩ := Option.map_eq_some_iff.mp hx
  have hi : i < m := by rw [← h2]; exact (List.getElem?_eq_some_iff.mp hy).1
  have hcne : column rows i ≠ [] := by
    intro h
    have := column_length hm hi
    rw [h] at this
    exact hne (List.length_eq_zero_iff.mp this.symm)
  have hvar := h3 i y hy
  obtain ⟨a, b⟩ := hsqrt y (C52_variance_zero _ hcne y hvar).1
  exact ⟨a, by rw [b]; exact hvar⟩

end

example : minFitness [[3, 1], [2, 5], [4, 4]] = some [(2 : ℤ), 1] := by decide
example : maxFitness [[3, 1], [2, 5], [4, 4]] = some [(4 : ℤ), 5] := by decide
example : fitnessMean [[3, 1], [2, 5], [4, 4]] = some [(3 : ℚ), 10/3] := by norm_num [fitnessMean, List.replicate]
example : fitnessVariance [[3, 1], [2, 5], [4, 9]] = some [(1 : ℚ), 16] := by norm_num [fitnessVariance, fitnessMean, fitnessVarianceOf, List.replicate]
example : IsMatrix 2 [[3, 1], [2, 5], [4, (4 : ℤ)]] := by intro r hr; simp at hr; rcases hr with rfl | rfl | rfl <;> rfl
/-- The hypothesis of `C52_std_dev` on the square root is met by the real square root. -/
example : ∀ x : ℝ, 0 ≤ x → 0 ≤ Real.sqrt x ∧ Real.sqrt x * Real.sqrt x = x := fun x hx => ⟨Real.sqrt_nonneg x, Real.mul_self_sqrt hx⟩

end Gapp.Props
