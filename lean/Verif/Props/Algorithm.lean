import Mathlib.Data.List.Basic
import Mathlib.Data.List.Range
import Mathlib.Data.List.Perm.Lattice
import Mathlib.Order.Defs.LinearOrder
import Verif.Model.Algorithm
import Verif.Spec.Algorithm
import Verif.Proofs.ListAux
/-!
# C48: sorting and searching helpers
-/

namespace Gapp.Props
open Gapp.Model Gapp.Spec
variable {α : Type}

/-! ## argsort -/

theorem compareAt_eq (comp : α → α → Bool) (v : List α) (i j : Nat) (a b : α) (hi : v[i]? = some a) (hj : v[j]? = some b) :
    compareAt comp v i j = comp a b := by simp [compareAt, hi, hj]

theorem reverseAt_eq (v : List α) (i : Nat) (hi : i < v.length) : reverseAt v (v.length - 1 - i) = v[i]? := by
  unfold reverseAt
  rw [if_pos (by omega)]
  congr 1; omega

theorem compareReverse_eq (comp : α → α → Bool) (v : List α) (i j : Nat) (a b : α) (hi : v[i]? = some a) (hj : v[j]? = some b) :
    compareReverse comp v i j = comp b a := by
  have h1 : i < v.length := (List.getElem?_eq_some_iff.mp hi).1
  have h2 : j < v.length := (List.getElem?_eq_some_iff.mp hj).1
  simp [compareReverse, reverseAt_eq v i h1, reverseAt_eq v j h2, hi, hj]

/-- The values at a list of positions in range. -/
theorem exists_atPositions (v : List α) (idx : List Nat) (h : ∀ i ∈ idx, i < v.length) : ∃ vals, AtPositions v idx vals := by
  induction idx with
  | nil => exact ⟨[], rfl⟩
  | cons i idx ih =>
    obtain ⟨vals, hv⟩ := ih (fun j hj => h j (List.mem_cons_of_mem _ hj))
    refine ⟨v[i]'(h i List.mem_cons_self) :: vals, ?_⟩
    unfold AtPositions at hv ⊢
    simp [hv]

theorem atPositions_length {v : List α} {idx : List Nat} {vals : List α} (h : AtPositions v idx vals) : idx.length = vals.length := by
  simpa using congrArg List.length h

theorem atPositions_perm {v : List α} {idx : List Nat} {vals : List α} (h : AtPositions v idx vals) (hp : idx.Perm (List.range v.length)) :
    vals.Perm v := by
  have h1 : (vals.map some).Perm (v.map some) := by
    rw [← h]
    refine (hp.map _).trans ?_
    rw [show (List.range v.length).map (fun i => v[i]?) = v.map some from by
      apply List.ext_getElem <;> simp]
  have h2 := h1.filterMap id
  simpa using h2

theorem pairwise_transfer {v : List α} {R : Nat → Nat → Prop} {S : α → α → Prop} (hRS : ∀ (i j : Nat) (a b : α), v[i]? = some a → v[j]? = some b → R i j → S a b) :
    ∀ (idx : List Nat) (vals : List α), AtPositions v idx vals → idx.Pairwise R → vals.Pairwise S := by
  intro idx
  induction idx with
  | nil => intro vals h _; cases vals with | nil => exact List.Pairwise.nil | cons a l => simp [AtPositions] at h
  | cons i idx ih =>
    intro vals h hp
    cases vals with
    | nil => simp [AtPositions] at h
    | cons a vals =>
      simp only [AtPositions, List.map_cons, List.cons.injEq] at h
      rw [List.pairwise_cons] at hp ⊢
      refine ⟨?_, ih vals h.2 hp.2⟩
      intro b hb
      have hb' : some b ∈ idx.map (fun i => v[i]?) := by rw [h.2]; exact List.mem_map_of_mem hb
      obtain ⟨j, hj, hj'⟩ := List.mem_map.mp hb'
      exact hRS i j a b h.1 hj' (hp.1 j hj)

/-- The order in which `argsort` lists the elements: that of the comparison, and the opposite one for reverse iterators. -/
def argOrder (rev : Bool) (comp : α → α → Bool) : α → α → Bool := fun a b => if rev then comp b a else comp a b

theorem isArgsortOf_iff (rev : Bool) (comp : α → α → Bool) (v : List α) (res : List Nat) :
    IsArgsortOf rev comp v res ↔ IsSortOf (fun i j => if rev then compareReverse comp v i j else compareAt comp v i j) (List.range v.length) res := by
  cases rev <;> simp [IsArgsortOf]

theorem argCompare_eq (rev : Bool) (comp : α → α → Bool) (v : List α) (i j : Nat) (a b : α) (hi : v[i]? = some a) (hj : v[j]? = some b) :
    (if rev then compareReverse comp v i j else compareAt comp v i j) = argOrder rev comp a b := by
  cases rev
  · simp [argOrder, compareAt_eq comp v i j a b hi hj]
  · simp [argOrder, compareReverse_eq comp v i j a b hi hj]

/-- C48: `argsort` lists every position exactly once, and the elements at them in order (in the opposite order for reverse iterators). -/
theorem C48_argsort (rev : Bool) (comp : α → α → Bool) (v : List α) (res : List Nat) (h : IsArgsortOf rev comp v res) :
    res.Perm (List.range v.length) ∧
    ∃ vals, AtPositions v res vals ∧ vals.Perm v ∧ SortedBy (fun a b => if rev then comp b a else comp a b) vals := by
  rw [isArgsortOf_iff] at h
  obtain ⟨hp, hs⟩ := h
  obtain ⟨vals, hv⟩ := exists_atPositions v res (fun i hi => by simpa using hp.mem_iff.mp hi)
  refine ⟨hp, vals, hv, atPositions_perm hv hp, ?_⟩
  refine pairwise_transfer (R := fun i j => (if rev then compareReverse comp v j i else compareAt comp v j i) = false) ?_ res vals hv hs
  intro i j a b hi hj hR
  rw [argCompare_eq rev comp v j i b a hj hi] at hR
  exact hR

/-- A sorted arrangement exists for a strict weak order. -/
theorem exists_sort (lt : α → α → Bool) (h : StrictWeakOrder lt) (l : List α) : ∃ res, IsSortOf lt l res := by
  refine ⟨l.mergeSort (fun a b => !lt b a), List.mergeSort_perm _ _, ?_⟩
  have := List.pairwise_mergeSort (le := fun a b => !lt b a) ?_ ?_ l
  · exact this.imp (fun h => by simpa using h)
  · intro a b c hab hbc
    simp only [Bool.not_eq_true'] at hab hbc ⊢
    by_contra hca
    simp only [Bool.not_eq_false] at hca
    -- c < a, ¬ b < a, ¬ c < b
    by_cases hac : lt a b = true
    · have := h.trans c a b hca hac
      rw [hbc] at this; cases this
    · simp only [Bool.not_eq_true] at hac
      by_cases hcb : lt b c = true
      · have := h.trans b c a hcb hca
        rw [hab] at this; cases this
      · simp only [Bool.not_eq_true] at hcb
        have := h.incomp c b a hbc hcb hab hac
        rw [hca] at this; cases this
  · intro a b
    simp only [Bool.or_eq_true, Bool.not_eq_true']
    by_contra hc
    push Not at hc
    simp only [ne_eq, Bool.not_eq_false] at hc
    have := h.trans _ _ _ hc.1 hc.2
    rw [h.irrefl] at this; cases this

theorem compareAt_swo (comp : α → α → Bool) (h : StrictWeakOrder comp) (v : List α) (rev : Bool) :
    ∃ res, IsArgsortOf rev comp v res := by
  -- sort the positions in range through the values with their positions
  have hswo : StrictWeakOrder (fun (a b : α × Nat) => argOrder rev comp a.1 b.1) := by
    cases rev
    · exact ⟨fun a => h.irrefl _, fun a b c => h.trans _ _ _, fun a b c => h.incomp _ _ _⟩
    · exact ⟨fun a => h.irrefl _, fun a b c h1 h2 => h.trans _ _ _ h2 h1, fun a b c h1 h2 h3 h4 => by
        simp only [argOrder, if_true] at *
        exact h.incomp _ _ _ h3 h4 h1 h2⟩
  obtain ⟨res, hp, hs⟩ := exists_sort _ hswo v.zipIdx
  refine ⟨res.map (·.2), ?_⟩
  rw [isArgsortOf_iff]
  refine ⟨?_, ?_⟩
  · have := hp.map (·.2)
    simpa [List.zipIdx_map_snd, List.range_eq_range'] using this
  · rw [List.pairwise_map]
    refine List.Pairwise.imp_of_mem ?_ hs
    intro a b ha hb hab
    have ha' := List.mem_zipIdx_iff_getElem?.mp (hp.mem_iff.mp ha)
    have hb' := List.mem_zipIdx_iff_getElem?.mp (hp.mem_iff.mp hb)
    exact (argCompare_eq rev comp v b.2 a.2 b.1 a.1 hb' ha').trans hab

/-- C48: with a strict weak order `argsort` always has a result. -/
theorem C48_argsort_total (rev : Bool) (comp : α → α → Bool) (h : StrictWeakOrder comp) (v : List α) : ∃ res, IsArgsortOf rev comp v res :=
  compareAt_swo comp h v rev

/-- C48: the first `k` positions given by `partial_argsort` list the `k` first elements in order: these are in order, and no element at another position is
less than one of them. -/
theorem C48_partial_argsort (rev : Bool) (comp : α → α → Bool) (v : List α) (k : Nat) (res : List Nat) (h : IsPartialArgsortOf rev comp v k res) :
    res.Perm (List.range v.length) ∧
    ∃ front rest, AtPositions v (res.take k) front ∧ AtPositions v (res.drop k) rest ∧ (front ++ rest).Perm v ∧
      SortedBy (fun a b => if rev then comp b a else comp a b) front ∧
      ∀ a ∈ front, ∀ b ∈ rest, (if rev then comp a b else comp b a) = false := by
  have hps : IsPartialSortOf (fun i j => if rev then compareReverse comp v i j else compareAt comp v i j) k (List.range v.length) res := by
    unfold IsPartialArgsortOf at h
    split at h
    · rw [isArgsortOf_iff] at h
      obtain ⟨hp, hs⟩ := h
      refine ⟨hp, hs.sublist (List.take_sublist _ _), ?_⟩
      rw [← List.take_append_drop k res, List.pairwise_append] at hs
      exact hs.2.2
    · cases rev <;> simpa using h
  obtain ⟨hp, hs, hsep⟩ := hps
  have hlt : ∀ i ∈ res, i < v.length := fun i hi => by simpa using hp.mem_iff.mp hi
  obtain ⟨front, hf⟩ := exists_atPositions v (res.take k) (fun i hi => hlt i (List.mem_of_mem_take hi))
  obtain ⟨rest, hr⟩ := exists_atPositions v (res.drop k) (fun i hi => hlt i (List.mem_of_mem_drop hi))
  refine ⟨hp, front, rest, hf, hr, ?_, ?_, ?_⟩
  · refine atPositions_perm (idx := res) ?_ hp
    unfold AtPositions at *
    rw [List.map_append, ← hf, ← hr, ← List.map_append, List.take_append_drop]
  · refine pairwise_transfer (R := fun i j => (if rev then compareReverse comp v j i else compareAt comp v j i) = false) ?_ _ _ hf hs
    intro i j a b hi hj hR
    rw [argCompare_eq rev comp v j i b a hj hi] at hR
    exact hR
  · intro a ha b hb
    have ha' : some a ∈ (res.take k).map (fun i => v[i]?) := by rw [hf]; exact List.mem_map_of_mem ha
    have hb' : some b ∈ (res.drop k).map (fun i => v[i]?) := by rw [hr]; exact List.mem_map_of_mem hb
    obtain ⟨i, hi, hi'⟩ := List.mem_map.mp ha'
    obtain ⟨j, hj, hj'⟩ := List.mem_map.mp hb'
    exact (argCompare_eq rev comp v j i b a hj' hi').symm.trans (hsep i hi j hj)

example : IsArgsortOf false (fun a b : Nat => decide (a < b)) [5, 3, 9, 3] [3, 1, 0, 2] := by
  simp only [IsArgsortOf, IsSortOf]; decide
example : IsArgsortOf true (fun a b : Nat => decide (a < b)) [5, 3, 9, 3] [2, 0, 1, 3] := by
  simp only [IsArgsortOf, IsSortOf]; decide
example : IsPartialArgsortOf false (fun a b : Nat => decide (a < b)) [5, 3, 9, 3, 4, 1] 1 [5, 3, 2, 4, 0, 1] := by
  rw [IsPartialArgsortOf, if_neg (by decide), if_neg (by decide), IsPartialSortOf]; decide
example : StrictWeakOrder (fun a b : Nat => decide (a / 2 < b / 2)) := ⟨by simp, by simp; omega, by simp; omega⟩

/-! ## lower_bound -/

theorem lowerBoundHalve_spec (comp : α → Bool) (v : List α) : ∀ (length first : Nat), first + length ≤ v.length →
    ∃ f, lowerBoundHalve comp v first length = some f ∧ f ≤ first + length ∧ (f < v.length ∨ f = first) ∧
      (f = first ∨ ∃ x, v[f]? = some x ∧ comp x = true) := by
  intro length
  induction length using Nat.strongRecOn with
  | _ length ih =>
    intro first hle
    rw [lowerBoundHalve]
    split
    · rename_i hlen
      have hget : v[first + length / 2]? = some v[first + length / 2] := List.getElem?_eq_getElem (by omega)
      rw [hget]
      simp only
      by_cases hc : comp v[first + length / 2] = true
      · rw [if_pos hc]
        obtain ⟨f, hf, h1, h2, h3⟩ := ih (length / 2) (by omega) (first + length / 2) (by omega)
        refine ⟨f, hf, by omega, by omega, Or.inr ?_⟩
        rcases h3 with h3 | h3
        · exact ⟨_, by rw [h3]; exact hget, hc⟩
        · exact h3
      · rw [if_neg hc]
        obtain ⟨f, hf, h1, h2, h3⟩ := ih (length / 2) (by omega) first (by omega)
        exact ⟨f, hf, by omega, h2, h3⟩
    · exact ⟨first, rfl, by omega, Or.inr rfl, Or.inl rfl⟩

theorem lowerBoundScan_spec (comp : α → Bool) : ∀ (l : List α) (first : Nat),
    first ≤ lowerBoundScan comp first l ∧ lowerBoundScan comp first l ≤ first + l.length ∧
    (∀ (i : Nat) (x : α), first + i < lowerBoundScan comp first l → l[i]? = some x → comp x = true) ∧
    ∀ x, l[lowerBoundScan comp first l - first]? = some x → comp x = false := by
  intro l
  induction l with
  | nil => intro first; simp [lowerBoundScan]
  | cons a l ih =>
    intro first
    rw [lowerBoundScan]
    split
    · rename_i h
      refine ⟨le_refl _, by omega, fun i x hi => by omega, ?_⟩
      intro x hx
      simp at hx; subst hx; simpa using h
    · rename_i h
      obtain ⟨h1, h2, h3, h4⟩ := ih (first + 1)
      refine ⟨by omega, by simp only [List.length_cons]; omega, ?_, ?_⟩
      · intro i x hi hx
        cases i with
        | zero => simp at hx; subst hx; simpa using h
        | succ i => exact h3 i x (by omega) (by simpa using hx)
      · intro x hx
        obtain ⟨k, hk⟩ : ∃ k, lowerBoundScan comp (first + 1) l - first = k + 1 := ⟨lowerBoundScan comp (first + 1) l - first - 1, by omega⟩
        rw [hk] at hx
        apply h4 x
        rw [← (by simpa using hx : l[k]? = some x)]
        congr 1; omega

/-- C48: on a partitioned range `lower_bound` finds the partition point, for every length. -/
theorem C48_lower_bound (comp : α → Bool) (v : List α) (k : Nat) (h : IsPartitionPoint comp v k) : lowerBound comp v = some k := by
  obtain ⟨hk, hp⟩ := h
  obtain ⟨f, hf, h1, h2, h3⟩ := lowerBoundHalve_spec comp v v.length 0 (by omega)
  obtain ⟨s1, s2, s3, s4⟩ := lowerBoundScan_spec comp (v.drop f) f
  simp only [lowerBound, hf, Option.bind_eq_bind, Option.bind_some, Option.pure_def, Option.some.injEq]
  have hfk : f ≤ k := by
    rcases h3 with h3 | ⟨x, hx, hc⟩
    · omega
    · have := hp f x hx; rw [hc] at this
      have := of_decide_eq_true this.symm; omega
  simp only [List.length_drop] at s2
  apply Nat.le_antisymm
  · by_contra hlt
    push Not at hlt
    have hkl : k < v.length := by omega
    have := s3 (k - f) v[k] (by omega) (by rw [List.getElem?_drop]; rw [show f + (k - f) = k by omega]; exact List.getElem?_eq_getElem hkl)
    have h5 := hp k v[k] (List.getElem?_eq_getElem hkl)
    rw [this] at h5
    simp at h5
  · by_contra hlt
    push Not at hlt
    generalize hr : lowerBoundScan comp f (v.drop f) = r at *
    have hrl : r < v.length := by omega
    have := s4 v[r] (by rw [List.getElem?_drop]; rw [show f + (r - f) = r by omega]; exact List.getElem?_eq_getElem hrl)
    have h5 := hp r v[r] (List.getElem?_eq_getElem hrl)
    rw [this] at h5
    have := of_decide_eq_false h5.symm
    omega

/-- C48: for any range, even one that is not partitioned, the position found is in the range if the last element does not satisfy `comp`. -/
theorem C48_lower_bound_in_range (comp : α → Bool) (v : List α) (x : α) (hx : v.getLast? = some x) (hc : comp x = false) :
    ∃ k, lowerBound comp v = some k ∧ k < v.length := by
  obtain ⟨f, hf, h1, h2, h3⟩ := lowerBoundHalve_spec comp v v.length 0 (by omega)
  obtain ⟨s1, s2, s3, s4⟩ := lowerBoundScan_spec comp (v.drop f) f
  refine ⟨lowerBoundScan comp f (v.drop f), by simp [lowerBound, hf], ?_⟩
  simp only [List.length_drop] at s2
  have hne : v ≠ [] := by rintro rfl; simp at hx
  have hpos : 0 < v.length := List.length_pos_iff.mpr hne
  by_contra hlt
  push Not at hlt
  have := s3 (v.length - 1 - f) x (by omega) (by
    rw [List.getElem?_drop, show f + (v.length - 1 - f) = v.length - 1 by omega, ← List.getLast?_eq_getElem?]; exact hx)
  rw [hc] at this; cases this

example : IsPartitionPoint (fun x : Nat => decide (x < 40)) (List.range 100) 40 := by
  refine ⟨by simp, ?_⟩
  intro i x h
  have := List.getElem?_eq_some_iff.mp h
  obtain ⟨h1, h2⟩ := this
  simp at h2; subst h2; rfl

/-! ## max_element, argmax -/

section
variable {V : Type} [LinearOrder V]

theorem maxLoop_spec : ∀ (rest v : List V) (m : Nat) (x : V), IsFirstBest (· < ·) v m → v[m]? = some x →
    IsFirstBest (· < ·) (v ++ rest) (maxLoop m x v.length rest) := by
  intro rest
  induction rest with
  | nil => intro v m x h _; simpa [maxLoop] using h
  | cons y rest ih =>
    intro v m x h hx
    obtain ⟨x', hx', hmax, hfirst⟩ := h
    obtain rfl : x = x' := by rw [hx] at hx'; exact Option.some.inj hx'
    have hm : m < v.length := (List.getElem?_eq_some_iff.mp hx).1
    rw [maxLoop]
    split
    · rename_i hn
      have := ih (v ++ [y]) m x ⟨x, by rw [List.getElem?_append_left hm]; exact hx, by
          intro z hz
          rcases List.mem_append.mp hz with hz | hz
          · exact hmax z hz
          · simp at hz; subst hz; exact hn,
        fun j z hj hz => hfirst j z hj (by rwa [List.getElem?_append_left (by omega)] at hz)⟩
        (by rw [List.getElem?_append_left hm]; exact hx)
      simpa using this
    · rename_i hn
      push Not at hn
      have := ih (v ++ [y]) v.length y ⟨y, by simp, by
          intro z hz
          rcases List.mem_append.mp hz with hz | hz
          · exact fun hyz => hmax z hz (lt_trans hn hyz)
          · simp at hz; subst hz; exact lt_irrefl _,
        fun j z hj hz => by
          rw [List.getElem?_append_left hj] at hz
          exact lt_of_le_of_lt (not_lt.mp (hmax z (List.mem_of_getElem? hz))) hn⟩ (by simp)
      simpa using this

/-- C48: `max_element` finds the first of the largest elements. -/
theorem C48_max_element (v : List V) (h : v ≠ []) : IsFirstBest (· < ·) v (maxElement v) := by
  cases v with
  | nil => exact absurd rfl h
  | cons x xs =>
    have := maxLoop_spec xs [x] 0 x ⟨x, by simp, by simp, fun j y hj => by omega⟩ (by simp)
    simpa [maxElement] using this

theorem minLoop_spec : ∀ (rest v : List V) (m : Nat) (x : V), IsFirstBest (· > ·) v m → v[m]? = some x →
    IsFirstBest (· > ·) (v ++ rest) (minLoop m x v.length rest) := by
  intro rest
  induction rest with
  | nil => intro v m x h _; simpa [minLoop] using h
  | cons y rest ih =>
    intro v m x h hx
    obtain ⟨x', hx', hmax, hfirst⟩ := h
    obtain rfl : x = x' := by rw [hx] at hx'; exact Option.some.inj hx'
    have hm : m < v.length := (List.getElem?_eq_some_iff.mp hx).1
    rw [minLoop]
    split
    · rename_i hn
      have := ih (v ++ [y]) m x ⟨x, by rw [List.getElem?_append_left hm]; exact hx, by
          intro z hz
          rcases List.mem_append.mp hz with hz | hz
          · exact hmax z hz
          · simp at hz; subst hz; exact hn,
        fun j z hj hz => hfirst j z hj (by rwa [List.getElem?_append_left (by omega)] at hz)⟩
        (by rw [List.getElem?_append_left hm]; exact hx)
      simpa using this
    · rename_i hn
      push Not at hn
      have := ih (v ++ [y]) v.length y ⟨y, by simp, by
          intro z hz
          rcases List.mem_append.mp hz with hz | hz
          · exact fun hyz => hmax z hz (lt_trans hyz hn)
          · simp at hz; subst hz; exact lt_irrefl _,
        fun j z hj hz => by
          rw [List.getElem?_append_left hj] at hz
          exact lt_of_lt_of_le hn (not_lt.mp (hmax z (List.mem_of_getElem? hz)))⟩ (by simp)
      simpa using this

/-- C48: `min_element` finds the first of the smallest elements. -/
theorem C48_min_element (v : List V) (h : v ≠ []) : IsFirstBest (· > ·) v (minElement v) := by
  cases v with
  | nil => exact absurd rfl h
  | cons x xs =>
    have := minLoop_spec xs [x] 0 x ⟨x, by simp, by simp, fun j y hj => by omega⟩ (by simp)
    simpa [minElement] using this

theorem isLastBest_of_reverse {lt : V → V → Prop} {v : List V} {i : Nat} (h : IsFirstBest lt v.reverse i) : IsLastBest lt v (v.length - 1 - i) := by
  obtain ⟨x, hx, h1, h2⟩ := h
  have hi : i < v.length := by simpa using (List.getElem?_eq_some_iff.mp hx).1
  rw [List.getElem?_reverse hi] at hx
  refine ⟨x, hx, fun y hy => h1 y (List.mem_reverse.mpr hy), ?_⟩
  intro j y hj hy
  have hjl : j < v.length := (List.getElem?_eq_some_iff.mp hy).1
  refine h2 (v.length - 1 - j) y (by omega) ?_
  rw [List.getElem?_reverse (by omega), show v.length - 1 - (v.length - 1 - j) = j by omega]
  exact hy

/-- C48: `argmax` is the first position of the largest elements, and the last one for reverse iterators. -/
theorem C48_argmax (v : List V) (h : v ≠ []) :
    (∃ i, argmax false v = some i ∧ IsFirstBest (· < ·) v i) ∧ ∃ i, argmax true v = some i ∧ IsLastBest (· < ·) v i := by
  have hl : v.length > 0 := List.length_pos_iff.mpr h
  refine ⟨⟨maxElement v, by simp [argmax, hl], C48_max_element v h⟩, ⟨v.length - 1 - maxElement v.reverse, by simp [argmax, hl], ?_⟩⟩
  exact isLastBest_of_reverse (C48_max_element v.reverse (by simpa using h))

/-- C48: `argmin` is the first position of the smallest elements, and the last one for reverse iterators. -/
theorem C48_argmin (v : List V) (h : v ≠ []) :
    (∃ i, argmin false v = some i ∧ IsFirstBest (· > ·) v i) ∧ ∃ i, argmin true v = some i ∧ IsLastBest (· > ·) v i := by
  have hl : v.length > 0 := List.length_pos_iff.mpr h
  refine ⟨⟨minElement v, by simp [argmin, hl], C48_min_element v h⟩, ⟨v.length - 1 - minElement v.reverse, by simp [argmin, hl], ?_⟩⟩
  exact isLastBest_of_reverse (C48_min_element v.reverse (by simpa using h))
end

example : maxElement [3, 7, 7, 2] = 1 ∧ argmax true [3, 7, 7, 2] = some 2 ∧ argmin false [3, 2, 7, 2] = some 1 ∧ argmin true [3, 2, 7, 2] = some 3 := by decide

/-! ## partial_shuffle -/

theorem swap?_zero_succ (x : α) (xs : List α) (j : Nat) (hj : j < xs.length) :
    swap? (x :: xs) 0 (j + 1) = some (xs[j] :: xs.set j x) := by
  simp [swap?, hj]

theorem swap?_zero_zero (x : α) (xs : List α) : swap? (x :: xs) 0 0 = some (x :: xs) := by simp [swap?]

theorem perm_cons_set (x : α) : ∀ (xs : List α) (j : Nat) (hj : j < xs.length), (xs[j] :: xs.set j x).Perm (x :: xs)
  | [], j, hj => by simp at hj
  | a :: xs, 0, _ => by simpa using List.Perm.swap x a xs
  | a :: xs, j + 1, hj => by
      have hj' : j < xs.length := by simpa using hj
      have ih := perm_cons_set x xs j hj'
      simp only [List.getElem_cons_succ, List.set_cons_succ]
      exact (List.Perm.swap a xs[j] _).trans ((ih.cons a).trans (List.Perm.swap x a xs))

/-- The draws are in the ranges that `partial_shuffle` gives to the generator. -/
def ShuffleDraws : Nat → List Nat → Prop
  | _, [] => True
  | n, d :: ds => d < n ∧ ShuffleDraws (n - 1) ds

theorem swap?_first (v : List α) (d : Nat) (hd : d < v.length) :
    ∃ x xs, swap? v 0 d = some (x :: xs) ∧ v[d]? = some x ∧ (x :: xs).Perm v ∧ xs.length = v.length - 1 := by
  cases v with
  | nil => simp at hd
  | cons y ys =>
    cases d with
    | zero => exact ⟨y, ys, swap?_zero_zero y ys, by simp, List.Perm.refl _, by simp⟩
    | succ j =>
      have hj : j < ys.length := by simpa using hd
      exact ⟨ys[j], ys.set j y, swap?_zero_succ y ys j hj, by simp [hj], perm_cons_set y ys j hj, by simp⟩

/-- C48: `partial_shuffle` rearranges the range, whatever the draws. -/
theorem C48_partial_shuffle_perm : ∀ (draws : List Nat) (v : List α), ShuffleDraws v.length draws →
    ∃ res, partialShuffle draws v = some res ∧ res.Perm v
  | [], v, _ => ⟨v, rfl, List.Perm.refl _⟩
  | d :: ds, v, h => by
      obtain ⟨x, xs, hs, _, hp, hl⟩ := swap?_first v d h.1
      obtain ⟨res, hr, hrp⟩ := C48_partial_shuffle_perm ds xs (by rw [hl]; exact h.2)
      exact ⟨x :: res, by simp [partialShuffle, hs, hr], (hrp.cons x).trans hp⟩

/-- C48: if the elements are different, then every sequence of `k` different elements comes first for exactly one sequence of draws, so with uniform draws all of
them are equally likely. -/
theorem C48_partial_shuffle_uniform : ∀ (target v : List α), v.Nodup → target.Nodup → (∀ x ∈ target, x ∈ v) →
    ∃ draws, (draws.length = target.length ∧ ShuffleDraws v.length draws ∧ (partialShuffle draws v).map (List.take target.length) = some target) ∧
      ∀ draws', draws'.length = target.length → ShuffleDraws v.length draws' → (partialShuffle draws' v).map (List.take target.length) = some target →
        draws' = draws
  | [], v, _, _, _ => ⟨[], ⟨rfl, trivial, by simp [partialShuffle]⟩, fun d h _ _ => List.length_eq_zero_iff.mp h⟩
  | t :: ts, v, hv, ht, hm => by
      obtain ⟨d, hd, hdt⟩ := List.getElem_of_mem (hm t List.mem_cons_self)
      obtain ⟨x, xs, hs, hx, hp, hl⟩ := swap?_first v d hd
      obtain rfl : x = t := by
        rw [List.getElem?_eq_getElem hd, hdt] at hx; exact (Option.some.inj hx).symm
      have hnd : (x :: xs).Nodup := hp.nodup_iff.mpr hv
      have htn := List.nodup_cons.mp ht
      obtain ⟨ds, ⟨h1, h2, h3⟩, h4⟩ := C48_partial_shuffle_uniform ts xs (List.nodup_cons.mp hnd).2 htn.2 (by
        intro y hy
        have := hp.mem_iff.mpr (hm y (List.mem_cons_of_mem _ hy))
        rcases List.mem_cons.mp this with rfl | h
        · exact absurd hy htn.1
        · exact h)
      have hsh : ∀ e ds', partialShuffle (e :: ds') v = (swap? v 0 e).bind (fun w => match w with | [] => none | y :: ys => (partialShuffle ds' ys).map (y :: ·)) := by
        intro e ds'
        simp only [partialShuffle, Option.bind_eq_bind]
        congr 1; funext w; cases w with
        | nil => rfl
        | cons y ys => simp only [Option.pure_def]; cases partialShuffle ds' ys <;> rfl
      refine ⟨d :: ds, ⟨by simp [h1], ⟨hd, by rw [hl] at h2; exact h2⟩, ?_⟩, ?_⟩
      · rw [hsh, hs]
        simp only [Option.bind_some, Option.map_map]
        cases hq : partialShuffle ds xs with
        | none => rw [hq] at h3; simp at h3
        | some r => rw [hq] at h3; simp at h3 ⊢; exact h3
      · intro draws' hlen hdr heq
        cases draws' with
        | nil => simp at hlen
        | cons e ds' =>
          obtain ⟨y, ys, hs', hy, hp', hl'⟩ := swap?_first v e hdr.1
          rw [hsh, hs'] at heq
          simp only [Option.bind_some, Option.map_map] at heq
          cases hq : partialShuffle ds' ys with
          | none => rw [hq] at heq; simp at heq
          | some r =>
            rw [hq] at heq
            simp at heq
            obtain ⟨rfl, heq⟩ := heq
            obtain rfl : e = d := by
              have h5 := hdr.1
              rw [List.getElem?_eq_getElem hdr.1] at hy
              have h6 : v[e] = v[d] := by rw [Option.some.inj hy, hdt]
              exact (List.Nodup.getElem_inj_iff hv).mp h6
            rw [hs] at hs'
            simp at hs'
            subst hs'
            rw [h4 ds' (by simpa using hlen) (by rw [hl]; exact hdr.2) (by rw [hq]; simpa using heq)]

example : ShuffleDraws 4 [2, 0, 1] ∧ partialShuffle [2, 0, 1] ['a', 'b', 'c', 'd'] = some ['c', 'b', 'd', 'a'] := by simp [ShuffleDraws]; decide

/-! ## Searching, selecting -/

theorem foldl_filter_append (p : α → Bool) : ∀ (l acc : List α), l.foldl (fun r x => if p x then r ++ [x] else r) acc = acc ++ l.filter p
  | [], acc => by simp
  | x :: l, acc => by
      rw [List.foldl_cons, foldl_filter_append p l]
      by_cases h : p x = true <;> simp [h]

/-- C48: `find_all` returns the elements that satisfy the predicate, in order. -/
theorem C48_find_all (p : α → Bool) (v : List α) : findAll p v = v.filter p := by
  simp [findAll, foldl_filter_append]

/-- C48: `find_indices` returns exactly the positions of the matching elements, in increasing order. -/
theorem C48_find_indices (p : α → Bool) (v : List α) :
    (findIndices p v).Pairwise (· < ·) ∧ ∀ i, i ∈ findIndices p v ↔ ∃ x, v[i]? = some x ∧ p x = true := by
  have heq : findIndices p v = (List.range v.length).filter (fun i => match v[i]? with | some x => p x | none => false) := by
    unfold findIndices
    refine Eq.trans ?_ ((foldl_filter_append _ (List.range v.length) []).trans (List.nil_append _))
    congr 1
    funext indices i
    cases v[i]? <;> simp
  rw [heq]
  refine ⟨List.Pairwise.filter _ List.pairwise_lt_range, ?_⟩
  intro i
  simp only [List.mem_filter, List.mem_range]
  constructor
  · rintro ⟨hi, h⟩
    rw [List.getElem?_eq_getElem hi] at h ⊢
    exact ⟨_, rfl, h⟩
  · rintro ⟨x, hx, h⟩
    exact ⟨(List.getElem?_eq_some_iff.mp hx).1, by rw [hx]; exact h⟩

theorem stdFind_spec (p : α → Bool) : ∀ (v : List α), stdFind p v ≤ v.length ∧ (∀ (j : Nat) (y : α), j < stdFind p v → v[j]? = some y → p y = false) ∧
    (stdFind p v < v.length → ∃ x, v[stdFind p v]? = some x ∧ p x = true)
  | [] => by simp [stdFind]
  | a :: v => by
      obtain ⟨h1, h2, h3⟩ := stdFind_spec p v
      rw [stdFind]
      split
      · rename_i h
        exact ⟨by simp, fun j y hj => by omega, fun _ => ⟨a, by simp, h⟩⟩
      · rename_i h
        refine ⟨by simp; exact h1, ?_, ?_⟩
        · intro j y hj hy
          cases j with
          | zero => simp at hy; subst hy; simpa using h
          | succ j => exact h2 j y (by omega) (by simpa using hy)
        · intro hlt
          simpa using h3 (by simpa using hlt)

/-- C48: `index_of` and `find_index` return the first matching position, and nothing exactly if there is none. -/
theorem C48_find_index (p : α → Bool) (v : List α) :
    (∀ i, findIndex p v = some i ↔ IsFirstPosition p v i) ∧ (findIndex p v = none ↔ ∀ x ∈ v, p x = false) := by
  obtain ⟨h1, h2, h3⟩ := stdFind_spec p v
  have hiff : ∀ i, findIndex p v = some i ↔ IsFirstPosition p v i := by
    intro i
    unfold findIndex
    constructor
    · intro h
      simp only [ne_eq, ite_not] at h
      split at h
      · simp at h
      · simp at h; subst h
        exact ⟨h3 (by omega), h2⟩
    · rintro ⟨⟨x, hx, hp⟩, hfirst⟩
      have hi : i < v.length := (List.getElem?_eq_some_iff.mp hx).1
      have hle : stdFind p v ≤ i := by
        by_contra hlt
        have := h2 i x (by omega) hx
        rw [hp] at this; cases this
      have hlt : stdFind p v < v.length := by omega
      obtain ⟨y, hy, hpy⟩ := h3 hlt
      have hge : i ≤ stdFind p v := by
        by_contra hlt'
        have := hfirst _ y (by omega) hy
        rw [hpy] at this; cases this
      rw [if_pos (by omega), Nat.le_antisymm hle hge]
  refine ⟨hiff, ?_⟩
  constructor
  · intro h x hx
    obtain ⟨j, hj, rfl⟩ := List.getElem_of_mem hx
    have : stdFind p v = v.length := by
      unfold findIndex at h
      simp only [ne_eq, ite_not] at h
      split at h
      · assumption
      · simp at h
    exact h2 j _ (by omega) (List.getElem?_eq_getElem hj)
  · intro h
    rw [Option.eq_none_iff_forall_ne_some]
    intro i hi
    obtain ⟨⟨x, hx, hp⟩, _⟩ := (hiff i).mp hi
    rw [h x (List.mem_of_getElem? hx)] at hp; cases hp

/-- C48: `contains` tells whether there is a matching element. -/
theorem C48_contains (p : α → Bool) (v : List α) : containsElem p v = true ↔ ∃ x ∈ v, p x = true := by
  simp [containsElem]

/-- C48: `erase_first_stable` removes the first matching element and tells whether there was one; the other elements stay in order. -/
theorem C48_erase_first_stable (p : α → Bool) (v : List α) :
    ((eraseFirstStable p v).1 = true ↔ ∃ x ∈ v, p x = true) ∧ (eraseFirstStable p v).2 = v.eraseP p := by
  have key : ∀ v : List α, (if stdFind p v ≠ v.length then v.take (stdFind p v) ++ v.drop (stdFind p v + 1) else v) = v.eraseP p := by
    intro v
    induction v with
    | nil => simp [stdFind]
    | cons a v ih =>
      rw [stdFind]
      by_cases h : p a = true
      · simp [h]
      · simp only [h, Bool.false_eq_true, if_false]
        rw [List.eraseP_cons_of_neg (by simpa using h), ← ih]
        by_cases h2 : stdFind p v = v.length <;> simp [h2]
  have h1 := (C48_find_index p v).2
  unfold findIndex at h1
  unfold eraseFirstStable
  constructor
  · simp only [ne_eq, ite_not] at h1 ⊢
    split
    · rename_i h
      simp only [h, if_true, true_iff] at h1
      simp; exact h1
    · rename_i h
      simp only [h, if_false, reduceCtorEq, false_iff] at h1
      push Not at h1
      simp; simpa using h1
  · rw [← key v]
    simp only [ne_eq, ite_not]
    split <;> rfl

example : findIndices (fun x => decide (x % 2 = 1)) [1, 4, 7, 7] = [0, 2, 3] ∧ findIndex (· == 7) [1, 4, 7, 7] = some 2 ∧
    findIndex (· == 5) [1, 4, 7, 7] = none ∧ eraseFirstStable (· == 7) [1, 7, 4, 7] = (true, [1, 4, 7]) := by decide

/-- C48: `select` from an lvalue returns the elements at the given positions. -/
theorem C48_select_copy (v : List α) (idx : List Nat) (h : ∀ i ∈ idx, i < v.length) : ∃ vals, selectCopy v idx = some vals ∧ AtPositions v idx vals := by
  obtain ⟨vals, hv⟩ := exists_atPositions v idx h
  refine ⟨vals, ?_, hv⟩
  have hl := atPositions_length hv
  refine ListAux.mapM_eq_some_of_forall _ _ _ hl ?_
  intro i h1 h2
  have := congrArg (fun l : List (Option α) => l[i]?) hv
  simpa [h1, h2] using this

/-- C48: `select` from an rvalue, with different positions, returns the elements at these positions; none of them has been moved from before. -/
theorem C48_select_move (v : List α) (idx : List Nat) (h : ∀ i ∈ idx, i < v.length) (hnd : idx.Nodup) :
    ∃ vals, selectMove (v.map some) idx = some (vals.map some) ∧ AtPositions v idx vals := by
  obtain ⟨vals, hv⟩ := exists_atPositions v idx h
  refine ⟨vals, ?_, hv⟩
  have key : ∀ (idx : List Nat) (vals : List α) (c : List (Option α)), idx.Nodup → c.length = v.length → (∀ i ∈ idx, c[i]? = some v[i]?) →
      AtPositions v idx vals → selectMove c idx = some (vals.map some) := by
    intro idx
    induction idx with
    | nil => intro vals c _ _ _ ha; rw [← (show _ = vals.map some from ha)]; rfl
    | cons i idx ih =>
      intro vals c hn hl hc ha
      cases vals with
      | nil => simp [AtPositions] at ha
      | cons a vals =>
        simp only [AtPositions, List.map_cons, List.cons.injEq] at ha
        rw [List.nodup_cons] at hn
        rw [selectMove, hc i List.mem_cons_self, ha.1]
        have := ih vals (c.set i none) hn.2 (by simpa using hl) (by
          intro j hj
          rw [List.getElem?_set_ne (by rintro rfl; exact hn.1 hj)]
          exact hc j (List.mem_cons_of_mem _ hj)) ha.2
        simp [this]
  exact key idx vals _ hnd (by simp) (by
    intro i hi; simp [h i hi]) hv

/-- C48: with a repeated position the second element is one that has been moved from. -/
theorem C48_select_move_repeated (v : List α) (i : Nat) (hi : i < v.length) : selectMove (v.map some) [i, i] = some [some v[i], none] := by
  simp [selectMove, hi]

theorem stdUniqueFrom_spec {V : Type} [LinearOrder V] : ∀ (l : List V) (x : V), (x :: l).Pairwise (· ≤ ·) →
    (x :: stdUnique.stdUniqueFrom x l).Pairwise (· < ·) ∧ ∀ y, y ∈ x :: stdUnique.stdUniqueFrom x l ↔ y ∈ x :: l
  | [], x, _ => by simp [stdUnique.stdUniqueFrom]
  | a :: l, x, h => by
      rw [stdUnique.stdUniqueFrom]
      have hx := List.pairwise_cons.mp h
      split
      · rename_i heq; subst heq
        obtain ⟨h1, h2⟩ := stdUniqueFrom_spec l a hx.2
        refine ⟨h1, fun y => ?_⟩
        rw [h2]; simp
      · rename_i hne
        obtain ⟨h1, h2⟩ := stdUniqueFrom_spec l a hx.2
        have hxa : x < a := lt_of_le_of_ne (hx.1 a List.mem_cons_self) (Ne.symm hne)
        refine ⟨List.pairwise_cons.mpr ⟨?_, h1⟩, fun y => ?_⟩
        · intro y hy
          have hy' := (h2 y).mp hy
          rcases List.mem_cons.mp hy' with rfl | hy'
          · exact hxa
          · exact lt_of_lt_of_le hxa ((List.pairwise_cons.mp hx.2).1 y hy')
        · rw [List.mem_cons, h2, List.mem_cons (l := a :: l)]

/-- C48: `erase_duplicates` leaves every value once, in increasing order, for every result of the sort. -/
theorem C48_erase_duplicates {V : Type} [LinearOrder V] (v sorted : List V) (h : IsSortOf (fun a b => decide (a < b)) v sorted) :
    (eraseDuplicates sorted).Pairwise (· < ·) ∧ ∀ x, x ∈ eraseDuplicates sorted ↔ x ∈ v := by
  obtain ⟨hp, hs⟩ := h
  have hs' : sorted.Pairwise (· ≤ ·) := hs.imp (fun h => by simpa using h)
  have : (eraseDuplicates sorted).Pairwise (· < ·) ∧ ∀ x, x ∈ eraseDuplicates sorted ↔ x ∈ sorted := by
    cases sorted with
    | nil => simp [eraseDuplicates, stdUnique]
    | cons a l => exact stdUniqueFrom_spec l a hs'
  exact ⟨this.1, fun x => (this.2 x).trans hp.mem_iff⟩

example : IsSortOf (fun a b : Nat => decide (a < b)) [3, 1, 3, 2] [1, 2, 3, 3] ∧ eraseDuplicates [1, 2, 3, 3] = [1, 2, 3] := by
  simp only [IsSortOf]; decide

end Gapp.Props
