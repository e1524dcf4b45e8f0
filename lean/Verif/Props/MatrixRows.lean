import Verif.Model.MatrixRows
import Verif.Proofs.Matrix
/-!
# C95: rows of matrices

Comparisons of rows with rows and vectors, and swaps of rows with other sequences.
-/

namespace Gapp.Model

open Gapp.Spec

variable {α : Type}

theorem matRowEqLoop_spec (eq : α → α → Bool) {m : Mat α} {i : Nat} {r s : List α} (hr : matRow m i = some r) (get : Nat → Option α)
    (hg : ∀ j < r.length, get j = s[j]?) (hlen : r.length = s.length) :
    ∀ n j, j + n = r.length → ∃ b, matRowEqLoop eq m i get j n = some b ∧
      (b = true ↔ ∀ p x y, j ≤ p → r[p]? = some x → s[p]? = some y → eq x y = true)
  | 0, j, hj => by
    refine ⟨true, rfl, by simp only [true_iff]; intro p x y hp hx _; rw [List.getElem?_eq_none (by omega)] at hx; cases hx⟩
  | n + 1, j, hj => by
    obtain ⟨b, e, hb⟩ := matRowEqLoop_spec eq hr get hg hlen n (j + 1) (by omega)
    have h1 : r[j]? = some r[j] := List.getElem?_eq_getElem (by omega)
    have h2 : s[j]? = some s[j] := List.getElem?_eq_getElem (by omega)
    have h3 : matRowGet m i j = some r[j] := by unfold matRowGet; rw [hr]; exact h1
    have h4 : get j = some s[j] := by rw [hg j (by omega), h2]
    unfold matRowEqLoop
    rw [h3, h4]
    by_cases hq : eq r[j] s[j] = true
    · refine ⟨b, by simp [hq, e], hb.trans ⟨fun h p x y hp hx hy => ?_, fun h p x y hp => h p x y (by omega)⟩⟩
      rcases Nat.lt_or_ge j p with hlt | hge
      · exact h p x y hlt hx hy
      · obtain rfl : p = j := by omega
        rw [h1] at hx; rw [h2] at hy; cases hx; cases hy; exact hq
    · exact ⟨false, by simp [hq], by simp only [Bool.false_eq_true, false_iff]; exact fun h => hq (h j _ _ (Nat.le_refl _) h1 h2)⟩

theorem matSwapSpanLoop_rep (i : Nat) : ∀ (n : Nat) {m : Mat α} {t : List (List α)} (_ : MatRep m t) {r v : List α} (_ : t[i]? = some r) (j : Nat),
    j + n = m.ncols → v.length = m.ncols →
    ∃ m', matSwapSpanLoop m i v j n = some (m', v.take j ++ r.drop j) ∧ MatRep m' (t.set i (r.take j ++ v.drop j))
  | 0, m, t, h, r, v, hi, j, hj, hv => by
    have hrl := rep_row_len h hi
    refine ⟨m, ?_, ?_⟩
    · rw [List.take_of_length_le (by omega), List.drop_of_length_le (by omega), List.append_nil]; rfl
    · rw [List.take_of_length_le (by omega), List.drop_of_length_le (by omega), List.append_nil, set_self hi]; exact h
  | n + 1, m, t, h, r, v, hi, j, hj, hv => by
    have hrl := rep_row_len h hi
    have hlt := lt_of_get hi
    have ha : matGet m i j = some r[j] := by rw [matGet_rep h hi (by omega)]; exact List.getElem?_eq_getElem _
    have hb : v[j]? = some v[j] := List.getElem?_eq_getElem (by omega)
    obtain ⟨m1, e1, hc1, h1⟩ := matSet_rep h hi (j := j) (by omega) v[j]
    obtain ⟨m2, e2, h2⟩ := matSwapSpanLoop_rep i n h1 (r := r.set j v[j]) (v := v.set j r[j]) (by rw [List.getElem?_set_self hlt]) (j + 1)
      (by omega) (by rw [List.length_set]; omega)
    have key : ∀ (a b : List α) (ha : j < a.length) (hb : j < b.length),
        (a.set j b[j]).take (j + 1) ++ (b.set j a[j]).drop (j + 1) = a.take j ++ b.drop j := by
      intro a b ha hb
      rw [List.drop_set_of_lt (by omega), List.drop_eq_getElem_cons hb, List.take_set, List.take_succ_eq_append_getElem ha]
      have hl : (a.take j).length = j := by simp; omega
      rw [List.set_append_right _ _ (by omega), hl, Nat.sub_self]
      simp
    refine ⟨m2, ?_, ?_⟩
    · unfold matSwapSpanLoop
      rw [ha, hb]
      show (do let m ← matSet m i j v[j]; matSwapSpanLoop m i (v.set j r[j]) (j + 1) n) = _
      rw [e1]
      show matSwapSpanLoop m1 i (v.set j r[j]) (j + 1) n = _
      rw [e2, key v r (by omega) (by omega)]
    · rw [List.set_set, key r v (by omega) (by omega)] at h2
      exact h2

end Gapp.Model

namespace Gapp.Props

open Gapp.Model Gapp.Spec

variable {α : Type}

/-- C95: rows of two matrices that were built by two programs are equal if and only if they have the same elements, if `==` of the elements is equality. The
rows may also be rows of one matrix (`same`). -/
theorem C95_row_equality_partial (eq : α → α → Bool) (heq : ∀ a b, eq a b = true ↔ a = b) (dflt : α) (ops ops' : List (MatOp α))
    (hpre : TableRunPre [] ops) (hpre' : TableRunPre [] ops') (m m' : Mat α)
    (hm : matRun dflt ⟨[], 0⟩ ops = some m) (hm' : matRun dflt ⟨[], 0⟩ ops' = some m')
    (same : Bool) (hsame : same = true → m = m') (i k : Nat) (r s : List α)
    (hr : (tableRun [] ops)[i]? = some r) (hs : (tableRun [] ops')[k]? = some s) :
    ∃ b, matRowEq eq same m i m' k = some b ∧ (b = true ↔ r = s) := by
  obtain ⟨m1, e, h⟩ := matRun_rep dflt ops rep_empty_mat hpre
  obtain ⟨m2, e', h'⟩ := matRun_rep dflt ops' rep_empty_mat hpre'
  rw [hm] at e; cases e
  rw [hm'] at e'; cases e'
  have hrl := rep_row_len h hr
  have hsl := rep_row_len h' hs
  have er := matRow_rep h hr
  have es := matRow_rep h' hs
  unfold matRowEq
  by_cases hc : m.ncols = m'.ncols
  · rw [if_neg (by simpa using hc)]
    by_cases hik : (same && i == k) = true
    · rw [if_pos hik]
      simp only [Bool.and_eq_true, beq_iff_eq] at hik
      have hmm := hsame hik.1
      subst hmm
      rw [hik.2, es] at er
      exact ⟨true, rfl, by simp only [true_iff]; exact (Option.some.inj er).symm⟩
    · rw [if_neg hik]
      obtain ⟨b, eb, hb⟩ := matRowEqLoop_spec eq er (matRowGet m' k) (s := s) (by intro j _; unfold matRowGet; rw [es]; rfl)
        (by omega) m.ncols 0 (by omega)
      refine ⟨b, eb, hb.trans ⟨fun hall => ?_, ?_⟩⟩
      · apply List.ext_getElem (by omega)
        intro p h1 h2
        exact (heq _ _).mp (hall p _ _ (Nat.zero_le _) (List.getElem?_eq_getElem h1) (List.getElem?_eq_getElem h2))
      · rintro rfl p x y _ hx hy
        rw [hx] at hy; cases hy
        exact (heq _ _).mpr rfl
  · rw [if_pos hc]
    refine ⟨false, rfl, by simp only [Bool.false_eq_true, false_iff]; rintro rfl; omega⟩

/-- C95: a row is equal to a vector if and only if they have the same length, and their elements are equal in the sense of `==` of the elements. -/
theorem C95_row_equals_vector (eq : α → α → Bool) (dflt : α) (ops : List (MatOp α)) (hpre : TableRunPre [] ops) (m : Mat α)
    (hm : matRun dflt ⟨[], 0⟩ ops = some m) (i : Nat) (r v : List α) (hr : (tableRun [] ops)[i]? = some r) :
    ∃ b, matRowEqVec eq m i v = some b ∧
      (b = true ↔ r.length = v.length ∧ ∀ (p : Nat) x y, r[p]? = some x → v[p]? = some y → eq x y = true) := by
  obtain ⟨m1, e, h⟩ := matRun_rep dflt ops rep_empty_mat hpre
  rw [hm] at e; cases e
  have hrl := rep_row_len h hr
  unfold matRowEqVec
  by_cases hc : m.ncols = v.length
  · rw [if_neg (by simpa using hc)]
    obtain ⟨b, eb, hb⟩ := matRowEqLoop_spec eq (matRow_rep h hr) (fun j => v[j]?) (s := v) (fun _ _ => rfl) (by omega) m.ncols 0 (by omega)
    exact ⟨b, eb, hb.trans ⟨fun hall => ⟨by omega, fun p x y => hall p x y (Nat.zero_le _)⟩, fun hall p x y _ => hall.2 p x y⟩⟩
  · rw [if_pos hc]
    exact ⟨false, rfl, by simp only [Bool.false_eq_true, false_iff]; exact fun hall => hc (by omega)⟩

/-- C95: the comparison of rows is not always the comparison of their elements: a row with a NaN is equal to itself, but neither to the vector with its
elements nor to the same row of a copy of the matrix, and `==` of the NaN with itself is false. -/
theorem C95_row_equality_nan_violated :
    let m : Mat Dbl := ⟨[.fin 1, .nan], 2⟩
    matRow m 0 = some [.fin 1, .nan] ∧ matRowEq dblEq true m 0 m 0 = some true ∧ matRowEq dblEq false m 0 m 0 = some false ∧
      matRowEqVec dblEq m 0 [.fin 1, .nan] = some false ∧ dblEq .nan .nan = false := by
  decide +kernel

/-- C95: the swap of a row with another sequence of the same length puts the elements of each into the other, and changes no other row. -/
theorem C95_swap_with_sequence (dflt : α) (ops : List (MatOp α)) (hpre : TableRunPre [] ops) (m : Mat α)
    (hm : matRun dflt ⟨[], 0⟩ ops = some m) (i : Nat) (r v : List α) (hr : (tableRun [] ops)[i]? = some r) (hv : v.length = r.length) :
    ∃ m', matSwapSpan m i v = some (m', r) ∧ matRows m' = matRows m ∧ matRow m' i = some v ∧
      ∀ k < matRows m, k ≠ i → matRow m' k = matRow m k := by
  obtain ⟨m1, e, h⟩ := matRun_rep dflt ops rep_empty_mat hpre
  rw [hm] at e; cases e
  have hrl := rep_row_len h hr
  have hlt := lt_of_get hr
  obtain ⟨m', e', h'⟩ := matSwapSpanLoop_rep i m.ncols h hr (v := v) 0 (by omega) (by omega)
  simp only [List.take_zero, List.drop_zero, List.nil_append] at e' h'
  refine ⟨m', ?_, ?_, ?_, ?_⟩
  · unfold matSwapSpan
    rw [if_pos ⟨by rw [rep_rows h]; exact hlt, by omega⟩, show v.length = m.ncols by omega]
    exact e'
  · rw [rep_rows h', rep_rows h, List.length_set]
  · exact matRow_rep h' (by rw [List.getElem?_set_self hlt])
  · intro k hk hne
    rw [rep_rows h] at hk
    rw [matRow_rep h (List.getElem?_eq_getElem hk)]
    exact matRow_rep h' (by rw [List.getElem?_set_ne (Ne.symm hne), List.getElem?_eq_getElem hk])

/-- Two rows of a matrix with equal elements, a row of another matrix, a vector, and a swap. -/
example : TableRunPre ([] : List (List Nat)) [.ctor 2 2 5, .set 1 0 5] ∧
    tableRun ([] : List (List Nat)) [.ctor 2 2 5, .set 1 0 5] = [[5, 5], [5, 5]] ∧
    matRun 0 (⟨[], 0⟩ : Mat Nat) [.ctor 2 2 5, .set 1 0 5] = some ⟨[5, 5, 5, 5], 2⟩ := by
  refine ⟨⟨by simp [TablePre], ⟨[5, 5], rfl, by simp⟩, trivial⟩, rfl, rfl⟩

example : matRowEq (· == ·) true (⟨[5, 5, 5, 5], 2⟩ : Mat Nat) 0 ⟨[5, 5, 5, 5], 2⟩ 1 = some true ∧
    matRowEq (· == ·) false (⟨[5, 5, 5, 5], 2⟩ : Mat Nat) 0 ⟨[5, 6], 2⟩ 0 = some false ∧
    matRowEqVec (· == ·) (⟨[5, 5, 5, 6], 2⟩ : Mat Nat) 1 [5, 6] = some true ∧
    (matSwapSpan (⟨[1, 2, 3, 4], 2⟩ : Mat Nat) 1 [7, 8]).map (fun p => (p.1.data, p.2)) = some ([1, 2, 7, 8], [3, 4]) := by
  decide +kernel

end Gapp.Props
