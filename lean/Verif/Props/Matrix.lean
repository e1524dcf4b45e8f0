import Verif.Proofs.Matrix
/-!
# C46: matrices

A program starts with an empty matrix. `tableRun [] ops` is the table that it should have built.
-/

namespace Gapp.Props

open Gapp.Model Gapp.Spec

variable {α : Type}

/-- C46: if the preconditions of the operations of a program hold, then the program runs, and afterwards the matrix has the rows of the table: the same
number of rows and columns, `operator[]` yields the rows, `operator()` and the subscripts of rows yield the elements and `column` the columns. -/
theorem C46_refines_table (dflt : α) (ops : List (MatOp α)) (hpre : TableRunPre [] ops) :
    ∃ m, matRun dflt ⟨[], 0⟩ ops = some m ∧
      m.data.length = matRows m * m.ncols ∧
      matRows m = (tableRun [] ops).length ∧
      (∀ i r, (tableRun [] ops)[i]? = some r → r.length = m.ncols ∧ matRow m i = some r ∧
        ∀ j < m.ncols, matGet m i j = r[j]? ∧ matRowGet m i j = r[j]?) ∧
      ∀ j < m.ncols, ∃ l, matColumn m j = some l ∧ l.length = matRows m ∧ ∀ i < matRows m, l[i]? = matGet m i j := by
  obtain ⟨m, e, h⟩ := matRun_rep dflt ops rep_empty_mat hpre
  refine ⟨m, e, by rw [rep_rows h, rep_len h], rep_rows h, ?_, ?_⟩
  · intro i r hi
    refine ⟨rep_row_len h hi, matRow_rep h hi, fun j hj => ⟨matGet_rep h hi hj, ?_⟩⟩
    unfold matRowGet
    rw [matRow_rep h hi]; rfl
  · intro j hj
    obtain ⟨l, e', hl, hk⟩ := matColumn_rep h hj
    refine ⟨l, e', by rw [hl, rep_rows h], fun i hi => ?_⟩
    rw [rep_rows h] at hi
    rw [hk i hi, matGet_rep h (List.getElem?_eq_getElem hi) hj, List.getElem?_eq_getElem hi]
    rfl

/-- C46: writing one element changes no other. -/
theorem C46_write_changes_one_element (m : Mat α) (i j : Nat) (a : α) (m' : Mat α) (h : matSet m i j a = some m') :
    matRows m' = matRows m ∧ m'.ncols = m.ncols ∧ matGet m' i j = some a ∧
      ∀ k l, (k, l) ≠ (i, j) → matGet m' k l = matGet m k l := by
  unfold matSet at h
  split at h
  · next hc =>
    cases h
    have hrows : matRows { m with data := m.data.set (i * m.ncols + j) a } = matRows m := by
      unfold matRows
      dsimp only
      have : (m.data.set (i * m.ncols + j) a).isEmpty = m.data.isEmpty := by
        cases m.data <;> cases i * m.ncols + j <;> rfl
      rw [List.length_set, this]
    refine ⟨hrows, rfl, ?_, ?_⟩
    · unfold matGet
      rw [hrows, if_pos ⟨hc.1, hc.2.1⟩]
      show (m.data.set _ _)[_]? = _
      rw [List.getElem?_set_self hc.2.2]
    · intro k l hne
      unfold matGet
      rw [hrows]
      by_cases hkl : k < matRows m ∧ l < m.ncols
      · rw [if_pos hkl, if_pos hkl]
        show (m.data.set _ _)[k * m.ncols + l]? = _
        rw [List.getElem?_set_ne]
        intro heq
        apply hne
        have h1 : (m.ncols * i + j) / m.ncols = i := by
          rw [Nat.mul_add_div (by omega), Nat.div_eq_of_lt hc.2.1, Nat.add_zero]
        have h2 : (m.ncols * k + l) / m.ncols = k := by
          rw [Nat.mul_add_div (by omega), Nat.div_eq_of_lt hkl.2, Nat.add_zero]
        have hik : i = k := by rw [← h1, ← h2, Nat.mul_comm, heq, Nat.mul_comm]
        subst hik
        rw [Prod.mk.injEq]
        exact ⟨rfl, by omega⟩
      · rw [if_neg hkl, if_neg hkl]
  · cases h

/-- C46: `==` of two matrices that were built by two programs compares the tables. -/
theorem C46_equality [BEq α] [LawfulBEq α] (dflt : α) (ops ops' : List (MatOp α)) (hpre : TableRunPre [] ops) (hpre' : TableRunPre [] ops')
    (m m' : Mat α) (hm : matRun dflt ⟨[], 0⟩ ops = some m) (hm' : matRun dflt ⟨[], 0⟩ ops' = some m') :
    matEq m m' = true ↔ tableRun [] ops = tableRun [] ops' := by
  obtain ⟨m1, e, h⟩ := matRun_rep dflt ops rep_empty_mat hpre
  obtain ⟨m2, e', h'⟩ := matRun_rep dflt ops' rep_empty_mat hpre'
  rw [hm] at e; cases e
  rw [hm'] at e'; cases e'
  generalize tableRun [] ops = t at h ⊢
  generalize tableRun [] ops' = t' at h' ⊢
  have hemp : ∀ {m : Mat α} {t : List (List α)}, MatRep m t → (m.data.isEmpty = true ↔ t = []) := by
    intro m t h
    rw [List.isEmpty_iff]
    refine ⟨fun h0 => ?_, fun h0 => by rw [h.data, h0]; rfl⟩
    apply Classical.byContradiction
    intro hne
    have h1 := rep_len h
    have h2 : 0 < t.length * m.ncols := Nat.mul_pos (List.length_pos_iff.mpr hne) (h.pos hne)
    rw [h0] at h1
    simp only [List.length_nil] at h1
    omega
  unfold matEq
  simp only [Bool.or_eq_true, Bool.and_eq_true, beq_iff_eq]
  constructor
  · rintro (⟨h1, h2⟩ | ⟨⟨h1, h2⟩, h3⟩)
    · rw [(hemp h).mp h1, (hemp h').mp h2]
    · rw [rep_rows h, rep_rows h'] at h1
      apply List.ext_getElem h1
      intro i hi hi'
      have e1 := matRow_rep h (List.getElem?_eq_getElem hi)
      have e2 := matRow_rep h' (List.getElem?_eq_getElem hi')
      have : m = m' := by
        cases m; cases m'; cases h2; cases h3; rfl
      rw [this, e2] at e1
      exact (Option.some.inj e1).symm
  · intro heq
    subst heq
    cases t with
    | nil => exact Or.inl ⟨(hemp h).mpr rfl, (hemp h').mpr rfl⟩
    | cons r t =>
      right
      refine ⟨⟨by rw [rep_rows h, rep_rows h'], ?_⟩, by rw [h.data, h'.data]⟩
      rw [← (rect_cons h.rect).1, ← (rect_cons h'.rect).1]

/-- A program with two rows, a third one, and a swap. -/
example : TableRunPre ([] : List (List Nat))
    [.ofRows [[1, 2], [3, 4]], .append [5, 6], .swapRows 0 2, .set 1 1 7, .copyRow 2 1, .resize 4 9, .popBack, .range 1 3] := by
  refine ⟨?_, ?_, ?_, ?_, ?_, ?_, ?_, ?_, trivial⟩
  · intro r hr r' hr'
    have e1 : r = [1, 2] ∨ r = [3, 4] := by simpa using hr
    have e2 : r' = [1, 2] ∨ r' = [3, 4] := by simpa using hr'
    rcases e1 with rfl | rfl <;> rcases e2 with rfl | rfl <;> simp
  · refine ⟨by simp, fun r hr => ?_⟩
    have e1 : r = [1, 2] ∨ r = [3, 4] := by simpa [tableStep] using hr
    rcases e1 with rfl | rfl <;> rfl
  · simp [TablePre, tableStep]
  · exact ⟨[3, 4], rfl, by simp⟩
  · simp [TablePre, tableStep]
  · right; simp [tableStep]
  · simp [TablePre, tableStep]
  · right; simp [tableStep]

example : tableRun ([] : List (List Nat))
    [.ofRows [[1, 2], [3, 4]], .append [5, 6], .swapRows 0 2, .set 1 1 7, .copyRow 2 1, .resize 4 9, .popBack, .range 1 3] =
      [[3, 7], [3, 7]] := rfl

example : ∃ m', matSet (⟨[1, 2, 3, 4], 2⟩ : Mat Nat) 1 0 7 = some m' := ⟨⟨[1, 2, 7, 4], 2⟩, rfl⟩

/-- C46: a matrix with rows of zero columns has no rows, whatever number of them it was constructed with. -/
theorem C46_zero_columns_lose_rows (r : Nat) (a : α) : matRows (matCtor r 0 a) = 0 := by
  unfold matRows matCtor
  rw [Nat.mul_zero]
  rfl

/-- C46: `resize` to another number of columns does not keep the elements in their rows and columns: `{{1, 2}, {3, 4}}` resized to two rows of three
columns has the 3 in the first row. -/
theorem C46_resize_columns_moves_elements :
    let m := matResize (⟨[1, 2, 3, 4], 2⟩ : Mat Nat) 2 3 0
    matRow m 0 = some [1, 2, 3] ∧ matRow m 1 = some [4, 0, 0] := ⟨rfl, rfl⟩

/-- C46: the elements of a resized matrix are those of the old one in the order of the rows. -/
theorem C46_resize_keeps_order (m : Mat α) (r c : Nat) (a : α) :
    (matResize m r c a).data.length = r * c ∧
      ∀ i < r * c, (matResize m r c a).data[i]? = some (m.data[i]?.getD a) := by
  unfold matResize
  refine ⟨by simp; omega, fun i hi => ?_⟩
  show (m.data.take (r * c) ++ _)[i]? = _
  by_cases h : i < m.data.length
  · rw [List.getElem?_append_left (by simp; omega), List.getElem?_take, if_pos hi, List.getElem?_eq_getElem h]
    rfl
  · rw [List.getElem?_append_right (by simp; omega), List.getElem?_replicate, if_pos (by simp; omega), List.getElem?_eq_none (by omega)]
    rfl

end Gapp.Props
