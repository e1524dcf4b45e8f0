/-! Helper lemmas on lists and `Option` used by several modules. -/

namespace Gapp.ListAux
universe u v
variable {α : Type u} {β : Type v}

/-- Induction on lists from the right. -/
@[elab_as_elim] theorem snoc_induction {motive : List α → Prop} (nil : motive [])
    (append_singleton : ∀ l a, motive l → motive (l ++ [a])) (l : List α) : motive l := by
  have : ∀ l : List α, motive l.reverse := by
    intro l
    induction l with
    | nil => exact nil
    | cons a l ih => rw [List.reverse_cons]; exact append_singleton _ _ ih
  simpa using this l.reverse

/-- `mapM` in `Option` along a list of results. -/
theorem mapM_eq_some_of_forall (f : α → Option β) :
    ∀ (l : List α) (r : List β), l.length = r.length →
      (∀ i (h : i < l.length) (h' : i < r.length), f l[i] = some r[i]) → l.mapM f = some r
  | [], [], _, _ => by simp
  | [], _ :: _, h, _ => by simp at h
  | _ :: _, [], h, _ => by simp at h
  | a :: l, b :: r, h, hf => by
      have h0 := hf 0 (by simp) (by simp)
      simp only [List.getElem_cons_zero] at h0
      have ih := mapM_eq_some_of_forall f l r (by simpa using h) (by
        intro i hi hi'
        have := hf (i + 1) (by simpa using hi) (by simpa using hi')
        simpa using this)
      simp [List.mapM_cons, h0, ih]

/-- `mapM` over an index range. -/
theorem mapM_range_eq_some (f : Nat → Option β) (n : Nat) (r : List β) (hn : n = r.length)
    (hf : ∀ i (h : i < r.length), f i = some r[i]) : (List.range n).mapM f = some r := by
  refine mapM_eq_some_of_forall f _ _ (by simp [hn]) ?_
  intro i h h'
  simpa using hf i h'

/-- Converse of `mapM_eq_some_of_forall`. -/
theorem forall_of_mapM_eq_some (f : α → Option β) :
    ∀ (l : List α) (r : List β), l.mapM f = some r →
      l.length = r.length ∧ ∀ i (h : i < l.length) (h' : i < r.length), f l[i] = some r[i]
  | [], r, h => by
      simp at h; subst h; simp
  | a :: l, r, h => by
      rw [List.mapM_cons] at h
      cases ha : f a with
      | none => simp [ha] at h
      | some b =>
        cases hl : l.mapM f with
        | none => simp [ha, hl] at h
        | some r' =>
          simp [ha, hl] at h
          subst h
          have ih := forall_of_mapM_eq_some f l r' hl
          refine ⟨by simp [ih.1], ?_⟩
          intro i h1 h2
          cases i with
          | zero => simpa using ha
          | succ i => simpa using ih.2 i (by simpa using h1) (by simpa using h2)

end Gapp.ListAux
