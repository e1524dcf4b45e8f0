import Mathlib.Data.Set.Card
import Mathlib.Data.Finset.Prod
import Mathlib.Data.List.Count
import Mathlib.Algebra.BigOperators.Group.Finset.Basic
import Verif.Model.Selection
import Verif.Proofs.ListAux

/-!
# Counting the outcomes of a sequence of random indices
-/

namespace Gapp.Proofs.SelectionCount

/-- The lists of the given length with elements of the set. -/
def listsOf (s : Finset Nat) : Nat → Finset (List Nat)
  | 0 => {[]}
  | t + 1 => (s ×ˢ listsOf s t).image (fun p => p.1 :: p.2)

theorem mem_listsOf (s : Finset Nat) : ∀ (t : Nat) (l : List Nat), l ∈ listsOf s t ↔ l.length = t ∧ ∀ d ∈ l, d ∈ s := by
  intro t
  induction t with
  | zero => intro l; simp [listsOf]; intro h; subst h; simp
  | succ t ih =>
    intro l
    simp only [listsOf, Finset.mem_image, Finset.mem_product, Prod.exists]
    constructor
    · rintro ⟨a, r, ⟨ha, hr⟩, rfl⟩
      obtain ⟨h1, h2⟩ := (ih r).mp hr
      refine ⟨by simp [h1], ?_⟩
      intro d hd
      rcases List.mem_cons.mp hd with rfl | hd
      · exact ha
      · exact h2 d hd
    · rintro ⟨h1, h2⟩
      cases l with
      | nil => simp at h1
      | cons a r =>
        exact ⟨a, r, ⟨h2 a (by simp), (ih r).mpr ⟨by simpa using h1, fun d hd => h2 d (List.mem_cons_of_mem _ hd)⟩⟩, rfl⟩

theorem card_listsOf (s : Finset Nat) (t : Nat) : (listsOf s t).card = s.card ^ t := by
  induction t with
  | zero => simp [listsOf]
  | succ t ih =>
    simp only [listsOf]
    rw [Finset.card_image_of_injective, Finset.card_product, ih, pow_succ, Nat.mul_comm]
    rintro ⟨a, b⟩ ⟨c, d⟩ h
    simpa using h

/-- The positions of the elements with the property. -/
def positions {α : Type} (f : List α) (p : α → Bool) : Finset Nat := (Finset.range f.length).filter (fun k => (f[k]?).any p)

theorem mem_positions {α : Type} (f : List α) (p : α → Bool) (k : Nat) : k ∈ positions f p ↔ ∃ x, f[k]? = some x ∧ p x = true := by
  simp only [positions, Finset.mem_filter, Finset.mem_range, Option.any_eq_true]
  constructor
  · rintro ⟨_, x, h⟩; exact ⟨x, h⟩
  · rintro ⟨x, h1, h2⟩
    exact ⟨(List.getElem?_eq_some_iff.mp h1).1, x, h1, h2⟩

theorem card_positions {α : Type} (f : List α) (p : α → Bool) : (positions f p).card = f.countP p := by
  induction f using Gapp.ListAux.snoc_induction with
  | nil => simp [positions]
  | append_singleton f a ih =>
    have e : positions (f ++ [a]) p = if p a then insert f.length (positions f p) else positions f p := by
      ext k
      have hk : k ∈ positions (f ++ [a]) p ↔ k ∈ positions f p ∨ (k = f.length ∧ p a = true) := by
        rw [mem_positions, mem_positions]
        rcases Nat.lt_trichotomy k f.length with h | h | h
        · rw [List.getElem?_append_left h]
          constructor
          · exact Or.inl
          · rintro (h' | h')
            · exact h'
            · omega
        · subst h
          simp
        · rw [List.getElem?_eq_none (by simp; omega), List.getElem?_eq_none (by omega)]
          simp
          omega
      split
      · rename_i hp
        rw [hk, Finset.mem_insert]
        simp [hp, or_comm]
      · rename_i hp
        rw [hk]
        simp [hp]
    rw [e, List.countP_append, List.countP_singleton, ← ih]
    split
    · rw [Finset.card_insert_of_notMem]
      rw [mem_positions]
      simp
    · rfl

end Gapp.Proofs.SelectionCount
