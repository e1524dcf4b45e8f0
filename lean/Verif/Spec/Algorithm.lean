/-! # Specification of sorting and searching -/

namespace Gapp.Spec
variable {α : Type}

/-- No element is less than an earlier one. -/
def SortedBy (comp : α → α → Bool) (vals : List α) : Prop := vals.Pairwise (fun a b => comp b a = false)

/-- A strict weak order. -/
structure StrictWeakOrder (comp : α → α → Bool) : Prop where
  irrefl : ∀ a, comp a a = false
  trans : ∀ a b c, comp a b = true → comp b c = true → comp a c = true
  incomp : ∀ a b c, comp a b = false → comp b a = false → comp b c = false → comp c b = false → comp a c = false

/-- `vals` are the elements of `v` at the positions `idx`. -/
def AtPositions (v : List α) (idx : List Nat) (vals : List α) : Prop := idx.map (fun i => v[i]?) = vals.map some

/-- `k` separates the elements that satisfy `p` from those that do not. -/
def IsPartitionPoint (p : α → Bool) (v : List α) (k : Nat) : Prop :=
  k ≤ v.length ∧ ∀ (i : Nat) (x : α), v[i]? = some x → p x = decide (i < k)

/-- `i` is the first position of the elements that are best: no element is better by `lt`, and all the earlier ones are worse. -/
def IsFirstBest (lt : α → α → Prop) (v : List α) (i : Nat) : Prop :=
  ∃ x, v[i]? = some x ∧ (∀ y ∈ v, ¬ lt x y) ∧ ∀ (j : Nat) (y : α), j < i → v[j]? = some y → lt y x

/-- `i` is the last position of the elements that are best. -/
def IsLastBest (lt : α → α → Prop) (v : List α) (i : Nat) : Prop :=
  ∃ x, v[i]? = some x ∧ (∀ y ∈ v, ¬ lt x y) ∧ ∀ (j : Nat) (y : α), i < j → v[j]? = some y → lt y x

/-- `i` is the first position that satisfies `p`. -/
def IsFirstPosition (p : α → Bool) (v : List α) (i : Nat) : Prop :=
  (∃ x, v[i]? = some x ∧ p x = true) ∧ ∀ (j : Nat) (y : α), j < i → v[j]? = some y → p y = false

end Gapp.Spec
