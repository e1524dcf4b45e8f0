/-!
# Specification of non-dominated sorting

`dom j i`: `j` dominates `i`.
-/

namespace Gapp.Spec

/-- The indices below `n` that remain after removing the first `k` fronts; a front consists of the remaining
indices that no remaining index dominates. -/
def Remaining (dom : Nat → Nat → Prop) (n : Nat) : Nat → Nat → Prop
  | 0, i => i < n
  | k + 1, i => Remaining dom n k i ∧ ∃ j, Remaining dom n k j ∧ dom j i

/-- `i` is in front number `k`. -/
def HasRank (dom : Nat → Nat → Prop) (n k i : Nat) : Prop :=
  Remaining dom n k i ∧ ¬ Remaining dom n (k + 1) i

/-- `res` is a list of (index, rank) pairs with every index below `n` exactly once, ordered by rank, in which every
rank is right. -/
def IsNdSort (dom : Nat → Nat → Prop) (n : Nat) (res : List (Nat × Nat)) : Prop :=
  (res.map (·.1)).Perm (List.range n) ∧
  res.Pairwise (fun a b => a.2 ≤ b.2) ∧
  ∀ i r, (i, r) ∈ res → HasRank dom n r i

end Gapp.Spec
