/-!
# Specification vocabulary for the random number generators
-/

namespace Gapp.Spec

/-- `f` applied `n` times, by plain recursion. -/
def times {α : Type} (f : α → α) : Nat → α → α
  | 0, x => x
  | n + 1, x => times f n (f x)

/-- `n` is the period of the sequence `x, f x, f (f x), …`: the smallest positive number of steps that leads back to `x`. -/
def IsPeriod {α : Type} (f : α → α) (x : α) (n : Nat) : Prop :=
  0 < n ∧ times f n x = x ∧ ∀ m, 0 < m → m < n → times f m x ≠ x

/-- Two sequences of states generated by `f` have no common element within the first `n` steps. -/
def StreamsDisjoint {α : Type} (f : α → α) (x y : α) (n : Nat) : Prop :=
  ∀ a b, a < n → b < n → times f a x ≠ times f b y

end Gapp.Spec
