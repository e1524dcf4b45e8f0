import Verif.Model.Iterators
/-!
# Positions in ranges

A valid iterator is a position: the address of a container and a number between zero and the size of the container.
-/

namespace Gapp.Spec

open Gapp.Model

variable {α : Type}

/-- The container at the address `c` holds the elements `l`. -/
def Holds (mem : ℕ → RangeView α) (c : ℕ) (l : List α) : Prop := (mem c).size = l.length ∧ ∀ i, i < l.length → (mem c).get i = l[i]?

/-- `it` is the position `p` of the container at `c`, which holds `l`. The position `l.length` is the end. Containers have less than `2 ^ 63` elements. -/
def IterAt (mem : ℕ → RangeView α) (c : ℕ) (l : List α) (p : ℕ) (it : StableIter) : Prop :=
  Holds mem c l ∧ l.length < 2 ^ 63 ∧ p ≤ l.length ∧ it = ⟨some c, p⟩

/-- The values of `ptrdiff_t`. -/
def IsPtrdiff (n : ℤ) : Prop := -2 ^ 63 ≤ n ∧ n < 2 ^ 63

end Gapp.Spec
