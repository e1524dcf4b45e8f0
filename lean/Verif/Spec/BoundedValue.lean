import Verif.Model.BoundedValue
import Verif.Spec.Double
/-!
# Values within bounds
-/

namespace Gapp.Spec

open Gapp.Model

/-- `x` is a number that meets `p`. -/
def IsNumberWith (p : ℚ → Prop) (x : Dbl) : Prop := ∃ q, x = .fin q ∧ p q

/-- A type of bounded values accepts exactly the numbers that meet `p`, and an object of it has the value that it was made of. -/
def AcceptsExactly (i : Interval Dbl) (p : ℚ → Prop) : Prop := ∀ x, IsDbl x → (IsNumberWith p x → boundedValue dblComparison i x = some x) ∧ (¬ IsNumberWith p x → boundedValue dblComparison i x = none)

/-- The same without NaN. -/
def AcceptsExactlyNumbers (i : Interval Dbl) (p : ℚ → Prop) : Prop :=
  ∀ x, IsDbl x → x ≠ .nan → (IsNumberWith p x → boundedValue dblComparison i x = some x) ∧ (¬ IsNumberWith p x → boundedValue dblComparison i x = none)

end Gapp.Spec
