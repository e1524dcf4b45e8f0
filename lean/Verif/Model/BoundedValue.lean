import Verif.Model.Double
import Mathlib.Data.Nat.Basic
/-!
# Values within bounds

Models `Interval` and `BoundedValue` of `utility/bounded_value.hpp`, for `double` and for `size_t`. A failed assertion is `none`. The assertions are only checked in builds without `NDEBUG`
(utility.hpp:114-120): in a build with it, every value is accepted, and the callers have to keep the preconditions.
-/

namespace Gapp.Model

/-- those used in bounded_value.hpp:21-26: The comparisons of a type. -/
structure Comparison (α : Type) where
  lt : α → α → Bool
  eq : α → α → Bool

/-- bounded_value.hpp:21-26: The comparisons of `double`: all comparisons with a NaN are false. -/
def dblComparison : Comparison Dbl := ⟨Dbl.lt, fun a b => a.le b && b.le a⟩

/-- bounded_value.hpp:21-26: The comparisons of integers. -/
def intComparison : Comparison ℤ := ⟨fun a b => decide (a < b), fun a b => decide (a = b)⟩

/-- bounded_value.hpp:14-31: the data members of `Interval`. -/
structure Interval (α : Type) where
  left : α
  right : α
  leftInclusive : Bool
  rightInclusive : Bool

/-- bounded_value.hpp:20-25 `contains`. -/
def Interval.contains {α : Type} (cmp : Comparison α) (i : Interval α) (value : α) : Bool :=
  if cmp.lt value i.left || (!i.leftInclusive && cmp.eq value i.left) then false
  else if cmp.lt i.right value || (!i.rightInclusive && cmp.eq value i.right) then false
  else true

/-- bounded_value.hpp:33-55: the constructor of `BoundedValue`, and the conversion back. -/
def boundedValue {α : Type} (cmp : Comparison α) (i : Interval α) (value : α) : Option α := if i.contains cmp value then some value else none

/-- bounded_value.hpp:68, 72, 76: The largest finite `double`: `std::numeric_limits<double>::max()`. -/
def maxDouble : ℚ := 2 ^ 1024 - 2 ^ 971

/-- bounded_value.hpp:68, 72, 76: The largest `size_t`. -/
def maxSizeT : ℤ := 2 ^ 64 - 1

/-- bounded_value.hpp:80 `Probability`, 88-89 `Normalized<double>`. -/
def probabilityInterval : Interval Dbl := ⟨.fin 0, .fin 1, true, true⟩

/-- bounded_value.hpp:67-68 `NonNegative<double>`. -/
def nonNegativeInterval : Interval Dbl := ⟨.fin 0, .fin maxDouble, true, true⟩

/-- bounded_value.hpp:71-72 `Negative<double>`. -/
def negativeInterval : Interval Dbl := ⟨.fin (-maxDouble), .fin 0, true, false⟩

/-- bounded_value.hpp:75-76 `Positive<double>`. -/
def positiveInterval : Interval Dbl := ⟨.fin 0, .fin maxDouble, false, true⟩

/-- bounded_value.hpp:75-76 `Positive<size_t>`. -/
def positiveSizeInterval : Interval ℤ := ⟨0, maxSizeT, false, true⟩

/-- ga_info.hpp:77: A `Positive<size_t>` parameter (e.g. ga_info.hpp `population_size`) that is given an `int`: the argument is converted to `size_t` first. -/
def positiveSizeOfInt (n : ℤ) : Option ℤ := boundedValue intComparison positiveSizeInterval (n % 2 ^ 64)

end Gapp.Model
