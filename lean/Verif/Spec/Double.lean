import Verif.Model.Double
import Verif.Model.Mutation
/-!
# What the binary64 numbers are
-/

namespace Gapp.Spec
open Gapp.Model

/-- The numbers with at most 53 binary digits, none of them below `2^-1074`. -/
def IsBinary53 (x : ℚ) : Prop := ∃ m e : ℤ, |m| ≤ 2 ^ 53 ∧ -1074 ≤ e ∧ x = (m : ℚ) * 2 ^ e

/-- The finite numbers of the type `double`. -/
def IsDouble (x : ℚ) : Prop := IsBinary53 x ∧ |x| < 2 ^ 1024

/-- A value of the type `double`: the numbers among them are binary64 numbers. -/
def IsDbl : Dbl → Prop
  | .fin x => IsDouble x
  | _ => True

/-- `x` is in the interval `[lo, hi]` of numbers; it is neither a NaN nor an infinity. -/
def DblBetween (x : Dbl) (lo hi : ℚ) : Prop := ∃ q, x = .fin q ∧ IsDouble q ∧ lo ≤ q ∧ q ≤ hi

/-- The bounds of a gene are two numbers in order, neither of which is above `2^k` in absolute value. -/
def SaneBounds (k : ℤ) (b : GeneBounds Dbl) : Prop :=
  ∃ lo hi, b = ⟨.fin lo, .fin hi⟩ ∧ IsDouble lo ∧ IsDouble hi ∧ lo ≤ hi ∧ |lo| ≤ 2 ^ k ∧ |hi| ≤ 2 ^ k

/-- The gene is a number within the bounds; in particular, it is neither a NaN nor an infinity. -/
def GeneWithin (b : GeneBounds Dbl) (g : Dbl) : Prop := ∃ lo hi, b = ⟨.fin lo, .fin hi⟩ ∧ DblBetween g lo hi

/-- There are as many bounds as genes, and every gene is a number within its bounds. -/
def LegalDoubles (bounds : List (GeneBounds Dbl)) (l : List Dbl) : Prop :=
  l.length = bounds.length ∧ ∀ (i : Nat) (b : GeneBounds Dbl) (g : Dbl), bounds[i]? = some b → l[i]? = some g → GeneWithin b g

/-- What is required of `std::pow`: its result is not a NaN and not negative if the base is not negative; it is in `[0, 1]` if the base is in `[0, 1]` and the exponent
not negative, or the base is at least 1 and the exponent not positive. (Nothing is said about its accuracy.) -/
structure PowContract (pow : Dbl → Dbl → Dbl) : Prop where
  isDbl : ∀ x y, IsDbl (pow x y)
  nonneg : ∀ x y, Dbl.le (.fin 0) x → y ≠ .nan → Dbl.le (.fin 0) (pow x y)
  small : ∀ x y, Dbl.le (.fin 0) x → Dbl.le x (.fin 1) → Dbl.le (.fin 0) y → Dbl.le (pow x y) (.fin 1)
  large : ∀ x y, Dbl.le (.fin 1) x → Dbl.le y (.fin 0) → Dbl.le (pow x y) (.fin 1)

/-- Numbers that differ by less than the smallest normal number `2^-1022` are taken to be equal, as they are with every absolute tolerance from there on. -/
def EqualIfTiny (eq : Dbl → Dbl → Bool) : Prop := ∀ x y : ℚ, |x - y| < 2 ^ (-1022 : ℤ) → eq (.fin x) (.fin y) = true

end Gapp.Spec
