import Mathlib.Data.Rat.Floor
import Mathlib.Data.Nat.Log
import Mathlib.Algebra.Order.Field.Power
/-!
# Binary64 arithmetic

The type `double` of the C++ code (`math.hpp:19-29`, and the genes of the real encoding): the IEEE 754 binary64 numbers with the default rounding (to nearest, ties to even).

The two zeros are the same number here (the library is built with `-fno-signed-zeros`, `/repo/CMakeLists.txt:88`), and there is only one NaN.
-/

namespace Gapp.Model

/-- math.hpp:19-29: A value of the type `double`. -/
inductive Dbl where
  | nan
  | ninf
  | fin (x : ℚ)
  | pinf
  deriving DecidableEq, Repr

/-- the arithmetic of `double`, math.hpp:19-29: `⌊log₂ |x|⌋`, for `x ≠ 0`. -/
def binExp (x : ℚ) : ℤ :=
  let k : ℤ := (Nat.log2 x.num.natAbs : ℤ) - (Nat.log2 x.den : ℤ)
  if (2 : ℚ) ^ k ≤ |x| then k else k - 1

/-- the arithmetic of `double`, math.hpp:19-29: The exponent of the last digit of the numbers around `x`: 53 digits, but no digit below `2^-1074`. -/
def ulpExp (x : ℚ) : ℤ := max (binExp x - 52) (-1074)

/-- the arithmetic of `double`, math.hpp:19-29: The integer nearest to `y`; the even one of the two if it is halfway between them. -/
def nearestEven (y : ℚ) : ℤ :=
  if y - ⌊y⌋ < 1 / 2 then ⌊y⌋
  else if 1 / 2 < y - ⌊y⌋ then ⌊y⌋ + 1
  else if ⌊y⌋ % 2 = 0 then ⌊y⌋ else ⌊y⌋ + 1

/-- the arithmetic of `double`, math.hpp:19-29: Rounding to 53 digits, as if the exponent had no upper bound. -/
def roundQ (x : ℚ) : ℚ := if x = 0 then 0 else (nearestEven (x / 2 ^ ulpExp x) : ℚ) * 2 ^ ulpExp x

/-- the arithmetic of `double`, math.hpp:19-29: The result of an operation whose exact result is `x`. -/
def roundD (x : ℚ) : Dbl :=
  if 2 ^ 1024 ≤ roundQ x then .pinf else if roundQ x ≤ -2 ^ 1024 then .ninf else .fin (roundQ x)

namespace Dbl

/-- math.hpp:188-194: `a < b`. -/
def lt : Dbl → Dbl → Bool
  | fin x, fin y => decide (x < y)
  | ninf, fin _ => true
  | ninf, pinf => true
  | fin _, pinf => true
  | _, _ => false

/-- math.hpp:199-213: `a <= b`. -/
def le : Dbl → Dbl → Bool
  | fin x, fin y => decide (x ≤ y)
  | ninf, fin _ => true
  | ninf, ninf => true
  | ninf, pinf => true
  | fin _, pinf => true
  | pinf, pinf => true
  | _, _ => false

/-- soga_selection.cpp:49: `-a`. -/
def neg : Dbl → Dbl
  | nan => nan
  | ninf => pinf
  | fin x => fin (-x)
  | pinf => ninf

/-- soga_selection.cpp:35: `a + b`. -/
def add : Dbl → Dbl → Dbl
  | fin x, fin y => roundD (x + y)
  | fin _, pinf => pinf
  | fin _, ninf => ninf
  | pinf, fin _ => pinf
  | pinf, pinf => pinf
  | ninf, fin _ => ninf
  | ninf, ninf => ninf
  | _, _ => nan

/-- soga_selection.cpp:124, 157: `a - b`. -/
def sub (a b : Dbl) : Dbl := add a (neg b)

/-- the arithmetic of `double`, math.hpp:19-29: An infinity with the sign of `x`; `0 * inf` is not a number. -/
def scaledInf (x : ℚ) : Dbl := if 0 < x then pinf else if x < 0 then ninf else nan

/-- crossover/real.cpp:33-34: `a * b`. -/
def mul : Dbl → Dbl → Dbl
  | fin x, fin y => roundD (x * y)
  | fin x, pinf => scaledInf x
  | fin x, ninf => scaledInf (-x)
  | pinf, fin y => scaledInf y
  | ninf, fin y => scaledInf (-y)
  | pinf, pinf => pinf
  | ninf, ninf => pinf
  | pinf, ninf => ninf
  | ninf, pinf => ninf
  | _, _ => nan

/-- soga_selection.cpp:157: `a / b`. A division of a nonzero number by zero is an infinity whose sign depends on the sign of the zero, which is not modelled: the result is NaN here. -/
def div : Dbl → Dbl → Dbl
  | fin x, fin y => if y = 0 then nan else roundD (x / y)
  | fin _, pinf => fin 0
  | fin _, ninf => fin 0
  | pinf, fin y => scaledInf y
  | ninf, fin y => scaledInf (-y)
  | _, _ => nan

/-- crossover/real.cpp:33-34: `c + a * b`. The compiler may evaluate it with one rounding if the hardware has such an instruction (`-march=native`, `/repo/CMakeLists.txt:90`): `fused`. -/
def mulAdd (fused : Bool) (a b c : Dbl) : Dbl :=
  match fused, a, b, c with
  | true, fin x, fin y, fin z => roundD (z + x * y)
  | _, a, b, c => add c (mul a b)

/-- math.hpp:188, 199, 203: `std::abs`. -/
def abs : Dbl → Dbl
  | nan => nan
  | fin x => fin |x|
  | _ => pinf

/-- mutation/real.cpp:49, 68, 95: `std::clamp(v, lo, hi)`. -/
def clamp (v lo hi : Dbl) : Dbl := if v.lt lo then lo else if hi.lt v then hi else v

/-- math.hpp:188: `std::min(a, b)`. -/
def min (a b : Dbl) : Dbl := if b.lt a then b else a

/-- math.hpp:188-189: `std::max(a, b)`. -/
def max (a b : Dbl) : Dbl := if a.lt b then b else a

/-- soga_selection.cpp:32-33: `std::isfinite`. -/
def isFinite : Dbl → Bool
  | fin _ => true
  | _ => false

end Dbl

/-- rng.hpp:340-344 `randomReal()`. `k` are the upper 53 bits of the output of the generator; the conversion and the product are exact. -/
def unitReal (k : ℕ) : Dbl := .fin ((k : ℚ) / 2 ^ 53)

/-- rng.hpp:346-351 `randomReal(lbound, ubound)`. `none`: the assertion fails. -/
def randomRealD (fused : Bool) (lbound ubound : Dbl) (k : ℕ) : Option Dbl :=
  if lbound.le ubound then some (Dbl.mulAdd fused (ubound.sub lbound) (unitReal k) lbound) else none

end Gapp.Model
