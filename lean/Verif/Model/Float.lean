import Mathlib.Algebra.Order.Ring.Abs
import Mathlib.Order.WithBot
/-!
# Model of the tolerant floating point comparisons and the Pareto comparison

Source: `/repo/src/utility/math.hpp:38-58, 182-235`, `/repo/src/utility/math.cpp:18-57`.

Floating point numbers are modelled by the elements of an arbitrary linearly ordered commutative ring
together with two infinities; rounding, overflow, signed zeros and NaN are not modelled (`floatCompare`
asserts that its arguments are not NaN). The tolerances are finite.
-/

namespace Gapp.Model

/-- the arguments of math.hpp:107-111: A floating point number that is not a NaN. -/
inductive Flt (K : Type) where
  | ninf
  | fin (x : K)
  | pinf
  deriving DecidableEq, Repr

namespace Flt
variable {K : Type}

/-- the order used in math.hpp:183-210: The order of the floating point numbers, via the order of `K` extended by two infinities. -/
def toW : Flt K → WithBot (WithTop K)
  | ninf => ⊥
  | fin x => ((x : WithTop K) : WithBot (WithTop K))
  | pinf => ((⊤ : WithTop K) : WithBot (WithTop K))

theorem toW_injective : Function.Injective (toW : Flt K → WithBot (WithTop K)) := by
  intro a b h
  cases a <;> cases b
  · rfl
  · exact absurd h.symm (WithBot.coe_ne_bot)
  · exact absurd h.symm (WithBot.coe_ne_bot)
  · exact absurd h (WithBot.coe_ne_bot)
  · exact congrArg fin (WithTop.coe_injective (WithBot.coe_injective h))
  · exact absurd (WithBot.coe_injective h) WithTop.coe_ne_top
  · exact absurd h (WithBot.coe_ne_bot)
  · exact absurd (WithBot.coe_injective h).symm WithTop.coe_ne_top
  · rfl

instance [LinearOrder K] : LinearOrder (Flt K) := LinearOrder.lift' toW toW_injective

end Flt

/-- `math::Tolerances` (math.hpp:38-58): the two global tolerance values. -/
structure Tol (K : Type) where
  abs : K
  rel : K
  deriving DecidableEq, Repr

variable {K : Type} [CommRing K] [LinearOrder K]

/-- `std::max(Tolerances::rel(scale), Tolerances::abs())` (math.hpp:45,49). -/
def Tol.at (t : Tol K) (scale : K) : K := max (t.rel * scale) t.abs

open Flt

/-- math.hpp:182-194 `floatCompare`. `lhs - rhs` of two equal infinities is a NaN, for which both
comparisons are false; of any other pair with an infinity it is an infinity, and the tolerance is finite
(the scale is clamped to the largest finite value). -/
def floatCompare (t : Tol K) : Flt K → Flt K → Ordering
  | fin a, fin b =>
      let diff := a - b
      let tol := t.at (max |a| |b|)
      if diff > tol then .gt else if diff < -tol then .lt else .eq
  | pinf, pinf => .eq
  | ninf, ninf => .eq
  | pinf, _ => .gt
  | _, pinf => .lt
  | ninf, _ => .lt
  | _, ninf => .gt

/-- math.hpp:196-204 `floatIsEqual`; the scale is infinite exactly if an argument is. -/
def floatIsEqual (t : Tol K) : Flt K → Flt K → Bool
  | fin a, fin b => decide (|a - b| ≤ t.at (max |a| |b|))
  | a, b => decide (a = b)

/-- math.hpp:206-214 `floatIsLess`. -/
def floatIsLess (t : Tol K) : Flt K → Flt K → Bool
  | fin a, fin b => decide (b - a > t.at (max |a| |b|))
  | a, b => decide (a < b)

/-- math.hpp:216-224 `floatIsLessAssumeNotGreater`: the scale is only that of `rhs`. For an infinite `lhs`
and a finite `rhs` the difference `rhs - lhs` is an infinity. -/
def floatIsLessAssumeNotGreater (t : Tol K) : Flt K → Flt K → Bool
  | fin a, fin b => decide (b - a > t.at |b|)
  | a, b => decide (a < b)

/-- math.hpp:226-234 `floatIsGreater`. -/
def floatIsGreater (t : Tol K) : Flt K → Flt K → Bool
  | fin a, fin b => decide (a - b > t.at (max |a| |b|))
  | a, b => decide (a > b)

/-- math.hpp:236-240 `floatIsLessEq`. -/
def floatIsLessEq (t : Tol K) (a b : Flt K) : Bool := !floatIsGreater t a b

/-- math.hpp:242-246 `floatIsGreaterEq`. -/
def floatIsGreaterEq (t : Tol K) (a b : Flt K) : Bool := !floatIsLess t a b

/-- math.hpp:248-252 `floatVecIsEqual` (`std::equal` with both ends given). -/
def floatVecIsEqual (t : Tol K) (a b : List (Flt K)) : Bool :=
  a.length == b.length && (a.zip b).all (fun p => floatIsEqual t p.1 p.2)

/-- candidate.hpp:18: A fitness vector. -/
abbrev FVec (K : Type) := List (Flt K)

/-- math.cpp:18-32 `paretoCompareLess`. The asserted precondition `lhs.size() == rhs.size()` is not checked
here: it is a hypothesis of the theorems. -/
def paretoCompareLess (t : Tol K) (lhs rhs : FVec K) : Bool :=
  if (lhs.zip rhs).any (fun p => floatIsLess t p.2 p.1) then false
  else (lhs.zip rhs).any (fun p => floatIsLessAssumeNotGreater t p.1 p.2)

/-- math.cpp:38-54: the loop of `paretoCompare` with its two flags. -/
def paretoCompareLoop (t : Tol K) : Bool → Bool → List (Flt K × Flt K) → Int
  | lhsLower, rhsLower, [] => (if rhsLower then 1 else 0) - (if lhsLower then 1 else 0)
  | lhsLower, rhsLower, p :: ps =>
      match floatCompare t p.1 p.2 with
      | .lt => if rhsLower then 0 else paretoCompareLoop t true rhsLower ps
      | .gt => if lhsLower then 0 else paretoCompareLoop t lhsLower true ps
      | .eq => paretoCompareLoop t lhsLower rhsLower ps

/-- math.cpp:34-57 `paretoCompare`. -/
def paretoCompare (t : Tol K) (lhs rhs : FVec K) : Int := paretoCompareLoop t false false (lhs.zip rhs)

end Gapp.Model
