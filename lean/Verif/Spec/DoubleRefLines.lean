import Verif.Model.DoubleRefLines
import Verif.Spec.DoubleNsga3
/-!
# What the reference lines of NSGA-III are in binary64 arithmetic
-/

namespace Gapp.Spec
open Gapp.Model

/-- A number of the type `double` that is at least 0 and less than 1. -/
def InUnitInterval (x : Dbl) : Prop := ∃ q, x = .fin q ∧ IsDouble q ∧ 0 ≤ q ∧ q < 1

/-- A point with `m` coordinates that is on the unit simplex up to rounding: no coordinate is below `-2^-50` or above 2, and the exact sum of the coordinates differs from 1 by at most `e`. -/
structure OnSimplexUpTo (e : ℚ) (m : Nat) (p : List Dbl) : Prop where
  length : p.length = m
  coord : ∀ x ∈ p, DblBetween x (-2 ^ (-50 : ℤ)) 2
  sum : |(p.map Dbl.val).sum - 1| ≤ e

/-- A point with `m` coordinates that is on the unit simplex up to rounding, where the exact sum of the coordinates differs from 1 by at most `2^-52`. -/
abbrev NearSimplex (m : Nat) (p : List Dbl) : Prop := OnSimplexUpTo (2 ^ (-52 : ℤ)) m p

/-- A vector with `m` coordinates whose length is 1 up to rounding: the exact sum of the squares of the coordinates differs from 1 by at most `(m + 2) * 2^-48`. -/
structure NearUnit (m : Nat) (p : List Dbl) : Prop where
  length : p.length = m
  coord : ∀ x ∈ p, ∃ q, x = .fin q ∧ IsDouble q
  norm : |(p.map (fun x => Dbl.val x ^ 2)).sum - 1| ≤ (m + 2) * 2 ^ (-48 : ℤ)

/-- The vector `v` has the direction of the vector `p` up to rounding: there is a positive number `s` so that every coordinate of `v` differs from the quotient of the coordinate of `p` and `s` by
at most 7 times the 2^-53rd part of that quotient, plus half the smallest positive number of the type `double`. -/
def SameDirection (p v : List Dbl) : Prop :=
  ∃ s : ℚ, 0 < s ∧ ∀ (i : Nat) (x : Dbl), p[i]? = some x → ∃ f : ℚ, v[i]? = some (.fin f) ∧ |f - Dbl.val x / s| ≤ 7 / 2 ^ 53 * |Dbl.val x / s| + 2 ^ (-1075 : ℤ)

/-- What is required of `std::sort` for values of the type `double`. -/
def SortsDoubles (sort : List Dbl → List Dbl) : Prop :=
  ∀ l, (∀ x ∈ l, x ≠ .nan) → (sort l).Perm l ∧ (sort l).Pairwise (fun a b => Dbl.le a b = true)

/-- A value of the type `double` that is at least 1, or infinity. -/
def AtLeastOne (x : Dbl) : Prop := IsDbl x ∧ Dbl.le (.fin 1) x = true

/-- What is required of `std::pow` for the generator: a power of a number that is at least 1, with an exponent that is not negative, is at least 1. -/
def PowAboveOne (pow : Dbl → Dbl → Dbl) : Prop := ∀ x y, AtLeastOne x → Dbl.le (.fin 0) y = true → AtLeastOne (pow x y)

/-- The next `n` points of a quasi-random generator; `none` if the behaviour of one of the calls is undefined. -/
def drawPoints : Nat → QuasiRandom Dbl → Option (List (List Dbl))
  | 0, _ => some []
  | n + 1, g => do
    let r ← qrngNextD g
    let rest ← drawPoints n r.2
    return r.1 :: rest

end Gapp.Spec
