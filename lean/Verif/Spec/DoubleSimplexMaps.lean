import Verif.Model.DoubleSimplexMaps
import Verif.Spec.DoubleRefLines
import Verif.Spec.RefLines
/-!
# What the other mappings to the simplex and the sparse subset are in binary64 arithmetic
-/

namespace Gapp.Spec
open Gapp.Model

/-- What is required of `std::pow` for the root mapping: a power of a number between 0 and 1, with an exponent that is not negative, is between 0 and 1. -/
def PowInUnit (pow : Dbl → Dbl → Dbl) : Prop := ∀ x y, DblBetween x 0 1 → Dbl.le (.fin 0) y = true → DblBetween (pow x y) 0 1

/-- What is required of `std::log`: the logarithm of a normal number below 1 is negative, at least `-1000` and at most `-2^-54`. (The exact ones are at least `-709` and at most `-2^-53`.) -/
def LogBelowOne (log : Dbl → Dbl) : Prop := ∀ x : ℚ, IsDouble x → 2 ^ (-1022 : ℤ) ≤ x → x < 1 → ∃ y, log (.fin x) = .fin y ∧ IsDouble y ∧ -1000 ≤ y ∧ y ≤ -2 ^ (-54 : ℤ)

/-- `s` is the sum of the values, in some order and with some grouping. -/
inductive ReduceSum : List Dbl → Dbl → Prop
  | single (x : Dbl) : ReduceSum [x] x
  | add {l l1 l2 : List Dbl} {a b : Dbl} (h1 : ReduceSum l1 a) (h2 : ReduceSum l2 b) (h : l.Perm (l1 ++ l2)) : ReduceSum l (Dbl.add a b)

/-- The contract of `std::reduce` from 0. -/
def ReduceContract (sum : List Dbl → Dbl) : Prop := ∀ l, ReduceSum (.fin 0 :: l) (sum l)

/-- `s` is the sum of the squares of the values, in some order and with some grouping; a square may be added without being rounded. -/
inductive SquareSum : List Dbl → Dbl → Prop
  | single (x : Dbl) : SquareSum [x] (Dbl.mul x x)
  | add {l l1 l2 : List Dbl} {a b : Dbl} (h1 : SquareSum l1 a) (h2 : SquareSum l2 b) (h : l.Perm (l1 ++ l2)) : SquareSum l (Dbl.add a b)
  | fused {l l1 : List Dbl} {x a : Dbl} (h1 : SquareSum l1 a) (h : l.Perm (x :: l1)) : SquareSum l (Dbl.mulAdd true x x a)

/-- The contract of `std::transform_reduce` from 0 with squares. -/
def SquareContract (sumSq : List Dbl → Dbl) : Prop := ∀ l, SquareSum (.fin 0 :: l) (sumSq l)

/-- The squared distance of two points, without rounding. -/
def sqDistQ (a b : List Dbl) : ℚ := sqDist (a.map Dbl.val) (b.map Dbl.val)

/-- The squared distance of `q` from the closest of the points is at most that of `p`, up to rounding. The points have `m` coordinates. -/
def NearlyAsFar (m : Nat) (points : List (List Dbl)) (q p : List Dbl) : Prop :=
  ∃ a ∈ points, ∀ b ∈ points, (1 - (m + 3) / 2 ^ 52) * sqDistQ a q ≤ (1 + (m + 3) / 2 ^ 52) * sqDistQ b p + (m + 1) * 2 ^ (-1073 : ℤ)

/-- `picked` are `n` of the candidates. Each of them, except the first one, was one of the furthest from those picked before it, of the candidates that were left, up to rounding. -/
def NearlySparse (m : Nat) (cands : List (List Dbl)) (n : Nat) (picked : List (List Dbl)) : Prop :=
  picked.length = n ∧ ∃ left, (picked ++ left).Perm cands ∧
    ∀ (i : Nat) (p : List Dbl), 0 < i → picked[i]? = some p → ∀ q ∈ picked.drop i ++ left, NearlyAsFar m (picked.take i) q p

end Gapp.Spec
