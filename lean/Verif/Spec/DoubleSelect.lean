import Verif.Spec.Double
import Verif.Model.DoubleSelect
import Mathlib.Algebra.BigOperators.Group.List.Basic
import Mathlib.Data.Finset.Range
import Mathlib.Data.Finset.Card
import Mathlib.Data.Finset.Filter
/-!
# Selection by weights with rounding errors
-/

namespace Gapp.Spec
open Gapp.Model

/-- `s` is the sum of the quotients of the values in `l` and `n`, added to 0 in some order and with some grouping. The quotients may be products with the reciprocal of `n`
(`recip`); then a product may be added without being rounded. -/
inductive QuotientSum (recip : Bool) (n : Dbl) : List Dbl → Dbl → Prop
  | zero : QuotientSum recip n [] (.fin 0)
  | term (x : Dbl) : QuotientSum recip n [x] (divR recip x n)
  | add {l l1 l2 : List Dbl} {a b : Dbl} (h1 : QuotientSum recip n l1 a) (h2 : QuotientSum recip n l2 b) (h : l.Perm (l1 ++ l2)) : QuotientSum recip n l (Dbl.add a b)
  | fused {l l1 : List Dbl} {x a : Dbl} (hr : recip = true) (h1 : QuotientSum recip n l1 a) (h : l.Perm (x :: l1)) : QuotientSum recip n l (Dbl.mulAdd true x (Dbl.div (.fin 1) n) a)

/-- The contract of `std::transform_reduce` from 0 with `std::plus` and a division by `n`. -/
def SumContract (sumQ : Dbl → List Dbl → Dbl) : Prop := ∀ n l, ∃ recip, QuotientSum recip n l (sumQ n l)

/-- The contract of `std::exp`: the result is not negative, `exp(0)` is 1, and a greater number has not a smaller result. -/
structure ExpContract (exp : Dbl → Dbl) : Prop where
  nan : exp .nan = .nan
  isDbl : ∀ x, IsDbl (exp x)
  nonneg : ∀ x, x ≠ .nan → Dbl.le (.fin 0) (exp x)
  zero : exp (.fin 0) = .fin 1
  mono : ∀ x y, Dbl.le x y → Dbl.le (exp x) (exp y)

/-- The contract of `std::lerp`: exact at the ends, and monotonic. -/
structure LerpContract (lerp : Dbl → Dbl → Dbl → Dbl) : Prop where
  isDbl : ∀ a b t, IsDbl (lerp a b t)
  zero : ∀ a b : ℚ, IsDouble a → IsDouble b → lerp (.fin a) (.fin b) (.fin 0) = .fin a
  one : ∀ a b : ℚ, IsDouble a → IsDouble b → lerp (.fin a) (.fin b) (.fin 1) = .fin b
  mono : ∀ a b s t : ℚ, IsDouble a → IsDouble b → a ≤ b → 0 ≤ s → s ≤ t → t ≤ 1 → Dbl.le (lerp (.fin a) (.fin b) (.fin s)) (lerp (.fin a) (.fin b) (.fin t))

/-- The part of the `2^53` equally likely draws for which `i` is selected. -/
def selectionShare (select : ℕ → Option ℕ) (i : ℕ) : ℚ := (((Finset.range (2 ^ 53)).filter (fun k => select k = some i)).card : ℚ) / 2 ^ 53

/-- The part of the weight of the candidate `i` in the sum of the weights; all have the same part if the weights are 0. -/
def weightShare (weights : List ℚ) (w : ℚ) : ℚ := if weights.sum = 0 then 1 / weights.length else w / weights.sum

/-- Each draw selects a candidate, each candidate is selected with a probability that differs from its part of the weights by at most `ε`, and a candidate
whose weight is 0 is selected at most for the draw 0, if not all weights are 0. -/
structure SelectsNearlyByWeight (weights : List ℚ) (ε : ℚ) (select : ℕ → Option ℕ) : Prop where
  inRange : ∀ k, k < 2 ^ 53 → ∃ i, select k = some i ∧ i < weights.length
  share : ∀ (i : ℕ) (w : ℚ), weights[i]? = some w → |selectionShare select i - weightShare weights w| ≤ ε
  zero : weights.sum ≠ 0 → ∀ (i : ℕ), weights[i]? = some 0 → ∀ k, 0 < k → k < 2 ^ 53 → select k ≠ some i

end Gapp.Spec
