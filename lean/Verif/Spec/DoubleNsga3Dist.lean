import Verif.Spec.DoubleNsga3
import Verif.Spec.DoubleSimplexMaps
import Verif.Spec.Nsga3
/-!
# The distances from the reference lines in binary64 arithmetic
-/

namespace Gapp.Spec
open Gapp.Model

/-- `d` is the squared distance of the normalized `row` from `line`, except for the rounding errors: the error is at most `5200 * m^3 * 2^-53` times the square of the sum of the absolute values of the
normalized row, for `m` objectives. (The tiny numbers are for underflows.) -/
def NearlyLineDistSq (m : Nat) (line ideal nadir row : List Dbl) (d : Dbl) : Prop :=
  ∃ q e : ℚ, d = .fin q ∧ IsLineDistSq (line.map Dbl.val) (normalizedQ ideal nadir row) e ∧
    |q - e| ≤ 5200 * m ^ 3 / 2 ^ 53 * (sizeQ (normalizedQ ideal nadir row) + 2 ^ (-1000 : ℤ)) ^ 2 + 2 * m * 2 ^ (-1075 : ℤ)

end Gapp.Spec
