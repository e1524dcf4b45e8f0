import Verif.Model.Double
import Verif.Spec.Double
import Verif.Spec.Stats
/-! # Specification of the statistics in binary64 arithmetic -/

namespace Gapp.Spec
open Gapp.Model

/-- `x` is the smallest of the values, infinities included. -/
def IsMinD (vals : List Dbl) (x : Dbl) : Prop := x ∈ vals ∧ ∀ y ∈ vals, Dbl.le x y = true

/-- `x` is the largest of the values, infinities included. -/
def IsMaxD (vals : List Dbl) (x : Dbl) : Prop := x ∈ vals ∧ ∀ y ∈ vals, Dbl.le y x = true

/-- The values are the numbers `qs`, none of them above `2^k` in absolute value. -/
def AreNumbers (k : ℤ) (vals : List Dbl) (qs : List ℚ) : Prop := vals = qs.map Dbl.fin ∧ ∀ q ∈ qs, IsDouble q ∧ |q| ≤ 2 ^ k

/-- The arithmetic mean. -/
def meanQ (vals : List ℚ) : ℚ := vals.sum / vals.length

/-- The mean of the magnitudes. -/
def meanAbsQ (vals : List ℚ) : ℚ := (vals.map (fun x => |x|)).sum / vals.length

/-- The sum of the squared differences from `c`. -/
def squaresQ (vals : List ℚ) (c : ℚ) : ℚ := (vals.map (fun x => (x - c) ^ 2)).sum

/-- The sample variance. -/
def varianceQ (vals : List ℚ) : ℚ := squaresQ vals (meanQ vals) / (vals.length - 1)

/-- How far the computed mean of `n` values may be from their mean: `2n + 6` times `2^-53` of the mean magnitude (and `6n` times half of the least positive number). -/
def meanErrorQ (vals : List ℚ) : ℚ := (2 * vals.length + 6) / 2 ^ 53 * meanAbsQ vals + 6 * vals.length * 2 ^ (-1075 : ℤ)

/-- How far the computed variance may be from the variance: `2n + 11` times `2^-53` of it, the effect of the error of the mean, and `12n` times half of the least positive number. -/
def varianceErrorQ (vals : List ℚ) : ℚ :=
  (2 * vals.length + 11) / 2 ^ 53 * varianceQ vals + 3 * meanErrorQ vals ^ 2 + 12 * vals.length * 2 ^ (-1075 : ℤ)

/-- A number that is not negative, or infinity. -/
def NonnegOrInf : Dbl → Prop
  | .fin q => 0 ≤ q
  | .pinf => True
  | _ => False

/-- One of the values is an infinity or a NaN. -/
def HasNonFinite (vals : List Dbl) : Prop := ∃ x ∈ vals, Dbl.isFinite x = false

/-- The mean of the values of an objective: close to the exact mean if the values are numbers; infinite if some of them are infinite, all with the same sign. -/
def MeanSpec (vals : List Dbl) (x : Dbl) : Prop :=
  (∀ qs, AreNumbers 1020 vals qs → ∃ r, x = .fin r ∧ |r - meanQ qs| ≤ meanErrorQ qs) ∧
  (∀ i, i = Dbl.pinf ∨ i = Dbl.ninf → i ∈ vals → (∀ y ∈ vals, y = i ∨ ∃ q, y = .fin q ∧ |q| ≤ 2 ^ (1020 : ℤ)) → x = i)

/-- The variance of the values of an objective: zero for one candidate; never negative; close to the exact variance if the values are not too large;
not a number if some of the values are infinite. -/
def VarianceSpec (vals : List Dbl) (x : Dbl) : Prop :=
  (vals.length = 1 → x = .fin 0) ∧
  (∀ qs, AreNumbers 1020 vals qs → NonnegOrInf x) ∧
  (2 ≤ vals.length → ∀ qs, AreNumbers 400 vals qs → ∃ r, x = .fin r ∧ |r - varianceQ qs| ≤ varianceErrorQ qs) ∧
  (2 ≤ vals.length → HasNonFinite vals → x = .nan)

/-- The standard deviation of the values of an objective, in the same way. -/
def StdDevSpec (vals : List Dbl) (x : Dbl) : Prop :=
  (vals.length = 1 → x = .fin 0) ∧
  (∀ qs, AreNumbers 1020 vals qs → NonnegOrInf x) ∧
  (2 ≤ vals.length → ∀ qs, AreNumbers 400 vals qs → ∀ lo hi : ℚ, 0 ≤ lo → 0 ≤ hi → IsDouble lo → IsDouble hi →
    lo ^ 2 ≤ varianceQ qs - varianceErrorQ qs → varianceQ qs + varianceErrorQ qs ≤ hi ^ 2 → ∃ r, x = .fin r ∧ lo ≤ r ∧ r ≤ hi) ∧
  (2 ≤ vals.length → HasNonFinite vals → x = .nan)

/-- What is required of `std::sqrt`: the result is between two numbers if the argument is between their squares; the root of infinity is infinity, and the root of a NaN is a NaN. -/
structure SqrtContract (sqrt : Dbl → Dbl) : Prop where
  between : ∀ x lo hi : ℚ, 0 ≤ lo → IsDouble lo → IsDouble hi → 0 ≤ hi → lo ^ 2 ≤ x → x ≤ hi ^ 2 → ∃ y, sqrt (.fin x) = .fin y ∧ lo ≤ y ∧ y ≤ hi
  pinf : sqrt .pinf = .pinf
  nan : sqrt .nan = .nan

end Gapp.Spec
