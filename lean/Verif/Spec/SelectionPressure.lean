import Mathlib.MeasureTheory.Measure.Lebesgue.Basic
/-! # Specification of how likely a candidate is selected -/

namespace Gapp.Spec
open MeasureTheory

/-- The probability that the candidate `i` is selected, if the random number is uniform on `[0, 1)`. -/
noncomputable def chance (select : ℝ → Option Nat) (i : Nat) : ℝ := (volume {r | 0 ≤ r ∧ r < 1 ∧ select r = some i}).toReal

/-- The share of the `i`th number in the sum of the numbers `w`. -/
noncomputable def shareOf (w : List ℝ) (i : Nat) : ℝ := w.getD i 0 / w.sum

/-- The standard deviation of the values of a population. -/
noncomputable def popDeviation (f : List ℝ) : ℝ := Real.sqrt ((f.map (fun x => (x - f.sum / f.length) ^ 2)).sum / f.length)

end Gapp.Spec
