import Mathlib.MeasureTheory.Integral.Lebesgue.Basic
import Mathlib.MeasureTheory.Measure.Lebesgue.Basic
/-! # Specification: probabilities of the results of independent draws -/

namespace Gapp.Spec
open MeasureTheory

open Classical in
/-- The probability that `count` independent draws from the distribution `μ` satisfy `event`: the integral over the first draw of the probability that the other ones satisfy the rest of it. -/
noncomputable def drawProb {α : Type} [MeasurableSpace α] (μ : Measure α) : (count : Nat) → (event : List α → Prop) → ENNReal
  | 0, event => if event [] then 1 else 0
  | count + 1, event => ∫⁻ x, drawProb μ count (fun draws => event (x :: draws)) ∂μ

/-- The probability that `f` returns `k`, given that it returns a value after at most `count` draws from `μ`. -/
noncomputable def resultProb {α : Type} [MeasurableSpace α] (μ : Measure α) (count : Nat) (f : List α → Option Int) (k : Nat) : ℝ :=
  (drawProb μ count (fun draws => f draws = some (k : Int))).toReal / (drawProb μ count (fun draws => (f draws).isSome)).toReal

/-- The uniform distribution on `[0, 1)`. -/
noncomputable def unitUniform : Measure ℝ := volume.restrict (Set.Ico 0 1)

end Gapp.Spec
