import Verif.Model.Benchmarks
/-!
# Optima
-/

namespace Gapp.Spec

open Gapp.Model

/-- `a` is at least as good as `b` in all objectives and better in one. -/
def Better (a b : List ℝ) : Prop :=
  a.length = b.length ∧ (∀ (i : Nat) (x y : ℝ), a[i]? = some x → b[i]? = some y → y ≤ x) ∧
    ∃ (i : Nat) (x y : ℝ), a[i]? = some x ∧ b[i]? = some y ∧ y < x

/-- The chromosomes of a problem. -/
def InBounds (B : Benchmark) (vars : List ℝ) : Prop :=
  vars.length = B.bounds.length ∧ ∀ (i : Nat) (x : ℝ) (b : ℝ × ℝ), vars[i]? = some x → B.bounds[i]? = some b → b.1 ≤ x ∧ x ≤ b.2

/-- The documented optimum of a problem is a chromosome of the problem, it has the documented fitness, and no chromosome of the problem is better. -/
def OptimumRight (B : Benchmark) : Prop :=
  InBounds B B.optimum ∧ B.fitness B.optimum = B.optimalValue ∧ ∀ vars, InBounds B vars → ¬ Better (B.fitness vars) B.optimalValue

end Gapp.Spec
