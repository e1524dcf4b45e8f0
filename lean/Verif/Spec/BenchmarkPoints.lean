import Verif.Spec.Benchmarks
/-!
# Ideal and nadir points

The ideal point of a problem has the best value of each objective, the nadir point the worst value of each objective on the Pareto front.
-/

namespace Gapp.Spec

variable {X : Type}

/-- `x` is in the domain, and nothing in the domain is better. -/
def ParetoOptimal (dom : X → Prop) (fit : X → List ℝ) (x : X) : Prop := dom x ∧ ∀ y, dom y → ¬ Better (fit y) (fit x)

/-- No value of an objective is better than that of `p`. -/
def IdealBound (dom : X → Prop) (fit : X → List ℝ) (p : List ℝ) : Prop :=
  ∀ x, dom x → (fit x).length = p.length ∧ ∀ (i : Nat) (a b : ℝ), (fit x)[i]? = some a → p[i]? = some b → a ≤ b

/-- The best value of each objective is that of `p`, and some Pareto-optimal point has it. -/
def IdealRight (dom : X → Prop) (fit : X → List ℝ) (p : List ℝ) : Prop :=
  IdealBound dom fit p ∧ ∀ (i : Nat) (b : ℝ), p[i]? = some b → ∃ x, ParetoOptimal dom fit x ∧ (fit x)[i]? = some b

/-- No value of an objective of a Pareto-optimal point is worse than that of `p`. -/
def NadirBound (dom : X → Prop) (fit : X → List ℝ) (p : List ℝ) : Prop :=
  ∀ x, ParetoOptimal dom fit x → (fit x).length = p.length ∧ ∀ (i : Nat) (a b : ℝ), (fit x)[i]? = some a → p[i]? = some b → b ≤ a

/-- The worst value of each objective on the Pareto front is that of `p`. -/
def NadirRight (dom : X → Prop) (fit : X → List ℝ) (p : List ℝ) : Prop :=
  NadirBound dom fit p ∧ ∀ (i : Nat) (b : ℝ), p[i]? = some b → ∃ x, ParetoOptimal dom fit x ∧ (fit x)[i]? = some b

end Gapp.Spec
