import Verif.Model.Operators
/-!
# Fitness values that change during a run
-/

namespace Gapp.Spec
open Gapp.Model

/-- The fitness of the candidate is the value the fitness function has for its chromosome in generation `n`. -/
def CurrentAt {G F : Type} (fit : Nat → List G → F) (n : Nat) (c : Cand G F) : Prop := c.evaluated = true ∧ c.fitness = fit n c.chrom

/-- The fitness of the candidate is a value the fitness function had for its chromosome in some generation up to `n`. -/
def MeasuredBy {G F : Type} (fit : Nat → List G → F) (n : Nat) (c : Cand G F) : Prop := ∃ k, k ≤ n ∧ CurrentAt fit k c

end Gapp.Spec
