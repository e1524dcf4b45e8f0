import Mathlib.Order.Defs.LinearOrder
import Verif.Model.Float
/-!
# The crossover and mutation operators, repair

Source: `/repo/src/crossover/crossover_base.impl.hpp:14-80`, `/repo/src/mutation/mutation_base.impl.hpp:14-37`,
`/repo/src/core/ga_base.impl.hpp:416-433`, `/repo/src/core/candidate.hpp:80-191`.

The user supplied methods (`crossover`, `mutate`, the repair function) are arbitrary functions. The asserted preconditions and postconditions
about the lengths are not checked here.
-/

namespace Gapp.Model

/-- candidate.hpp:80-135 `Candidate`. `F` is the type of the fitness vectors. -/
structure Cand (G F : Type) where
  chrom : List G
  fitness : F
  evaluated : Bool
  deriving DecidableEq

section
variable {G F : Type} {K : Type} [LinearOrder K]

/-- candidate.hpp:180-191 `operator==` for genes that are not of a floating-point type. -/
def exactEq [DecidableEq G] (a b : List G) : Bool := decide (a = b)

/-- crossover_base.impl.hpp:58-67 (and 68-77): the flag and the fitness of a child. `eq` is `operator==` of the candidates. -/
def childFlags (eq : List G → List G → Bool) (parent1 parent2 child : Cand G F) : Cand G F :=
  let child := { child with evaluated := false }
  if eq child.chrom parent1.chrom then { child with fitness := parent1.fitness, evaluated := parent1.evaluated }
  else if eq child.chrom parent2.chrom then { child with fitness := parent2.fitness, evaluated := parent2.evaluated }
  else child

/-- crossover_base.impl.hpp:14-80 `Crossover::operator()`. `r` is the result of `rng::randomReal()`, `crossover` the virtual method. -/
def crossoverOp (eq : List G → List G → Bool) (pc r : K) (crossover : Cand G F → Cand G F → Cand G F × Cand G F)
    (parent1 parent2 : Cand G F) : Cand G F × Cand G F :=
  if r ≥ pc then (parent1, parent2)
  else if eq parent1.chrom parent2.chrom then (parent1, parent2)
  else
    let c := crossover parent1 parent2
    (childFlags eq parent1 parent2 c.1, childFlags eq parent1 parent2 c.2)

/-- mutation_base.impl.hpp:14-37 `Mutation::operator()`. `mutate` is the virtual method, which gets the candidate (the same object whose chromosome it
changes) and returns the new chromosome. -/
def mutationOp (eq : List G → List G → Bool) (mutate : Cand G F → List G) (c : Cand G F) : Cand G F :=
  if !c.evaluated then { c with chrom := mutate c }
  else
    let old := c
    let c := { c with chrom := mutate c }
    { c with evaluated := eq c.chrom old.chrom }

/-- ga_base.impl.hpp:416-433 `GA::repair`. `repair_` is the repair function, `none` if it was not set. The chromosomes are compared with the exact `!=` of
`std::vector`. -/
def repairOp [DecidableEq G] (repair_ : Option (List G → List G)) (c : Cand G F) : Cand G F :=
  match repair_ with
  | none => c
  | some f =>
    let improved := f c.chrom
    if improved ≠ c.chrom then { c with evaluated := false, chrom := improved } else c

end

end Gapp.Model
