import Verif.Spec.MutationShape
import Verif.Spec.RealCrossover
/-! # Specification: how far the genes of children are from those of the parents -/

namespace Gapp.Spec

/-- The gene `g` of a child is farther than `dist` from the gene `x` of a parent and from the gene `y` of the other one. -/
def FartherThan (dist x y g : ℝ) : Prop := dist < |g - x| ∧ dist < |g - y|

/-- The gene at the locus `i` of one of two children satisfies `P`; `first` tells which child is meant. -/
def ChildGene (first : Bool) (i : Nat) (P : ℝ → Prop) (children : Option (List ℝ × List ℝ)) : Prop :=
  ∃ c1 c2 g, children = some (c1, c2) ∧ (if first then c1 else c2)[i]? = some g ∧ P g

/-- The draws for all loci, when the number `r` is drawn for the locus `i` and the child meant by `first`. -/
def withDraw (first : Bool) (i : Nat) (draws : Nat → ℝ × ℝ) (r : ℝ) : Nat → ℝ × ℝ :=
  fun j => if j = i then (if first then (r, (draws i).2) else ((draws i).1, r)) else draws j

end Gapp.Spec
