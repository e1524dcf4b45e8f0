import Mathlib.Algebra.Order.Ring.Abs
import Verif.Model.Mutation
/-! # Specification of the real-coded crossovers -/

namespace Gapp.Spec
open Gapp.Model
variable {K : Type} [LinearOrder K]

/-- There are as many bounds as genes, the bounds are in order, and every gene is within its bounds. -/
def LegalGenes (bounds : List (GeneBounds K)) (l : List K) : Prop :=
  l.length = bounds.length ∧ ∀ (i : Nat) (b : GeneBounds K) (g : K), bounds[i]? = some b → l[i]? = some g → b.lower ≤ g ∧ g ≤ b.upper

/-- The number nearest to `v` in the interval `[lo, hi]` is `c`. -/
def NearestIn (lo hi v c : K) : Prop := lo ≤ c ∧ c ≤ hi ∧ (v ≤ c → c = lo ∨ c = v) ∧ (c ≤ v → c = hi ∨ c = v)

end Gapp.Spec
