import Verif.Spec.Hypervolume
import Mathlib.Algebra.BigOperators.Fin
/-!
# Specification of the hypervolume with tolerant comparisons
-/

namespace Gapp.Spec

/-- Any two different values of the same objective differ by more than the tolerance: `abs` is the absolute and `rel` the relative one. -/
def ValuesApart (abs rel : ℝ) (points : List (List ℝ)) : Prop :=
  ∀ p ∈ points, ∀ q ∈ points, ∀ (i : Nat) (x y : ℝ), p[i]? = some x → q[i]? = some y → x ≠ y → max (rel * max |x| |y|) abs < |x - y|

/-- The tolerance of a comparison of any two values of objective `i` is at most `tol i`. -/
def ToleranceAtMost (m : Nat) (abs rel : ℝ) (tol : Fin m → ℝ) (points : List (List ℝ)) : Prop :=
  ∀ p ∈ points, ∀ q ∈ points, ∀ (i : Fin m) (x y : ℝ), p[(i : Nat)]? = some x → q[(i : Nat)]? = some y → max (rel * max |x| |y|) abs ≤ tol i

/-- The points are at most `len i` above the reference point in objective `i`. -/
def ExtentAtMost (m : Nat) (ref : List ℝ) (len : Fin m → ℝ) (points : List (List ℝ)) : Prop :=
  ∀ p ∈ points, ∀ (i : Fin m) (x r : ℝ), p[(i : Nat)]? = some x → ref[(i : Nat)]? = some r → x - r ≤ len i

/-- The volume of `m` slabs: slab `i` has the thickness `tol i` in objective `i` and the length `len j` in every other objective `j`. -/
noncomputable def slabVolume (m : Nat) (len tol : Fin m → ℝ) : ℝ := ∑ i : Fin m, tol i * ∏ j ∈ Finset.univ.erase i, len j

end Gapp.Spec
