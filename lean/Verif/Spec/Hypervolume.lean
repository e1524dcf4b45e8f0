import Mathlib.MeasureTheory.Measure.Lebesgue.Basic
/-!
# Specification of the hypervolume
-/

namespace Gapp.Spec

/-- The box between the reference point and a point, in the space of `m` objectives. -/
def box (m : Nat) (ref point : List ℝ) : Set (Fin m → ℝ) := {x | ∀ i : Fin m, ref.getD i 0 ≤ x i ∧ x i ≤ point.getD i 0}

/-- The part of the space that is dominated by some of the points and dominates the reference point. -/
def dominatedRegion (m : Nat) (ref : List ℝ) (points : List (List ℝ)) : Set (Fin m → ℝ) := {x | ∃ p ∈ points, x ∈ box m ref p}

/-- The Lebesgue measure of the dominated part of the space. -/
noncomputable def dominatedVolume (m : Nat) (ref : List ℝ) (points : List (List ℝ)) : ℝ := (MeasureTheory.volume (dominatedRegion m ref points)).toReal

/-- No point is worse than the reference point in any objective. -/
def RefBelow {K : Type} [LE K] (ref : List K) (points : List (List K)) : Prop := ∀ p ∈ points, ∀ (i : Nat) (a b : K), ref[i]? = some a → p[i]? = some b → a ≤ b

end Gapp.Spec
