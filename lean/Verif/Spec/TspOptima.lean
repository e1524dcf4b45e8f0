import Mathlib.Data.Real.Basic
import Mathlib.Data.List.Perm.Basic

/-! What a documented optimal value of a travelling salesman problem with `n` cities means. -/

namespace Gapp.Spec

/-- `v` is at least the fitness of every permutation of all but the last one of the `n` cities, and all of them have a fitness. -/
def NoTourAbove (n : Nat) (fitness : List Nat → Option ℝ) (v : ℝ) : Prop :=
  ∀ chrom : List Nat, chrom.Perm (List.range (n - 1)) → ∃ f, fitness chrom = some f ∧ f ≤ v

/-- Some permutation of all but the last city has a fitness of at least `v`. -/
def SomeTourAtLeast (n : Nat) (fitness : List Nat → Option ℝ) (v : ℝ) : Prop :=
  ∃ chrom : List Nat, chrom.Perm (List.range (n - 1)) ∧ ∃ f, fitness chrom = some f ∧ v ≤ f

/-- `v` is the fitness of the best permutation. -/
def IsOptimalValue (n : Nat) (fitness : List Nat → Option ℝ) (v : ℝ) : Prop :=
  NoTourAbove n fitness v ∧ SomeTourAtLeast n fitness v

end Gapp.Spec
