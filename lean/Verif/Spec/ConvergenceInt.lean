import Verif.Spec.Convergence
/-!
# Specification: the random outcomes of the `Uniform` mutation of integer genes
-/

namespace Gapp.Spec
open Gapp.Model

/-- The draws made for the gene at `i`, up to the first one that is different from the first: two different values within the bounds. The loop of the mutation returns the second one if the first
is the old gene, and the first one otherwise (`newIntGene_two`). -/
def GeneValues (bounds : List (Int × Int)) (i : Nat) (ds : List Int) : Prop :=
  match bounds[i]? with
  | some b => ∃ v w, ds = [v, w] ∧ v ≠ w ∧ (b.1 ≤ v ∧ v ≤ b.2) ∧ b.1 ≤ w ∧ w ≤ b.2
  | none => ds = []

/-- The random outcomes of one `Uniform` mutation: the number of genes to change, the integers drawn by `sampleUnique`, and the values drawn for each of the genes. -/
structure IntDraws (bounds : List (Int × Int)) (many : Nat → Bool) where
  loci : FlipDraws
  values : List (List Int)
  valid : List.Forall₂ (GeneValues bounds) ((sampleIndices bounds.length loci.count (many loci.count) loci.positions).getD []) values

instance (bounds : List (Int × Int)) (many : Nat → Bool) : MeasurableSpace (IntDraws bounds many) := ⊤
instance (bounds : List (Int × Int)) (many : Nat → Bool) : DiscreteMeasurableSpace (IntDraws bounds many) := ⟨fun _ => trivial⟩

end Gapp.Spec
