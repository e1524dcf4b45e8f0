import Verif.Spec.Convergence
/-!
# Specification: the random outcomes of the `Uniform` mutation of real genes
-/

namespace Gapp.Spec
open Gapp.Model

/-- The random outcomes of one `Uniform` mutation of a real chromosome: the number of genes to change, the integers drawn by `sampleUnique`, and for each of the genes the number `k` for which
`randomReal()` is `k / 2^53`. -/
structure RealDraws where
  loci : FlipDraws
  values : List Nat

instance : MeasurableSpace RealDraws := ⊤
instance : DiscreteMeasurableSpace RealDraws := ⟨fun _ => trivial⟩

section
variable {R : Type} [Field R] [LinearOrder R]

/-- The chromosomes all of whose genes are results of the mutation: `lower + (upper - lower) * k / 2^53`. -/
def OnGrid (bounds : List (GeneBounds R)) (x : List R) : Prop :=
  List.Forall₂ (fun (b : GeneBounds R) (v : R) => ∃ k : Nat, k < 2 ^ 53 ∧ v = b.lower + (b.upper - b.lower) * ((k : R) / 2 ^ 53)) bounds x

/-- Every gene is within its bounds. -/
def InBox (bounds : List (GeneBounds R)) (x : List R) : Prop := List.Forall₂ (fun (b : GeneBounds R) (v : R) => b.lower ≤ v ∧ v ≤ b.upper) bounds x
end

/-- All the parts of a run keep the number of genes. -/
structure KeepsLength {G K A S V : Type} (env : GaEnv G K A S V) (initial : List (Cand G (FVec K))) (n : Nat) : Prop where
  generate : ∀ k, (env.generate k).length = n
  cross : ∀ g k p q, p.chrom.length = n → q.chrom.length = n → (env.crossMethod g k p q).1.chrom.length = n ∧ (env.crossMethod g k p q).2.chrom.length = n
  initial : ∀ c ∈ initial, c.chrom.length = n
  repair : ∀ r, env.repair = some r → ∀ x, x.length = n → (r x).length = n
  sort : ∀ l, ∀ c ∈ env.sortSols l, c ∈ l

end Gapp.Spec
