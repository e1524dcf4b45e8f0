import Mathlib.GroupTheory.Perm.Sign
import Mathlib.Logic.Relation
import Verif.Model.MutationParams
import Verif.Proofs.Mutation
/-!
# Specification: what repeated mutations can reach

A step is one mutation of a chromosome with random numbers that can occur. `sel` says which of the two methods `sampleUnique` uses for a range and a count.
-/

namespace Gapp.Spec
open Gapp.Model

/-- The chromosome `c` can be reached from `l` by repeating the step any number of times. -/
def Reaches {α : Type} (step : List α → List α → Prop) (l c : List α) : Prop := Relation.ReflTransGen step l c

section
variable {α : Type}

/-- One `Inversion`; `scaled` is the parameter `range_max` times the length of the chromosome, rounded down. -/
def InversionStep (scaled : Nat) (l c : List α) : Prop :=
  ∃ rangeLen first, 2 ≤ rangeLen ∧ rangeLen ≤ maxRangeLen scaled 2 ∧ first ≤ l.length - rangeLen ∧ inversion true rangeLen first l = some c

/-- One `Swap2`. -/
def Swap2Step (sel : Nat → Nat → Bool) (l c : List α) : Prop :=
  ∃ draws, (2 ≤ l.length → SampleDraws l.length 2 (sel l.length 2) draws) ∧ swap2 true (sel l.length 2) draws l = some c

/-- One `Swap3`. -/
def Swap3Step (sel : Nat → Nat → Bool) (l c : List α) : Prop :=
  ∃ draws, (3 ≤ l.length → SampleDraws l.length 3 (sel l.length 3) draws) ∧ swap3 true (sel l.length 3) draws l = some c

/-- One `Shuffle`. -/
def ShuffleStep (scaled : Nat) (l c : List α) : Prop :=
  ∃ rangeLen first shuffled, 2 ≤ rangeLen ∧ rangeLen ≤ maxRangeLen scaled 2 ∧ first ≤ l.length - rangeLen ∧
    List.Perm shuffled ((l.drop first).take rangeLen) ∧ shuffleMut true rangeLen first shuffled l = some c

/-- One `Shift`. -/
def ShiftStep (scaled : Nat) (sel : Nat → Nat → Bool) (l c : List α) : Prop :=
  ∃ rangeLen draws, 1 ≤ rangeLen ∧ rangeLen ≤ maxRangeLen scaled 1 ∧
    (2 ≤ l.length → SampleDraws (l.length - rangeLen + 1) 2 (sel (l.length - rangeLen + 1) 2) draws) ∧
    shift true rangeLen (sel (l.length - rangeLen + 1) 2) draws l = some c
end

/-- One `Flip` of the binary encoding, for any number of genes to change. -/
def FlipStep (sel : Nat → Nat → Bool) (l c : List Nat) : Prop :=
  ∃ count draws, count ≤ l.length ∧ SampleDraws l.length count (sel l.length count) draws ∧ Model.flip count (sel l.length count) draws l = some c

/-- One `Uniform` mutation of the integer encoding: the new genes are drawn from their bounds. -/
def IntUniformStep (sel : Nat → Nat → Bool) (lower upper : Nat → Int) (l c : List Int) : Prop :=
  ∃ count draws geneDraws, count ≤ l.length ∧ SampleDraws l.length count (sel l.length count) draws ∧
    (∀ idxs i ds, sampleIndices l.length count (sel l.length count) draws = some idxs → (i, ds) ∈ idxs.zip geneDraws → ∀ x ∈ ds, lower i ≤ x ∧ x ≤ upper i) ∧
    intUniform count (sel l.length count) draws geneDraws l = some c

/-- One mutation of real genes: `gene` is the change of a gene, for a draw that meets `ok`. -/
def RealStep {β : Type} (sel : Nat → Nat → Bool) (gene : GeneBounds ℝ → β → ℝ → ℝ) (ok : β → Prop) (bounds : List (GeneBounds ℝ)) (l c : List ℝ) : Prop :=
  ∃ count draws geneDraws, count ≤ l.length ∧ SampleDraws l.length count (sel l.length count) draws ∧ geneDraws.length = count ∧ (∀ d ∈ geneDraws, ok d) ∧
    realMutate gene bounds count (sel l.length count) draws geneDraws l = some c

/-- Every gene is within its bounds, and below the upper one unless the interval is a single point. -/
def InsideBounds (bounds : List (GeneBounds ℝ)) (c : List ℝ) : Prop :=
  c.length = bounds.length ∧ ∀ (i : Nat) (g : ℝ) (b : GeneBounds ℝ), c[i]? = some g → bounds[i]? = some b → b.lower ≤ g ∧ (g < b.upper ∨ b.lower = b.upper ∧ g = b.upper)

/-- `c` has the genes of `l` in an order that differs from that of `l` by an even permutation. -/
def EvenRearrangement {α : Type} (l c : List α) : Prop :=
  c.length = l.length ∧ ∃ σ : Equiv.Perm (Fin l.length), Equiv.Perm.sign σ = 1 ∧ ∀ i : Fin l.length, c[i.val]? = l[(σ i).val]?

end Gapp.Spec
