import Verif.Spec.Convergence
import Verif.Spec.Reach
import Mathlib.Probability.UniformOn
/-!
# Specification: the random outcomes of the mutations of permutations
-/

namespace Gapp.Spec
open Gapp.Model MeasureTheory

/-- The random outcomes of one `Shuffle`: whether the chromosome is changed, the length and the start of the range, and the order in which the genes of the range are put (by their positions in it). -/
structure ShuffleOutcome where
  mutates : Bool
  rangeLen : Nat
  first : Nat
  order : List Nat
  valid : mutates = true → order.Perm (List.range rangeLen)

instance : MeasurableSpace ShuffleOutcome := ⊤
instance : DiscreteMeasurableSpace ShuffleOutcome := ⟨fun _ => trivial⟩

/-- The outcomes of a `Shuffle` of a chromosome with `n` genes that changes a range of the length `len`. -/
def shuffleOutcomes (n len : Nat) : Set ShuffleOutcome := {d | d.mutates = true ∧ d.rangeLen = len ∧ d.first ≤ n - len}

/-- The distribution of the outcomes of `Shuffle`: the chromosome is changed with the probability `q`; the length of the range, its start and the order of its genes have equal probabilities. -/
noncomputable def shuffleLaw (n scaled : Nat) (q : ENNReal) : Measure ShuffleOutcome :=
  (1 - q) • Measure.dirac ⟨false, 0, 0, [], fun h => nomatch h⟩ +
    q • ∑ len ∈ Finset.Icc 2 (maxRangeLen scaled 2), ((maxRangeLen scaled 2 - 1 : Nat) : ENNReal)⁻¹ • ProbabilityTheory.uniformOn (shuffleOutcomes n len)

/-- One of the mutations of permutations with four genes, with its default parameters: `Inversion(range_max = 0.75)`, `Swap2`, `Swap3`, `Shuffle(range_max = 0.5)` or `Shift(range_max = 0.75)`. -/
def DefaultPermStep (sel : Nat → Nat → Bool) (l c : List Nat) : Prop :=
  c = l ∨ InversionStep 3 l c ∨ Swap2Step sel l c ∨ Swap3Step sel l c ∨ ShuffleStep 2 l c ∨ ShiftStep 3 sel l c

end Gapp.Spec
