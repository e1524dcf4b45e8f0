import Verif.Spec.Draws
import Verif.Proofs.GaLoop
import Verif.Spec.GaBest
import Verif.Model.Mutation
/-!
# Specification: runs whose mutations use independent random draws

Everything else that is random in a run is a function of the number of the generation and of the call in it (`GaEnv`). The theorems hold for all such functions: for every outcome of the other random
numbers, the probabilities are those of the draws of the mutations.
-/

namespace Gapp.Spec
open Gapp.Model MeasureTheory

/-- The run in which child `i` of generation `g` is mutated by `op` with the draw number `(g - 1) * popSize + i`. -/
def withMutations {G K A S V D : Type} (env : GaEnv G K A S V) (op : D → List G → List G) (draws : List D) : GaEnv G K A S V :=
  { env with mutate := fun g i c =>
      if i < env.popSize then
        match draws[(g - 1) * env.popSize + i]? with
        | some d => op d c.chrom
        | none => c.chrom
      else c.chrom }

/-- The replacement keeps the first `h` children of every generation, or candidates that are at least as good. -/
def RetainsChildren {G K A S V : Type} [LinearOrder K] (env : GaEnv G K A S V) (h : Nat) : Prop :=
  ∀ a all g i r, all.length = 2 * env.popSize → FitMatrix env all → i < h → all[env.popSize + i]? = some r →
    ∃ j ∈ (env.algNext a all g).1, ∃ r', all[j]? = some r' ∧ AtLeastAsGood r' r

/-- The replacement keeps every parent, or a candidate that is at least as good. -/
def KeepsParents {G K A S V : Type} [LinearOrder K] (env : GaEnv G K A S V) : Prop :=
  ∀ a all g i r, all.length = 2 * env.popSize → FitMatrix env all → i < env.popSize → all[i]? = some r →
    ∃ j ∈ (env.algNext a all g).1, ∃ r', all[j]? = some r' ∧ AtLeastAsGood r' r

/-- No stop condition: a run only ends when it reaches the maximum number of generations. -/
def NeverStops {G K A S V : Type} (env : GaEnv G K A S V) : Prop := ∀ s st, (env.stop s st).2 = false

/-- `solve` returns a solution that is at least as good as `x` in every objective. -/
def Finds {G K A S V : Type} [LinearOrder G] [CommRing K] [LinearOrder K] (env : GaEnv G K A S V) (prev : GaState G (FVec K) A V) (initial : List (Cand G (FVec K))) (x : List G) : Prop :=
  ∃ final, gaSolve env prev initial = some final ∧ ∃ s ∈ final.sols, AtLeastAsGood s.fitness (env.fitness x)

/-- `solve` returns at least one solution, and nothing in the domain is better than any of the solutions. -/
def FindsBest {G K A S V : Type} [LinearOrder G] [CommRing K] [LinearOrder K] (env : GaEnv G K A S V) (prev : GaState G (FVec K) A V) (initial : List (Cand G (FVec K))) (Dom : List G → Prop) : Prop :=
  ∃ final, gaSolve env prev initial = some final ∧ final.sols ≠ [] ∧ ∀ s ∈ final.sols, s.fitness = env.fitness s.chrom ∧ ∀ y, Dom y → AtLeastAsGood s.fitness (env.fitness y)

/-- The random outcomes of one `Flip`: the number of genes to change, and the integers drawn by `sampleUnique`. -/
structure FlipDraws where
  count : Nat
  positions : List Int

instance : MeasurableSpace FlipDraws := ⊤
instance : DiscreteMeasurableSpace FlipDraws := ⟨fun _ => trivial⟩

end Gapp.Spec
