import Verif.Spec.DoubleNsga3Dist
import Verif.Spec.NdSort
import Verif.Model.DoubleMulti
/-!
# Specification: the runs of NSGA-III in binary64 arithmetic
-/

namespace Gapp.Spec
open Gapp.Model

/-- A run of NSGA-III with the given reference lines. `seen` has the fitness vectors of all the candidates of the run, `pop` those of the current population, and `s` is the state of the algorithm.
The run begins with the initialization for a population that is not empty. In each generation there are some children, the candidates are the population and the children, in this order, and
the algorithm picks as many as the population had. The sort into fronts may be any correct one, and the random choices are arbitrary. -/
inductive Nsga3Run (fl : MultiFlags) (sort : SortNat) (m : Nat) (lines : List (List Dbl)) : List (List Dbl) → List (List Dbl) → Nsga3 Dbl → Prop
  | init (nadir : List Dbl) (info : List (CandInfo Dbl)) (niche : List Nat) (pop : List (List Dbl)) (dom : Nat → Nat → Prop) (els : List (Nat × Nat)) (s : Nsga3 Dbl) :
      (∀ r ∈ pop, r.length = m) → pop ≠ [] → (∀ r ∈ pop, ∀ x ∈ r, Moderate x) → IsNdSort dom pop.length els → nsga3InitD fl lines nadir info niche pop els = some s →
      Nsga3Run fl sort m lines pop pop s
  | next (seen pop children pop' : List (List Dbl)) (dom : Nat → Nat → Prop) (els : List (Nat × Nat)) (pick : Nat → Nat → Nat) (sel : List Nat) (s s' : Nsga3 Dbl) :
      Nsga3Run fl sort m lines seen pop s → (∀ r ∈ children, r.length = m) → children ≠ [] → (∀ r ∈ children, ∀ x ∈ r, Moderate x) → IsNdSort dom (pop ++ children).length els →
      (∀ i n, 0 < n → pick i n < n) → nsga3NextD fl sort pick s (pop ++ children) els pop.length = some (sel, s') →
      List.Forall₂ (fun i r => (pop ++ children)[i]? = some r) sel pop' → Nsga3Run fl sort m lines (seen ++ children) pop' s'

end Gapp.Spec
