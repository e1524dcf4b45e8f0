import Verif.Model.Selection
/-!
# Model of the parameters of the single-objective selection methods

Source: `/repo/src/algorithm/soga_selection.hpp:145-235`, `/repo/src/algorithm/soga_selection.cpp:115-180`.

The numbers are those of `Model/Selection.lean`. `small` and `large` are the least positive normal number and the largest finite number; `sqrt` and `exp` are the functions of
the standard library.
-/

namespace Gapp.Model
section
variable {K : Type} [Field K] [LinearOrder K]

/-- soga_selection.hpp:157-195 `Sigma`: the parameter `scale_`. The sums of the weights, `cdf_`, are computed by `sigmaSelect`. -/
structure SigmaOperator (K : Type) where
  scale : K

/-- soga_selection.hpp:165-167: the constructor. A parameter that is not positive violates the precondition of `Positive`. -/
def SigmaOperator.make (scale : K) : Option (SigmaOperator K) := if 0 < scale then some ⟨scale⟩ else none

/-- soga_selection.hpp:182 `scale`. -/
def SigmaOperator.setScale (op : SigmaOperator K) (scale : K) : Option (SigmaOperator K) := if 0 < scale then some { op with scale := scale } else none

/-- soga_selection.cpp:115-135: a selection from the candidates with the fitness values `fvec`, for the random number `r`. `scale_` is not used. -/
def SigmaOperator.select (_op : SigmaOperator K) (sqrt : K → K) (small large : K) (fvec : List K) (r : K) : Option Nat := sigmaSelect sqrt small large fvec r

/-- soga_selection.hpp:214-239 `Boltzmann`: the temperature function. -/
structure BoltzmannOperator (K : Type) where
  temperature : Nat → Nat → K

/-- soga_selection.cpp:145-168: a selection in the generation `gen` of a run with at most `maxGen` generations. -/
def BoltzmannOperator.select (op : BoltzmannOperator K) (exp : K → K) (small large : K) (gen maxGen : Nat) (fvec : List K) (r : K) : Option Nat :=
  boltzmannSelect exp small large (op.temperature gen maxGen) fvec r

/-- soga_selection.cpp:170-178 `boltzmannDefaultTemp`. -/
def boltzmannDefaultTemp (exp : K → K) (gen maxGen : Nat) : K :=
  let tMin : K := 1 / 5
  let tMax : K := 4
  let tBeg : K := 3
  let vtd : K := 10
  let temperature : K := -tMax / (1 + exp (-vtd * ((gen : K) / (maxGen : K)) + tBeg)) + tMax + tMin
  temperature

end
end Gapp.Model
