import Verif.Model.GaLoop
/-!
# Runs with a dynamic fitness function

Source: `/repo/src/core/ga_base.impl.hpp:314-360, 455-485, 507-558`, `/repo/docs/fitness-functions.md:147-163, 190-210`.

A dynamic fitness function may return different values for the same chromosome. Here its values may be different in every generation: `fit n` is the function during generation `n`.
Simplification: it does not change within a generation.
-/

namespace Gapp.Model

section
variable {G K A S V : Type} [DecidableEq G] [CommRing K] [LinearOrder K]

/-- ga_base.impl.hpp:455-485: the settings of a run while generation `n` is made; the fitness function is `fit n`, everything else stays the same. -/
def envAt (env : GaEnv G K A S V) (fit : Nat → List G → FVec K) (n : Nat) : GaEnv G K A S V := { env with fitness := fit n }

/-- ga_base.impl.hpp:549-554: the state after the initialization and `n` generations, with a fitness function that changes. -/
def dynGens (env : GaEnv G K A S V) (fit : Nat → List G → FVec K) (prev : GaState G (FVec K) A V) (initial : List (Cand G (FVec K))) : Nat → Option (GaState G (FVec K) A V)
  | 0 => gaInit (envAt env fit 0) prev initial
  | n + 1 => do advance (envAt env fit (n + 1)) (← dynGens env fit prev initial n)

/-- ga_base.impl.hpp:549-557 `solve`, when the loop ends after `n` generations. -/
def dynSolve (env : GaEnv G K A S V) (fit : Nat → List G → FVec K) (prev : GaState G (FVec K) A V) (initial : List (Cand G (FVec K))) (n : Nat) : Option (GaState G (FVec K) A V) := do
  let st ← dynGens env fit prev initial n
  if env.keepAll then return st else updateOptimal env st
end

end Gapp.Model
