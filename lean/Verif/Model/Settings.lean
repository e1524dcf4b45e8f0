/-!
# The choice of the algorithm and of the mutation rate

Source: `/repo/src/core/ga_base.impl.hpp:33-104` (constructors), `174-213` (`mutation_method`, `mutation_rate`), `249-267` (defaults), `349-352` (`solve`),
`/repo/src/core/ga_info.cpp:19-41`, `/repo/src/core/ga_info.hpp:381-386` (`algorithm`).

`Alg` are the algorithms a user can pass and `R` the mutation rates; a mutation operator is represented by its rate.
-/

namespace Gapp.Model

/-- ga_info.hpp:353: What `algorithm_` points to: an object passed by the user, or one made by the library. -/
inductive UsedAlgorithm (Alg : Type)
  | user (a : Alg)
  | singleObjective
  | nsga3
deriving DecidableEq

/-- ga_info.hpp:353, ga_base.decl.hpp:584-600: The members of `GA` this is about. -/
structure GaSettings (Alg R : Type) where
  algorithm : UsedAlgorithm Alg
  useDefaultAlgorithm : Bool
  rate : R
  useDefaultRate : Bool
deriving DecidableEq

/-- ga_base.decl.hpp:102-188: The constructors of `GA`. An algorithm that is a `nullptr` is `none`; `r` is the mutation rate of an operator. -/
inductive GaCtor (Alg R : Type)
  /-- ga_base.impl.hpp:45-51 -/
  | default
  /-- ga_base.impl.hpp:53-59 (unique_ptr), 72-77 -/
  | algorithm (a : Option Alg)
  /-- ga_base.impl.hpp:61-70 (unique_ptrs) -/
  | operatorPtrs (r : R)
  /-- ga_base.impl.hpp:79-90 (operators by value) -/
  | operators (r : R)
  /-- ga_base.impl.hpp:33-43 (unique_ptrs), 92-104 -/
  | all (a : Option Alg) (r : R)

/-- ga_info.cpp:19-24 and ga_base.impl.hpp:33-43: the constructor the others delegate to; ga_base.decl.hpp:596 for the initial value of `use_default_mutation_rate_`. -/
def baseCtor {Alg R : Type} (a : Option (UsedAlgorithm Alg)) (r : R) : GaSettings Alg R :=
  { algorithm := a.getD .singleObjective, useDefaultAlgorithm := a.isNone, rate := r, useDefaultRate := false }

/-- ga_base.impl.hpp:33-104. `initialRate` is the rate 0.01 of the operators that are constructed by default. -/
def GaCtor.run {Alg R : Type} (initialRate : R) : GaCtor Alg R → GaSettings Alg R
  | .default => { baseCtor (some .singleObjective) initialRate with useDefaultAlgorithm := true, useDefaultRate := true }
  | .algorithm a => { baseCtor (a.map .user) initialRate with useDefaultAlgorithm := false, useDefaultRate := true }
  | .operatorPtrs r => { baseCtor (some .singleObjective) r with useDefaultAlgorithm := true, useDefaultRate := false }
  | .operators r => baseCtor (some .singleObjective) r
  | .all a r => baseCtor (a.map .user) r

/-- ga_info.hpp:168-190, ga_base.decl.hpp:102-600: The calls that change or use these settings. -/
inductive GaOp (Alg R : Type)
  /-- `algorithm(a)`, where `none` is a `nullptr` -/
  | algorithm (a : Option Alg)
  /-- `mutation_method` with an operator that has the rate `r` -/
  | mutationMethod (r : R)
  /-- `mutation_method` with a callable; `r` is the rate the `Lambda` operator is constructed with -/
  | mutationCallable (r : R)
  /-- `mutation_rate(r)` -/
  | mutationRate (r : R)
  /-- `solve` with a fitness function that has this number of objectives and this chromosome length -/
  | solve (numObj chromLen : Nat)

/-- ga_base.impl.hpp:249-260 `defaultAlgorithm`. -/
def defaultAlgorithm {Alg : Type} (numObj : Nat) : UsedAlgorithm Alg := if numObj = 1 then .singleObjective else .nsga3

/-- One call. For `solve` these are the settings during the run (ga_base.impl.hpp:349-352); `mutation_rate`, which is called in line 352, is in the lines 206-213. `defaultRate` is `GaTraits<T>::defaultMutationRate`. -/
def GaSettings.step {Alg R : Type} (defaultRate : Nat → R) (s : GaSettings Alg R) : GaOp Alg R → GaSettings Alg R
  | .algorithm a => { s with useDefaultAlgorithm := a.isNone, algorithm := (a.map .user).getD .singleObjective }
  | .mutationMethod r => { s with rate := r, useDefaultRate := false }
  | .mutationCallable r => { s with rate := r, useDefaultRate := true }
  | .mutationRate r => { s with rate := r, useDefaultRate := false }
  | .solve numObj chromLen =>
    let s := if s.useDefaultAlgorithm then { s with algorithm := defaultAlgorithm numObj } else s
    if s.useDefaultRate then { s with rate := defaultRate chromLen, useDefaultRate := false } else s

/-- ga_base.decl.hpp:102-188: A history: construction, and some calls. -/
def gaHistory {Alg R : Type} (defaultRate : Nat → R) (initialRate : R) (c : GaCtor Alg R) (ops : List (GaOp Alg R)) : GaSettings Alg R :=
  ops.foldl (GaSettings.step defaultRate) (c.run initialRate)

end Gapp.Model
