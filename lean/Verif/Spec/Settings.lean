import Verif.Model.Settings
/-!
# What the user chose

Written from the documentation of the constructors (ga_base.decl.hpp:95-200) and of the setters: the last explicit choice counts, `none` is "to be deduced".
-/

namespace Gapp.Spec
open Gapp.Model

structure Choice (Alg R : Type) where
  algorithm : Option Alg
  rate : Option R

/-- The choice made by a constructor. -/
def Choice.ofCtor {Alg R : Type} : GaCtor Alg R → Choice Alg R
  | .default => ⟨none, none⟩
  | .algorithm a => ⟨a, none⟩
  | .operatorPtrs r => ⟨none, some r⟩
  | .operators r => ⟨none, some r⟩
  | .all a r => ⟨a, some r⟩

/-- The choice after a call. A run does not choose anything. -/
def Choice.step {Alg R : Type} (c : Choice Alg R) : GaOp Alg R → Choice Alg R
  | .algorithm a => { c with algorithm := a }
  | .mutationMethod r => { c with rate := some r }
  | .mutationCallable _ => { c with rate := none }
  | .mutationRate r => { c with rate := some r }
  | .solve _ _ => c

def Choice.after {Alg R : Type} (ctor : GaCtor Alg R) (ops : List (GaOp Alg R)) : Choice Alg R := ops.foldl Choice.step (.ofCtor ctor)

/-- The algorithm of a run: the chosen one, or the one for the number of objectives. -/
def Choice.algorithmFor {Alg R : Type} (c : Choice Alg R) (numObj : Nat) : UsedAlgorithm Alg :=
  match c.algorithm with
  | some a => .user a
  | none => if numObj = 1 then .singleObjective else .nsga3

/-- The mutation rate of a run: the chosen one, or the one for the chromosome length. -/
def Choice.rateFor {Alg R : Type} (c : Choice Alg R) (defaultRate : Nat → R) (chromLen : Nat) : R := c.rate.getD (defaultRate chromLen)

end Gapp.Spec
