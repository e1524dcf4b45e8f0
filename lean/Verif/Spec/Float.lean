import Verif.Model.Float
/-!
# Specification of tolerant comparison and Pareto dominance

Only the data types (`Flt`, `Tol`, `FVec`) are shared with the model.
-/

namespace Gapp.Spec
open Gapp.Model
variable {K : Type} [CommRing K] [LinearOrder K]

/-- `a` is less than `b` by more than the tolerance: for finite values, by more than the absolute tolerance
and by more than the relative tolerance times the larger magnitude. Infinities compare exactly. -/
def DefinitelyLess (t : Tol K) : Flt K → Flt K → Prop
  | .fin a, .fin b => b - a > t.abs ∧ b - a > t.rel * |a| ∧ b - a > t.rel * |b|
  | .ninf, .ninf => False
  | .ninf, _ => True
  | _, .ninf => False
  | .pinf, _ => False
  | _, .pinf => True

/-- `b` dominates `a` (maximisation): `b` is nowhere definitely less, and somewhere definitely greater. -/
def Dominates (t : Tol K) (b a : FVec K) : Prop :=
  (∀ (i : Nat) (ha : i < a.length) (hb : i < b.length), ¬ DefinitelyLess t b[i] a[i]) ∧
  (∃ (i : Nat) (ha : i < a.length) (hb : i < b.length), DefinitelyLess t a[i] b[i])

/-- Exact Pareto dominance: `b` is at least as good everywhere and better somewhere. -/
def ExactDominates {V : Type} [LinearOrder V] (b a : List V) : Prop :=
  (∀ (i : Nat) (ha : i < a.length) (hb : i < b.length), a[i] ≤ b[i]) ∧
  (∃ (i : Nat) (ha : i < a.length) (hb : i < b.length), a[i] < b[i])

end Gapp.Spec
