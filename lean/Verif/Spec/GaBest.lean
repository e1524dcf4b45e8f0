import Mathlib.Order.Lattice
/-!
# Comparing what a run evaluated with what it returns
-/

namespace Gapp.Spec

/-- `b` is at least as good as `a` in every objective. -/
def AtLeastAsGood {V : Type} [LinearOrder V] (b a : List V) : Prop :=
  b.length = a.length ∧ ∀ (i : Nat) (ha : i < a.length) (hb : i < b.length), a[i] ≤ b[i]

/-- The candidates at the positions `kept` of a pool: for every candidate of the pool one is kept that is at least as good. -/
def NothingBetterLost {V : Type} [LinearOrder V] (pool : List (List V)) (kept : List Nat) : Prop :=
  ∀ r ∈ pool, ∃ j ∈ kept, ∃ r', pool[j]? = some r' ∧ AtLeastAsGood r' r

end Gapp.Spec
