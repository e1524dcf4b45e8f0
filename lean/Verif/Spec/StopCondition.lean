import Verif.Model.StopCondition
/-!
# Specification of the stop conditions

Shared with the model: the trees of conditions, and the floating point numbers.
-/

namespace Gapp.Spec
open Gapp.Model

/-- The value of the boolean formula, when the leaf `l` has the value `v l`. -/
def formula {L : Type} (v : L → Bool) : StopTree L → Bool
  | .leaf l => v l
  | .or a b => formula v a || formula v b
  | .and a b => formula v a && formula v b
  | .not a => !formula v a

/-- The tree has the same form, and every leaf is replaced by its image. -/
def mapLeaves {L : Type} (f : L → L) : StopTree L → StopTree L
  | .leaf l => .leaf (f l)
  | .or a b => .or (mapLeaves f a) (mapLeaves f b)
  | .and a b => .and (mapLeaves f a) (mapLeaves f b)
  | .not a => .not (mapLeaves f a)

/-- There is no `||` in the tree. -/
def orFree {L : Type} : StopTree L → Prop
  | .leaf _ => True
  | .or _ _ => False
  | .and a b => orFree a ∧ orFree b
  | .not a => orFree a

/-- No `||` is inside of a `&&` or a `!`. -/
def orOnTop {L : Type} : StopTree L → Prop
  | .leaf _ => True
  | .or a b => orOnTop a ∧ orOnTop b
  | .and a b => orFree a ∧ orFree b
  | .not a => orFree a

section
variable {K : Type} [CommRing K] [LinearOrder K]

/-- `x` is by at least `delta` above the best value so far. The best value before the first generation is negative infinity. -/
def AtLeastBy (delta : K) (best : Flt K) : Flt K → Prop
  | .ninf => best = .ninf
  | .fin x => best = .ninf ∨ ∃ b, best = .fin b ∧ b + delta ≤ x
  | .pinf => True

/-- The record of one objective after the values `vals`, the latest one first: the value of the latest generation that improved the previous record by at least `delta`. -/
noncomputable def record (delta : K) : List (Flt K) → Flt K
  | [] => .ninf
  | x :: earlier => open Classical in if AtLeastBy delta (record delta earlier) x then x else record delta earlier

/-- In the latest generation some objective improved by at least `delta` over its record. `history` has the values of the metric in the generations, the latest one first. -/
def Improved (delta : K) (m : Nat) : List (FVec K) → Prop
  | [] => False
  | now :: earlier => ∃ i x, i < m ∧ now[i]? = some x ∧ AtLeastBy delta (record delta (earlier.filterMap (fun v => v[i]?))) x

/-- None of the last `n` generations improved the metric (and there were at least `n`). -/
def StalledFor (delta : K) (m : Nat) (n : Nat) (history : List (FVec K)) : Prop :=
  n ≤ history.length ∧ ∀ k, k < n → ¬ Improved delta m (history.drop k)

/-- None of the last `n` generations improved the metric, and all of these were among the generations `later`, which came after the generations `earlier`. The records are those of all the generations. -/
def StalledSince (delta : K) (m : Nat) (n : Nat) (earlier later : List (FVec K)) : Prop :=
  n ≤ later.length ∧ ∀ k, k < n → ¬ Improved delta m ((later ++ earlier).drop k)

end

end Gapp.Spec
