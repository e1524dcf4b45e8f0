import Verif.Model.SmallVector
/-!
# What `std::vector` does

The state of a program is the sequence of elements of each of its vectors. The vectors are numbered.
-/

namespace Gapp.Spec

open Gapp.Model

variable {α : Type}

/-- The value of an argument: a value of the caller, or the value of an element of the vector. -/
def argValue (xs : List α) : SVArg α → Option α
  | .ext a => some a
  | .own i => xs[i]?

/-- The preconditions of the operations. -/
def VecPre (s : Nat → List α) : SVOp α → Prop
  | .pushBack v arg => (argValue (s v) arg).isSome
  | .popBack v => s v ≠ []
  | .emplace v pos arg => pos ≤ (s v).length ∧ (argValue (s v) arg).isSome
  | .insertN v pos _ arg => pos ≤ (s v).length ∧ (argValue (s v) arg).isSome
  | .insertRange v pos _ => pos ≤ (s v).length
  | .insertInput v pos _ => pos ≤ (s v).length
  | .erase v first last => first ≤ last ∧ last ≤ (s v).length
  | .resizeV v _ arg => (argValue (s v) arg).isSome
  | .assignN v _ arg => (argValue (s v) arg).isSome
  | .copyCtor v w => v ≠ w
  | .moveCtor v w => v ≠ w
  | _ => True

/-- `s'` is `s` with the sequence `xs` in vector `v`. -/
def Becomes (s s' : Nat → List α) (v : Nat) (xs : List α) : Prop :=
  s' v = xs ∧ ∀ k, k ≠ v → s' k = s k

/-- The effects of the operations. `dflt` is the value of value-initialised elements. -/
def VecPost (dflt : α) (s s' : Nat → List α) : SVOp α → Prop
  | .pushBack v arg => ∃ a, argValue (s v) arg = some a ∧ Becomes s s' v (s v ++ [a])
  | .popBack v => Becomes s s' v (s v).dropLast
  | .emplace v pos arg => ∃ a, argValue (s v) arg = some a ∧ Becomes s s' v ((s v).take pos ++ a :: (s v).drop pos)
  | .insertN v pos n arg =>
    ∃ a, argValue (s v) arg = some a ∧ Becomes s s' v ((s v).take pos ++ List.replicate n a ++ (s v).drop pos)
  | .insertRange v pos xs => Becomes s s' v ((s v).take pos ++ xs ++ (s v).drop pos)
  | .insertInput v pos xs => Becomes s s' v ((s v).take pos ++ xs ++ (s v).drop pos)
  | .erase v first last => Becomes s s' v ((s v).take first ++ (s v).drop last)
  | .resize v n => Becomes s s' v ((s v).take n ++ List.replicate (n - (s v).length) dflt)
  | .resizeV v n arg => ∃ a, argValue (s v) arg = some a ∧ Becomes s s' v ((s v).take n ++ List.replicate (n - (s v).length) a)
  | .assignN v n arg => ∃ a, argValue (s v) arg = some a ∧ Becomes s s' v (List.replicate n a)
  | .assignRange v xs => Becomes s s' v xs
  | .assignInput v xs => Becomes s s' v xs
  | .reserve _ _ => s' = s
  | .shrinkToFit _ => s' = s
  | .clear v => Becomes s s' v []
  | .copyAssign v w => Becomes s s' v (s w)
  -- the source of a move assignment is valid but unspecified
  | .moveAssign v w _ => s' v = s w ∧ ∀ k, k ≠ v → k ≠ w → s' k = s k
  | .swap v w => s' v = s w ∧ s' w = s v ∧ ∀ k, k ≠ v → k ≠ w → s' k = s k
  | .ctorN v n => Becomes s s' v (List.replicate n dflt)
  | .ctorRange v xs => Becomes s s' v xs
  | .ctorInput v xs => Becomes s s' v xs
  | .copyCtor v w => Becomes s s' v (s w)
  -- the source of a move construction is empty
  | .moveCtor v w => s' v = s w ∧ s' w = [] ∧ ∀ k, k ≠ v → k ≠ w → s' k = s k

/-! ## Programs that use `small_vector` -/

/-- The elements of the vectors. -/
def svContents (E : SVEnv α) (s : Nat → SVec α) (v : Nat) : List α :=
  match svElems E (s v) with
  | .ok xs => xs
  | .error _ => []

/-- The uses of a vector that do not work:
* `pop_back`, unless elements are trivially destructible;
* inserting several elements into spare capacity when more elements than that follow the position;
* inserting copies of an element of the vector with `insert(pos, count, value)`;
* growing the storage with `resize(count, value)` where `value` is an element of the vector. -/
def SVFaulty (E : SVEnv α) (s : Nat → SVec α) : SVOp α → Prop
  | .popBack _ => E.trivial = false
  | .insertN v pos n arg => (∃ i, arg = .own i) ∨ ((s v).size + n ≤ svCap E (s v) ∧ pos + n < (s v).size)
  | .insertRange v pos xs => (s v).size + xs.length ≤ svCap E (s v) ∧ pos + xs.length < (s v).size
  | .resizeV v n arg => (∃ i, arg = .own i) ∧ svCap E (s v) < n
  | _ => False

/-- An upper bound of the storage that is asked for. -/
def svDemand (E : SVEnv α) (s : Nat → SVec α) : SVOp α → Nat
  | .pushBack v _ => (s v).size + 1
  | .emplace v _ _ => (s v).size + 1
  | .insertN v _ n _ => svCap E (s v) + n
  | .insertRange v _ xs => svCap E (s v) + xs.length
  | .insertInput v _ xs => (s v).size + xs.length
  | .resize _ n => n
  | .resizeV _ n _ => n
  | .assignN v n _ => svCap E (s v) + n
  | .assignRange v xs => svCap E (s v) + xs.length
  | .assignInput _ xs => xs.length
  | .reserve _ n => n
  | .copyAssign v w => svCap E (s v) + (s w).size
  | .moveAssign v w _ => svCap E (s v) + (s w).size
  | .ctorN _ n => n
  | .ctorRange _ xs => xs.length
  | .ctorInput _ xs => xs.length
  | .copyCtor _ w => (s w).size
  | _ => 0

/-- The states that are reached from empty vectors by operations whose preconditions hold, without the uses that do not work. -/
inductive SVReach (E : SVEnv α) : (Nat → SVec α) → Prop
  | init : SVReach E (fun _ => svEmpty)
  | step {s s' : Nat → SVec α} (op : SVOp α) : SVReach E s → VecPre (svContents E s) op → ¬ SVFaulty E s op →
      svStep E s op = .ok s' → SVReach E s'

end Gapp.Spec
