import Verif.Model.CircularOwnership
import Verif.Spec.CircularBuffer
/-!
# Specification of several bounded double-ended queues with calls that can throw

Variables that hold ideal deques. A call that throws changes nothing. Only the type of the calls is shared with the model.
-/

namespace Gapp.Spec
open Gapp.Model (CbOp)
open Gapp.Model.CircularBuffer (Op)

/-- The values of the variables; `none` for a variable that is not alive. -/
abbrev DequeVars (α : Type) := List (Option (Deque α))

namespace DequeVars
variable {α : Type}

/-- The effect of a call that does not throw. `none`: a precondition is violated (a constructor needs a variable that is not alive, everything else one that is). A variable that was moved
from is empty and has capacity 0. -/
def call (d : DequeVars α) : CbOp α → Option (DequeVars α)
  | .default x =>
      match d[x]? with
      | some none => some (d.set x (some ⟨0, []⟩))
      | _ => none
  | .sized x n =>
      match d[x]? with
      | some none => some (d.set x (some ⟨n, []⟩))
      | _ => none
  | .range x n xs =>
      match d[x]? with
      | some none => some (d.set x (some ⟨n, xs.drop (xs.length - n)⟩))
      | _ => none
  | .copy x y =>
      match d[x]?, d[y]? with
      | some none, some (some q) => some (d.set x (some q))
      | _, _ => none
  | .move x y =>
      match d[x]?, d[y]? with
      | some none, some (some q) => some ((d.set y (some ⟨0, []⟩)).set x (some q))
      | _, _ => none
  | .destroy x =>
      match d[x]? with
      | some (some _) => some (d.set x none)
      | _ => none
  | .assignCopy x y =>
      match d[x]?, d[y]? with
      | some (some _), some (some q) => some (d.set x (some q))
      | _, _ => none
  | .assignMove x y =>
      match d[x]?, d[y]? with
      | some (some _), some (some q) => some (if x = y then d else (d.set y (some ⟨0, []⟩)).set x (some q))
      | _, _ => none
  | .swap x y =>
      match d[x]?, d[y]? with
      | some (some p), some (some q) => some ((d.set x (some q)).set y (some p))
      | _, _ => none
  | .call x op =>
      match d[x]? with
      | some (some q) =>
        match q.step op with
        | some q' => some (d.set x (some q'))
        | none => none
      | _ => none

/-- How many allocations and constructions from a reference a call makes. `nothrowMove`: the elements can be moved without exceptions. -/
def cost (nothrowMove : Bool) (d : DequeVars α) : CbOp α → Nat
  | .sized _ _ => 1
  | .range _ n xs => 1 + min n xs.length
  | .copy _ y | .assignCopy _ y =>
      match d[y]? with
      | some (some q) => 1 + q.items.length
      | _ => 0
  | .call x op =>
      match d[x]? with
      | some (some q) =>
        match op with
        | .pushBack _ | .pushFront _ => 1
        | .setCapacity n => if n = q.cap then 0 else if nothrowMove then 1 else 1 + min n q.items.length
        | .reset n => if n = q.cap then 0 else 1
        | _ => 0
      | _ => 0
  | _ => 0

/-- A call throws if it needs more allocations and constructions than succeed. -/
def throws (limit : Option Nat) (cost : Nat) : Bool :=
  match limit with
  | none => false
  | some k => decide (k < cost)

/-- A program that catches all exceptions: the values at the end and which calls threw. -/
def program (nothrowMove : Bool) : DequeVars α → List (Option Nat × CbOp α) → Option (DequeVars α × List Bool)
  | d, [] => some (d, [])
  | d, (limit, op) :: prog =>
      match d.call op with
      | none => none
      | some d' =>
        let threw := throws limit (d.cost nothrowMove op)
        match program nothrowMove (if threw then d else d') prog with
        | none => none
        | some (e, flags) => some (e, threw :: flags)

/-- None of the three defects shows in the call: no element throws while the capacity changes, `reset` does not throw, and `push_front` does not throw if the elements can be moved without
exceptions. -/
def Safe (nothrowMove : Bool) (d : DequeVars α) (limit : Option Nat) (op : CbOp α) : Prop :=
  match op with
  | .call _ (.setCapacity _) => throws limit (d.cost nothrowMove op) = true → limit = some 0
  | .call _ (.reset _) => throws limit (d.cost nothrowMove op) = false
  | .call _ (.pushFront _) => nothrowMove = true → throws limit (d.cost nothrowMove op) = false
  | _ => True

/-- Every call that the program reaches is safe. -/
def SafeProgram (nothrowMove : Bool) : DequeVars α → List (Option Nat × CbOp α) → Prop
  | _, [] => True
  | d, (limit, op) :: prog =>
      d.Safe nothrowMove limit op ∧
      ∀ d', d.call op = some d' → SafeProgram nothrowMove (if throws limit (d.cost nothrowMove op) then d else d') prog

end DequeVars
end Gapp.Spec
