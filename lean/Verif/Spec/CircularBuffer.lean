import Verif.Model.CircularBuffer
/-!
# Specification of a bounded double-ended queue

An ideal bounded deque: a capacity and a list of elements, front first. Only the type of operations
is shared with the model.
-/

namespace Gapp.Spec

/-- An ideal bounded deque. -/
structure Deque (α : Type) where
  cap : Nat
  items : List α

namespace Deque
variable {α : Type}
open Gapp.Model.CircularBuffer (Op)

/-- One operation on the ideal deque. `none`: a precondition of the operation is violated
(pushing into a deque of capacity 0, popping from an empty one). -/
def step (d : Deque α) : Op α → Option (Deque α)
  | .pushBack v =>
      if d.cap = 0 then none
      else if d.items.length = d.cap then some { d with items := d.items.tail ++ [v] }
      else some { d with items := d.items ++ [v] }
  | .pushFront v =>
      if d.cap = 0 then none
      else if d.items.length = d.cap then some { d with items := v :: d.items.dropLast }
      else some { d with items := v :: d.items }
  | .popBack => if d.items = [] then none else some { d with items := d.items.dropLast }
  | .popFront => if d.items = [] then none else some { d with items := d.items.tail }
  | .clear => some { d with items := [] }
  | .setCapacity n => some { cap := n, items := d.items.take n }
  | .reset n => some { cap := n, items := [] }

/-- A sequence of operations on the ideal deque. -/
def run (d : Deque α) (ops : List (Op α)) : Option (Deque α) := ops.foldlM step d

end Deque
end Gapp.Spec
