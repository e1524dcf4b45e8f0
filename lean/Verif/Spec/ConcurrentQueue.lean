import Verif.Model.ConcurrentQueue
/-!
# What a closable FIFO queue is

A sequence of operation results is legal if every single result is the right one after the results before it.
-/

namespace Gapp.Spec

open Gapp.Model (QueueLog)

variable {α : Type}

/-- The elements that were accepted, in order. -/
def acceptedOf : List (QueueLog α) → List α
  | [] => []
  | .emplaced x true :: l => x :: acceptedOf l
  | _ :: l => acceptedOf l

/-- The elements that were handed out, in order. -/
def deliveredOf : List (QueueLog α) → List α
  | [] => []
  | .took _ (some x) :: l => x :: deliveredOf l
  | _ :: l => deliveredOf l

/-- The right result after `before`: elements are accepted until the queue is closed; `take` hands out the first accepted element that has not been handed out; it returns nothing only if the queue is closed and all elements have been handed out. -/
def LegalNext (before : List (QueueLog α)) : QueueLog α → Prop
  | .emplaced _ accepted => accepted = true ↔ .closed ∉ before
  | .took _ (some x) => (acceptedOf before)[(deliveredOf before).length]? = some x
  | .took _ none => .closed ∈ before ∧ (acceptedOf before).length = (deliveredOf before).length
  | .closed => True

def LegalQueue (log : List (QueueLog α)) : Prop := ∀ a e b, log = a ++ e :: b → LegalNext a e

end Gapp.Spec
