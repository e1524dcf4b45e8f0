import Verif.Model.CacheVars
import Verif.Spec.FifoCache
import Verif.Spec.CircularOwnership
/-!
# Specification of several bounded FIFO maps with calls that can throw

Variables that hold ideal FIFO maps (`Spec/FifoCache`). Only the type of the calls is shared with the model. Each step takes the number of operations that succeed before one throws (`none`: all of
them): an insertion of a new key, an assignment to the value of a key, and the two allocations of a cache.
-/

namespace Gapp.Spec
open Gapp.Model (CvOp)
open DequeVars (throws)

namespace FifoMap
variable {κ ν : Type} [DecidableEq κ]

/-- `insert` with a limit. If it throws: a new key is not inserted, a key that is there keeps its place, and its value is what the assignment left. -/
def tryPut (torn : ν → ν → ν) (d : FifoMap κ ν) (k : κ) (v : ν) (limit : Option Nat) : FifoMap κ ν × Bool × Option Nat :=
  if d.cap = 0 then (d, true, limit)
  else if throws limit 1 then ({ d with entries := d.entries.map (fun p => if p.1 = k then (k, torn p.2 v) else p) }, false, some 0)
  else (d.insert k v, true, limit.map (· - 1))

/-- Inserting the elements of a list until one insertion throws. -/
def putAll (torn : ν → ν → ν) : FifoMap κ ν → List (κ × ν) → Option Nat → FifoMap κ ν × Bool
  | d, [], _ => (d, true)
  | d, p :: ps, limit =>
    match d.tryPut torn p.1 p.2 limit with
    | (e, true, l) => putAll torn e ps l
    | (e, false, _) => (e, false)

end FifoMap

/-- The values of the variables; `none` for a variable that is not alive. -/
abbrev MapVars (κ ν : Type) := List (Option (FifoMap κ ν))

namespace MapVars
variable {κ ν : Type} [DecidableEq κ]

/-- The variable `x` after a modifier, and whether it threw. -/
def put (d : MapVars κ ν) (x : Nat) (r : FifoMap κ ν × Bool) : MapVars κ ν × Bool := (d.set x (some r.1), !r.2)

/-- One call: the values after it and whether it threw. `none`: a precondition is violated (a constructor needs a variable that is not alive, everything else one that is). -/
def step (torn : ν → ν → ν) (d : MapVars κ ν) (limit : Option Nat) : CvOp κ ν → Option (MapVars κ ν × Bool)
  | .default x =>
    match d[x]? with
    | some none => some (d.set x (some ⟨0, []⟩), false)
    | _ => none
  | .ctor x cap =>
    match d[x]? with
    | some none => if throws limit 2 then some (d, true) else some (d.set x (some ⟨cap, []⟩), false)
    | _ => none
  | .copy x y =>
    match d[x]?, d[y]? with
    | some none, some (some q) => if throws limit (2 + q.entries.length) then some (d, true) else some (d.set x (some q), false)
    | _, _ => none
  | .move x y =>
    match d[x]?, d[y]? with
    | some none, some (some q) => some ((d.set y (some ⟨0, []⟩)).set x (some q), false)
    | _, _ => none
  | .destroy x =>
    match d[x]? with
    | some (some _) => some (d.set x none, false)
    | _ => none
  | .assignCopy x y =>
    match d[x]?, d[y]? with
    | some (some _), some (some q) => if throws limit (2 + q.entries.length) then some (d, true) else some (d.set x (some q), false)
    | _, _ => none
  | .assignMove x y =>
    match d[x]?, d[y]? with
    | some (some _), some (some q) => some ((d.set y (some ⟨0, []⟩)).set x (some q), false)
    | _, _ => none
  | .swap x y =>
    match d[x]?, d[y]? with
    | some (some p), some (some q) => some ((d.set x (some q)).set y (some p), false)
    | _, _ => none
  | .insert x k v =>
    match d[x]? with
    | some (some q) => some (d.put x ((q.tryPut torn k v limit).1, (q.tryPut torn k v limit).2.1))
    | _ => none
  | .tryInsert x k v =>
    match d[x]? with
    | some (some q) =>
      if k ∈ q.entries.map (·.1) then some (d, false)
      else some (d.put x ((q.tryPut torn k v limit).1, (q.tryPut torn k v limit).2.1))
    | _ => none
  | .insertRange x xs =>
    match d[x]? with
    | some (some q) => some (d.put x (q.putAll torn (xs.drop (xs.length - q.cap)) limit))
    | _ => none
  | .clear x =>
    match d[x]? with
    | some (some q) => some (d.set x (some ⟨q.cap, []⟩), false)
    | _ => none
  | .reset x n =>
    match d[x]? with
    | some (some q) =>
      if throws limit (if n = q.cap then 1 else 2) then some (d.set x (some ⟨q.cap, []⟩), true) else some (d.set x (some ⟨n, []⟩), false)
    | _ => none

/-- A program that catches all exceptions: the values at the end and which calls threw. -/
def program (torn : ν → ν → ν) : MapVars κ ν → List (Option Nat × CvOp κ ν) → Option (MapVars κ ν × List Bool)
  | d, [] => some (d, [])
  | d, (limit, op) :: prog =>
    match d.step torn limit op with
    | none => none
    | some (d', threw) =>
      match program torn d' prog with
      | none => none
      | some (e, flags) => some (e, threw :: flags)

/-- No `reset` in the program fails in its second allocation, the one of the memory for a new capacity. -/
def SafeProgram (torn : ν → ν → ν) : MapVars κ ν → List (Option Nat × CvOp κ ν) → Prop
  | _, [] => True
  | d, (limit, op) :: prog =>
    (∀ x n q, op = .reset x n → d[x]? = some (some q) → n ≠ q.cap → limit ≠ some 1) ∧ ∀ d' threw, d.step torn limit op = some (d', threw) → SafeProgram torn d' prog

end MapVars
end Gapp.Spec
