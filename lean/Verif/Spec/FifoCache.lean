import Verif.Model.FifoCache
/-!
# Specification of a bounded FIFO map

A list of `(key, value)` entries, oldest first insertion first.
-/

namespace Gapp.Spec

structure FifoMap (κ ν : Type) where
  cap : Nat
  entries : List (κ × ν)

namespace FifoMap
variable {κ ν : Type} [DecidableEq κ]

/-- Value stored for a key. -/
def lookup (d : FifoMap κ ν) (k : κ) : Option ν := d.entries.lookup k

/-- Overwrite the value of a resident key in place; otherwise append, dropping the oldest entry
if the map is full. A map of capacity 0 stores nothing. -/
def insert (d : FifoMap κ ν) (k : κ) (v : ν) : FifoMap κ ν :=
  if d.cap = 0 then d
  else if k ∈ d.entries.map (·.1) then
    { d with entries := d.entries.map (fun p => if p.1 = k then (k, v) else p) }
  else if d.entries.length = d.cap then { d with entries := d.entries.tail ++ [(k, v)] }
  else { d with entries := d.entries ++ [(k, v)] }

open Gapp.Model.FifoCache (Op)

def step (d : FifoMap κ ν) : Op κ ν → FifoMap κ ν
  | .insert k v => d.insert k v
  | .tryInsert k v => if k ∈ d.entries.map (·.1) then d else d.insert k v
  | .insertRange xs => (xs.drop (xs.length - d.cap)).foldl (fun d p => d.insert p.1 p.2) d
  | .clear => { d with entries := [] }
  | .reset n _ => { cap := n, entries := [] }

def run (d : FifoMap κ ν) (ops : List (Op κ ν)) : FifoMap κ ν := ops.foldl step d

end FifoMap

/-- The value of the last insertion of `k` in a history of insertions, in English: "the value most
recently inserted for `k`". -/
def lastInserted {κ ν : Type} [DecidableEq κ] (k : κ) (history : List (κ × ν)) : Option ν :=
  history.reverse.lookup k

end Gapp.Spec
