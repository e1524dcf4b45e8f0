import Verif.Model.CircularBuffer
/-!
# Model of `gapp::detail::fifo_cache`

Source: `/repo/src/utility/cache.hpp`.

`std::unordered_map` is a finite map, represented by an association list with unique keys; only its
documented interface is used. A map iterator is identified with the key of the element it points
to; it is valid as long as the element is in the map and no rehash happens. The bucket count is part
of the model: an insertion that would exceed the bucket count (max load factor 1) rehashes,
invalidates the stored iterators and is reported as undefined behaviour (`none`), as is erasing
through an iterator whose element is gone and a failed assertion.
Simplifications: keys/values are pure values, hashing and key equality are consistent.
-/

namespace Gapp.Model

/-- Data members of `fifo_cache` (cache.hpp:189-190). `buckets` is `cache_.bucket_count()`. -/
structure FifoCache (κ ν : Type) where
  map : List (κ × ν)
  buckets : Nat
  order : CircularBuffer κ

namespace FifoCache
variable {κ ν : Type} [DecidableEq κ]

/-- cache.hpp:86, 94: `unordered_map::find` followed by reading the value. -/
def mapFind (m : List (κ × ν)) (k : κ) : Option ν := (m.find? (fun p => p.1 = k)).map (·.2)

/-- cache.hpp:110, 144: `unordered_map::insert_or_assign`; the flag tells whether a new element was inserted. -/
def mapInsertOrAssign (m : List (κ × ν)) (k : κ) (v : ν) : List (κ × ν) × Bool :=
  if m.any (fun p => p.1 = k) then (m.map (fun p => if p.1 = k then (p.1, v) else p), false)
  else (m ++ [(k, v)], true)

/-- cache.hpp:113, 127, 147: `unordered_map::erase(iterator)`; undefined if the element is not in the map. -/
def mapErase (m : List (κ × ν)) (k : κ) : Option (List (κ × ν)) :=
  if m.any (fun p => p.1 = k) then some (m.filter (fun p => ¬ p.1 = k)) else none

/-- cache.hpp:38-41: constructor; `unordered_map(n)` has at least `n` buckets, the actual number
is implementation defined (`extra`). -/
def init (cap extra : Nat) : FifoCache κ ν := ⟨[], cap + 1 + extra, CircularBuffer.init cap⟩

/-- cache.hpp:68-69. -/
def size (c : FifoCache κ ν) : Nat := c.map.length
/-- cache.hpp:69: `capacity()`. -/
def capacity (c : FifoCache κ ν) : Nat := c.order.capacity

/-- cache.hpp:78-81 `contains`. -/
def contains (c : FifoCache κ ν) (k : κ) : Bool := c.map.any (fun p => p.1 = k)

/-- cache.hpp:83-97 `get`: `none` is the null pointer. -/
def get (c : FifoCache κ ν) (k : κ) : Option ν :=
  if c.size = 0 then none else mapFind c.map k

/-- cache.hpp:192-198 `free_capacity` with its assertions. -/
def freeCapacity (c : FifoCache κ ν) : Option Nat :=
  if c.map.length ≤ c.buckets then some (c.buckets - c.map.length) else none

/-- The common loop body of cache.hpp:110-114 and 144-148 after `insert_or_assign`: evict the oldest
element if the order queue is full, then append the new iterator. The map holds one element more
than before when `insert_or_assign` inserted; exceeding the bucket count means a rehash. -/
def insertBody (c : FifoCache κ ν) (k : κ) (v : ν) : Option (FifoCache κ ν) :=
  let (m, inserted) := mapInsertOrAssign c.map k v
  if ¬ inserted then some { c with map := m }
  else if c.buckets < m.length then none
  else do
    let m' ← if c.order.full then do
        let oldest ← c.order.front
        mapErase m oldest
      else some m
    let o ← c.order.pushBack k
    return { c with map := m', order := o }

/-- cache.hpp:103-115 `insert(key, value)`. -/
def insert (c : FifoCache κ ν) (k : κ) (v : ν) : Option (FifoCache κ ν) := do
  let free ← c.freeCapacity
  if 1 ≤ free then
    if c.capacity = 0 then return c else c.insertBody k v
  else none

/-- cache.hpp:117-129 `try_insert(key, value)`: like `insert`, but a resident key keeps its value. -/
def tryInsert (c : FifoCache κ ν) (k : κ) (v : ν) : Option (FifoCache κ ν) := do
  let free ← c.freeCapacity
  if 1 ≤ free then
    if c.capacity = 0 then return c
    else if c.map.any (fun p => p.1 = k) then return c
    else c.insertBody k v
  else none

/-- cache.hpp:131-150 `insert(first, last, f)`; `xs` is the range of keys paired with the value `f`
returns for them. -/
def insertRange (c : FifoCache κ ν) (xs : List (κ × ν)) : Option (FifoCache κ ν) := do
  let free ← c.freeCapacity
  if 1 ≤ free then
    if c.capacity = 0 then return c
    else
      let insertCount := min c.capacity xs.length
      (xs.drop (xs.length - insertCount)).foldlM (fun c p => c.insertBody p.1 p.2) c
  else none

/-- cache.hpp:152-156 `clear`. -/
def clear (c : FifoCache κ ν) : Option (FifoCache κ ν) := do
  let o ← c.order.clear
  return { c with map := [], order := o }

/-- cache.hpp:158-163 `reset`; after `reserve(n + 1)` there are at least `n + 1` buckets. -/
def reset (c : FifoCache κ ν) (newCap extra : Nat) : Option (FifoCache κ ν) := do
  let c' ← c.clear
  let o ← c'.order.reset newCap
  return { c' with buckets := newCap + 1 + extra, order := o }

/-- cache.hpp:43-51 copy constructor: walk the order queue, dereference each iterator (undefined if
its element is gone), insert the element and append the new iterator. -/
def copyOf (other : FifoCache κ ν) (extra : Nat) : Option (FifoCache κ ν) := do
  let ks ← other.order.contents
  ks.foldlM (fun c k => do
    let v ← mapFind other.map k
    let (m, _) := (if c.map.any (fun p => p.1 = k) then (c.map, false) else (c.map ++ [(k, v)], true))
    if c.buckets < m.length then none else
    let o ← c.order.pushBack k
    return { c with map := m, order := o }) (init other.capacity extra)

/-- cache.hpp:18-199: The public modifiers. -/
inductive Op (κ ν : Type) where
  | insert (k : κ) (v : ν)
  | tryInsert (k : κ) (v : ν)
  | insertRange (xs : List (κ × ν))
  | clear
  | reset (cap extra : Nat)

/-- cache.hpp:18-199: One call of a public modifier. -/
def step (c : FifoCache κ ν) : Op κ ν → Option (FifoCache κ ν)
  | .insert k v => c.insert k v
  | .tryInsert k v => c.tryInsert k v
  | .insertRange xs => c.insertRange xs
  | .clear => c.clear
  | .reset n e => c.reset n e

/-- cache.hpp:18-199: A sequence of calls. -/
def run (c : FifoCache κ ν) (ops : List (Op κ ν)) : Option (FifoCache κ ν) := ops.foldlM step c

end FifoCache
end Gapp.Model
