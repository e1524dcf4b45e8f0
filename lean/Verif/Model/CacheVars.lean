import Verif.Model.FifoCache
import Verif.Model.CircularOwnership
/-!
# Model of several `fifo_cache`s with copies, moves, swaps and exceptions

Source: `/repo/src/utility/cache.hpp`.

`Model/FifoCache` is one cache with calls that cannot fail, where an iterator of the map is the key of its element. Here every element of a map is a node with a number of its own, an iterator is the
number of a node, and using an iterator with another map than the one that has the node is undefined. Each call has a limit on the number of operations that succeed before one throws
(`none`: all succeed), as in `Model/CircularOwnership`: an allocation of a node together with the copy of its key and value, an assignment of a value (with the call of `f` in `insert` of a range), the
allocation of an array of buckets, and the allocation of the memory of the queue.

Simplifications:
* Hashing and comparing keys does not throw and is consistent.
* `reserve` and the constructors always count as one allocation of buckets; destructors do not throw.
-/

namespace Gapp.Model

/-- cache.hpp:187-190: the data members: the nodes and `bucket_count()` of `cache_`, the iterators in `order_`, and whether `order_` has memory of its own (it does not after a `reset`
whose allocation threw, circular_buffer.hpp:298-305). -/
structure CvCache (κ ν : Type) where
  nodes : List (Nat × κ × ν)
  buckets : Nat
  order : CircularBuffer Nat
  valid : Bool

/-- the objects of cache.hpp:18: the variables, and the number of the next node. -/
structure CvMem (κ ν : Type) where
  next : Nat
  vars : List (Option (CvCache κ ν))

/-- cache.hpp:36, 39, 44, 161: what is implementation-defined: the number of buckets of an empty map, of one constructed for `n` elements, and after `reserve(n)` for a map with `old` buckets; and the
value that is left by an assignment that throws. -/
structure CvEnv (ν : Type) where
  defaultBuckets : Nat
  initBuckets : Nat → Nat
  rehash : Nat → Nat → Nat
  torn : ν → ν → ν

section
variable {κ ν : Type} [DecidableEq κ]

/-- cache.hpp:36: the default constructor. -/
def cvDefault (E : CvEnv ν) : CvCache κ ν := ⟨[], E.defaultBuckets, CircularBuffer.init 0, true⟩

/-- cache.hpp:38-41: the constructor; `none` if it throws. -/
def cvCtor (E : CvEnv ν) (cap : Nat) (limit : Option Nat) : Option (CvCache κ ν × Option Nat) := do
  let limit ← cbSpend limit
  let limit ← cbSpend limit
  return (⟨[], E.initBuckets (cap + 1), CircularBuffer.init cap, true⟩, limit)

/-- cache.hpp:80: whether a map has a key. -/
def cvHas (nodes : List (Nat × κ × ν)) (k : κ) : Bool := nodes.any (fun p => p.2.1 = k)

/-- cache.hpp:49, 181: dereferencing an iterator; `none` if the map has no such node. -/
def cvDeref (nodes : List (Nat × κ × ν)) (it : Nat) : Option (κ × ν) := (nodes.find? (fun p => p.1 = it)).map (·.2)

/-- cache.hpp:83-97 `get`. -/
def cvGet (c : CvCache κ ν) (k : κ) : Option ν :=
  if c.nodes.length = 0 then none else (c.nodes.find? (fun p => p.2.1 = k)).map (·.2.2)

/-- cache.hpp:113, 127, 147: `erase` of an iterator; `none` if the map has no such node. -/
def cvErase (nodes : List (Nat × κ × ν)) (it : Nat) : Option (List (Nat × κ × ν)) :=
  if nodes.any (fun p => p.1 = it) then some (nodes.filter (fun p => ¬ p.1 = it)) else none

/-- cache.hpp:110, 144: the assignment to the value of a key that is in the map. -/
def cvAssign (nodes : List (Nat × κ × ν)) (k : κ) (f : ν → ν) : List (Nat × κ × ν) :=
  nodes.map (fun p => if p.2.1 = k then (p.1, p.2.1, f p.2.2) else p)

/-- cache.hpp:110-114, 124-128, 144-148: one element is inserted; `assign` tells whether the value of a key that is already there is assigned. A new node that makes the map rehash invalidates the
iterators and is reported as undefined. The flag is false for an exception. -/
def cvInsertOne (E : CvEnv ν) (assign : Bool) (next : Nat) (c : CvCache κ ν) (k : κ) (v : ν) (limit : Option Nat) : Option (Nat × CvCache κ ν × Bool × Option Nat) :=
  if cvHas c.nodes k then
    if assign then
      match cbSpend limit with
      | none => some (next, { c with nodes := cvAssign c.nodes k (fun old => E.torn old v) }, false, some 0)
      | some limit => some (next, { c with nodes := cvAssign c.nodes k (fun _ => v) }, true, limit)
    else some (next, c, true, limit)
  else
    match cbSpend limit with
    | none => some (next, c, false, some 0)
    | some limit =>
      if c.buckets < c.nodes.length + 1 ∨ c.valid = false then none
      else do
        let nodes := c.nodes ++ [(next, k, v)]
        let nodes ← if c.order.full then do
            let it ← c.order.front
            cvErase nodes it
          else some nodes
        let o ← c.order.pushBack next
        return (next + 1, { c with nodes := nodes, order := o }, true, limit)

/-- cache.hpp:142-149: the loop of `insert` of a range. -/
def cvInsertAll (E : CvEnv ν) : Nat → CvCache κ ν → List (κ × ν) → Option Nat → Option (Nat × CvCache κ ν × Bool)
  | next, c, [], _ => some (next, c, true)
  | next, c, p :: ps, limit => do
    let (next, c, ok, limit) ← cvInsertOne E true next c p.1 p.2 limit
    if ok then cvInsertAll E next c ps limit else return (next, c, false)

/-- cache.hpp:106, 192-198: the assertions at the start of the insertions. -/
def cvFree (c : CvCache κ ν) : Bool := decide (c.nodes.length ≤ c.buckets ∧ 1 ≤ c.buckets - c.nodes.length)

/-- cache.hpp:103-115 `insert`, 117-129 `try_insert`. -/
def cvInsert (E : CvEnv ν) (assign : Bool) (next : Nat) (c : CvCache κ ν) (k : κ) (v : ν) (limit : Option Nat) : Option (Nat × CvCache κ ν × Bool) :=
  if cvFree c then
    if c.order.capacity = 0 then some (next, c, true)
    else (cvInsertOne E assign next c k v limit).map (fun r => (r.1, r.2.1, r.2.2.1))
  else none

/-- cache.hpp:131-150 `insert` of a range. -/
def cvInsertRange (E : CvEnv ν) (next : Nat) (c : CvCache κ ν) (xs : List (κ × ν)) (limit : Option Nat) : Option (Nat × CvCache κ ν × Bool) :=
  if cvFree c then
    if c.order.capacity = 0 then some (next, c, true)
    else cvInsertAll E next c (xs.drop (xs.length - min c.order.capacity xs.length)) limit
  else none

/-- cache.hpp:47-50: the loop of the copy constructor over the iterators of the other cache. The flag is false for an exception. -/
def cvCopyLoop (other : CvCache κ ν) : Nat → CvCache κ ν → List Nat → Option Nat → Option (Nat × CvCache κ ν × Bool)
  | next, c, [], _ => some (next, c, true)
  | next, c, it :: its, limit => do
    let (k, v) ← cvDeref other.nodes it
    match c.nodes.find? (fun p => p.2.1 = k) with
    | some p => do
      let o ← c.order.pushBack p.1
      cvCopyLoop other next { c with order := o } its limit
    | none =>
      match cbSpend limit with
      | none => some (next, c, false)
      | some limit =>
        if c.buckets < c.nodes.length + 1 then none
        else do
          let o ← c.order.pushBack next
          cvCopyLoop other (next + 1) { c with nodes := c.nodes ++ [(next, k, v)], order := o } its limit

/-- cache.hpp:43-51: the copy constructor; no cache if it throws (the members are destroyed). -/
def cvCopy (E : CvEnv ν) (next : Nat) (other : CvCache κ ν) (limit : Option Nat) : Option (Nat × Option (CvCache κ ν)) :=
  match cvCtor E other.order.capacity limit with
  | none => some (next, none)
  | some (c, limit) => do
    let its ← other.order.contents
    let (next, c, ok) ← cvCopyLoop other next c its limit
    return (next, if ok then some c else none)

/-- cache.hpp:152-156 `clear`. -/
def cvClear (c : CvCache κ ν) : Option (CvCache κ ν) := do
  let o ← c.order.clear
  return { c with nodes := [], order := o }

/-- cache.hpp:158-163 `reset`, circular_buffer.hpp:298-305: the queue frees its memory before it allocates the new one; if that throws, it keeps the pointer to the memory that is gone. -/
def cvReset (E : CvEnv ν) (c : CvCache κ ν) (n : Nat) (limit : Option Nat) : Option (CvCache κ ν × Bool) := do
  let c ← cvClear c
  match cbSpend limit with
  | none => some (c, false)
  | some limit =>
    let c := { c with buckets := E.rehash c.buckets (n + 1) }
    if n = c.order.capacity then some (c, true)
    else if c.valid = false then none
    else
      match cbSpend limit with
      | none => some ({ c with valid := false }, false)
      | some _ => do
        let o ← c.order.reset n
        return ({ c with order := o }, true)

/-- cache.hpp:174-184 `operator==`; elements are compared through the iterators. -/
def cvEq [DecidableEq ν] (a b : CvCache κ ν) : Option Bool :=
  if a.nodes.length ≠ b.nodes.length then some false
  else go (a.nodes.length) 0
where
  /-- cache.hpp:178-182: the loop from the index `i` on, with `n` left. -/
  go : Nat → Nat → Option Bool
    | 0, _ => some true
    | n + 1, i => do
      let x ← (a.order.get i).bind (cvDeref a.nodes)
      let y ← (b.order.get i).bind (cvDeref b.nodes)
      if x = y then go n (i + 1) else some false

/-- cache.hpp:36-169: calls with the numbers of the variables. -/
inductive CvOp (κ ν : Type) where
  | default (x : Nat)
  | ctor (x cap : Nat)
  | copy (x y : Nat)
  | move (x y : Nat)
  | destroy (x : Nat)
  | assignCopy (x y : Nat)
  | assignMove (x y : Nat)
  | swap (x y : Nat)
  | insert (x : Nat) (k : κ) (v : ν)
  | tryInsert (x : Nat) (k : κ) (v : ν)
  | insertRange (x : Nat) (xs : List (κ × ν))
  | clear (x : Nat)
  | reset (x n : Nat)

/-- cache.hpp:99-163: the outcome of a modifier of the variable `x`. -/
def cvDone (s : CvMem κ ν) (x : Nat) : Option (Nat × CvCache κ ν × Bool) → CbOut (CvMem κ ν)
  | none => .undefined
  | some (next, c, ok) => if ok then .returned ⟨next, s.vars.set x (some c)⟩ else .threw ⟨next, s.vars.set x (some c)⟩

/-- cache.hpp:36-169: one call. Constructors need a variable that is not alive, everything else one that is. The assignments (cache.hpp:58-62) take their argument by value: it is copied or moved, swapped,
and destroyed with the old value. -/
def cvStep (E : CvEnv ν) (s : CvMem κ ν) (limit : Option Nat) : CvOp κ ν → CbOut (CvMem κ ν)
  | .default x =>
    match s.vars[x]? with
    | some none => .returned ⟨s.next, s.vars.set x (some (cvDefault E))⟩
    | _ => .undefined
  | .ctor x cap =>
    match s.vars[x]? with
    | some none =>
      match cvCtor E cap limit with
      | none => .threw s
      | some (c, _) => .returned ⟨s.next, s.vars.set x (some c)⟩
    | _ => .undefined
  | .copy x y =>
    match s.vars[x]?, s.vars[y]? with
    | some none, some (some q) =>
      match cvCopy E s.next q limit with
      | none => .undefined
      | some (next, none) => .threw ⟨next, s.vars⟩
      | some (next, some c) => .returned ⟨next, s.vars.set x (some c)⟩
    | _, _ => .undefined
  | .move x y =>
    match s.vars[x]?, s.vars[y]? with
    | some none, some (some q) => .returned ⟨s.next, (s.vars.set y (some (cvDefault E))).set x (some q)⟩
    | _, _ => .undefined
  | .destroy x =>
    match s.vars[x]? with
    | some (some c) => if c.valid then .returned ⟨s.next, s.vars.set x none⟩ else .undefined
    | _ => .undefined
  | .assignCopy x y =>
    match s.vars[x]?, s.vars[y]? with
    | some (some p), some (some q) =>
      match cvCopy E s.next q limit with
      | none => .undefined
      | some (next, none) => .threw ⟨next, s.vars⟩
      | some (next, some c) => if p.valid then .returned ⟨next, s.vars.set x (some c)⟩ else .undefined
    | _, _ => .undefined
  | .assignMove x y =>
    match s.vars[x]?, s.vars[y]? with
    | some (some _), some (some q) =>
      match (s.vars.set y (some (cvDefault E)))[x]? with
      | some (some old) => if old.valid then .returned ⟨s.next, (s.vars.set y (some (cvDefault E))).set x (some q)⟩ else .undefined
      | _ => .undefined
    | _, _ => .undefined
  | .swap x y =>
    match s.vars[x]?, s.vars[y]? with
    | some (some p), some (some q) => .returned ⟨s.next, (s.vars.set x (some q)).set y (some p)⟩
    | _, _ => .undefined
  | .insert x k v =>
    match s.vars[x]? with
    | some (some c) => cvDone s x (cvInsert E true s.next c k v limit)
    | _ => .undefined
  | .tryInsert x k v =>
    match s.vars[x]? with
    | some (some c) => cvDone s x (cvInsert E false s.next c k v limit)
    | _ => .undefined
  | .insertRange x xs =>
    match s.vars[x]? with
    | some (some c) => cvDone s x (cvInsertRange E s.next c xs limit)
    | _ => .undefined
  | .clear x =>
    match s.vars[x]? with
    | some (some c) => cvDone s x ((cvClear c).map (fun c => (s.next, c, true)))
    | _ => .undefined
  | .reset x n =>
    match s.vars[x]? with
    | some (some c) => cvDone s x ((cvReset E c n limit).map (fun r => (s.next, r.1, r.2)))
    | _ => .undefined

/-- cache.hpp:36-169: a program that catches the exceptions of every call and goes on. The flags say which calls threw. -/
def cvRun (E : CvEnv ν) : CvMem κ ν → List (Option Nat × CvOp κ ν) → CbOut (CvMem κ ν × List Bool)
  | s, [] => .returned (s, [])
  | s, (limit, op) :: prog =>
    match cvStep E s limit op with
    | .undefined => .undefined
    | .terminated => .terminated
    | .threw s' =>
      match cvRun E s' prog with
      | .returned (t, flags) => .returned (t, true :: flags)
      | r => r
    | .returned s' =>
      match cvRun E s' prog with
      | .returned (t, flags) => .returned (t, false :: flags)
      | r => r

/-- cache.hpp:69, 181: what a variable shows: the capacity, and the elements that the iterators refer to, in the order of the queue. -/
def cvObserve (s : CvMem κ ν) (x : Nat) : Option (Nat × List (κ × ν)) := do
  let c ← (s.vars[x]?).join
  let its ← c.order.contents
  let xs ← its.mapM (cvDeref c.nodes)
  return (c.order.capacity, xs)

/-- before the first call of cache.hpp:36: No variable is constructed. -/
def cvStart (κ ν : Type) (n : Nat) : CvMem κ ν := ⟨0, List.replicate n none⟩

end
end Gapp.Model
