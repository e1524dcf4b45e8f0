import Verif.Model.CircularBuffer
/-!
# Model of the memory of several `circular_buffer`s

Source: `/repo/src/utility/circular_buffer.hpp`, `/repo/src/utility/small_vector.hpp:88-119, 192-213`, `/repo/src/utility/scope_exit.hpp`.

`Model/CircularBuffer` is one buffer with memory that is always there. Here the buffers are variables with a pointer to a block of the free store, and a call can fail: `limit` is the number
of allocations and of constructions of elements from a reference that succeed in the call before one throws (`none`: all succeed). The allocator is `std::allocator`, assignments to elements
and destructors do not throw, a moved-from element keeps its value (it is destroyed next). The values of the elements are pure.
-/

namespace Gapp.Model
open CircularBuffer

/-- circular_buffer.hpp:337-341: the data members; the pointer is null or the number of a block. -/
structure CbObj where
  buf : Option Nat
  first : Nat
  size : Nat
  cap : Nat
  deriving DecidableEq, Repr

/-- circular_buffer.hpp:337-341: the default member initializers. -/
def cbNull : CbObj := ⟨none, 0, 0, 0⟩

/-- the memory used by circular_buffer.hpp:337: Blocks that were allocated: the slots, or `none` once the block is freed. -/
abbrev CbHeap (α : Type) := List (Option (List (Option α)))

/-- the objects of circular_buffer.hpp:23: The free store and the variables; a variable is `none` before its construction and after its destruction. -/
structure CbMem (α : Type) where
  heap : CbHeap α
  vars : List (Option CbObj)
  deriving DecidableEq, Repr

/-- how a call of circular_buffer.hpp:46-314 can end: undefined behaviour or a violated precondition, `std::terminate`, an exception, a normal return. -/
inductive CbOut (σ : Type) where
  | undefined
  | terminated
  | threw (s : σ)
  | returned (s : σ)
  deriving DecidableEq, Repr

section
variable {α : Type}

/-- circular_buffer.hpp:51, 62, 280, 303, and each construction of an element: one step that can throw. `none`: it throws; otherwise what is left of the limit. -/
def cbSpend : Option Nat → Option (Option Nat)
  | none => some none
  | some 0 => none
  | some (n + 1) => some (some n)

/-- small_vector.hpp:92-95 `allocate`: a new block. Its number is the number of blocks so far. -/
def cbAllocate (heap : CbHeap α) (n : Nat) : CbHeap α := heap ++ [some (List.replicate n none)]

/-- small_vector.hpp:105-108 `deallocate`: `none` if there is no such block, if the size is not that of the allocation, or if objects still live in the block. -/
def cbDeallocate (heap : CbHeap α) (a n : Nat) : Option (CbHeap α) :=
  match heap[a]? with
  | some (some slots) => if slots.length = n ∧ slots.all Option.isNone then some (heap.set a none) else none
  | _ => none

/-- small_vector.hpp:122-137 `construct` in a slot of a block. -/
def cbConstruct (heap : CbHeap α) (a pos : Nat) (v : α) : Option (CbHeap α) :=
  match heap[a]? with
  | some (some slots) =>
    match slots[pos]? with
    | some none => some (heap.set a (some (slots.set pos (some v))))
    | _ => none
  | _ => none

/-- small_vector.hpp:112-119 `destroy` in a slot of a block. -/
def cbDestroyAt (heap : CbHeap α) (a pos : Nat) : Option (CbHeap α) :=
  match heap[a]? with
  | some (some slots) =>
    match slots[pos]? with
    | some (some _) => some (heap.set a (some (slots.set pos none)))
    | _ => none
  | _ => none

/-- small_vector.hpp:153-158 `destroy_range` of the first `n` slots. -/
def cbDestroyRange (heap : CbHeap α) (a n : Nat) : Option (CbHeap α) :=
  (List.range n).foldlM (fun h pos => cbDestroyAt h a pos) heap

/-- small_vector.hpp:209-212 `construct_range` and `std::uninitialized_copy_n` (circular_buffer.hpp:283): the elements are constructed in the slots from `pos` on; if a construction throws,
those constructed so far are destroyed. The flag is false if one did. -/
def cbFill (a : Nat) : CbHeap α → Nat → List α → Option Nat → Option (CbHeap α × Bool)
  | heap, _, [], _ => some (heap, true)
  | heap, pos, x :: xs, limit =>
    match cbSpend limit with
    | none => do
      let h ← cbDestroyRange heap a pos
      return (h, false)
    | some limit => do
      let h ← cbConstruct heap a pos x
      cbFill a h (pos + 1) xs limit

/-- circular_buffer.hpp:124-160, 343-357: the buffer as in `Model/CircularBuffer`; `none` if the block is not there or does not have the size of the capacity. -/
def cbView (heap : CbHeap α) (o : CbObj) : Option (CircularBuffer α) :=
  match o.buf with
  | none => if o.cap = 0 then some ⟨[], o.first, o.size⟩ else none
  | some a =>
    match heap[a]? with
    | some (some slots) => if slots.length = o.cap then some ⟨slots, o.first, o.size⟩ else none
    | _ => none

/-- circular_buffer.hpp:186-314: storing the members and the slots after an operation in place. -/
def cbStore (heap : CbHeap α) (o : CbObj) (b : CircularBuffer α) : CbHeap α × CbObj :=
  match o.buf with
  | none => (heap, { o with first := b.first, size := b.size })
  | some a => (heap.set a (some b.slots), { o with first := b.first, size := b.size })

/-- circular_buffer.hpp:359-364 `destroy`. -/
def cbDestroy (heap : CbHeap α) (o : CbObj) : Option (CbHeap α) :=
  match o.buf with
  | none => some heap
  | some a => do
    let b ← cbView heap o
    let c ← b.clear
    cbDeallocate (heap.set a (some c.slots)) a o.cap

/-- circular_buffer.hpp:50-54: the constructor with a capacity; no object if the allocation throws. -/
def cbSized (heap : CbHeap α) (n : Nat) (limit : Option Nat) : CbHeap α × Option CbObj :=
  match cbSpend limit with
  | none => (heap, none)
  | some _ => (cbAllocate heap n, some ⟨some heap.length, 0, 0, n⟩)

/-- circular_buffer.hpp:56-67: the constructor from a range, with the guard that frees the block if an element throws. -/
def cbRange (heap : CbHeap α) (n : Nat) (xs : List α) (limit : Option Nat) : Option (CbHeap α × Option CbObj) :=
  match cbSpend limit with
  | none => some (heap, none)
  | some limit => do
    let size := min n xs.length
    let (h, ok) ← cbFill heap.length (cbAllocate heap n) 0 (xs.drop (xs.length - size)) limit
    if ok then return (h, some ⟨some heap.length, 0, size, n⟩)
    else
      let h ← cbDeallocate h heap.length n
      return (h, none)

/-- circular_buffer.hpp:73-75: the copy constructor. -/
def cbCopy (heap : CbHeap α) (o : CbObj) (limit : Option Nat) : Option (CbHeap α × Option CbObj) := do
  let b ← cbView heap o
  let xs ← b.contents
  cbRange heap o.cap xs limit

/-- circular_buffer.hpp:276-289 `set_capacity`. If a copy of an element throws, the guard of line 281 deallocates `buffer_`, the old block, with the new capacity. If the elements have a
move constructor that does not throw, they are moved and nothing fails. The flag is false for an exception. -/
def cbSetCapacity (nothrowMove : Bool) (heap : CbHeap α) (o : CbObj) (n : Nat) (limit : Option Nat) : Option (CbHeap α × CbObj × Bool) :=
  if n = o.cap then some (heap, o, true) else
  match cbSpend limit with
  | none => some (heap, o, false)
  | some limit => do
    let newSize := min n o.size
    let b ← cbView heap o
    let xs ← (List.range newSize).mapM b.get
    let (h, ok) ← cbFill heap.length (cbAllocate heap n) 0 xs (if nothrowMove then none else limit)
    if ok then
      let h ← cbDestroy h o
      return (h, ⟨some heap.length, 0, newSize, n⟩, true)
    else
      let a ← o.buf
      let h ← cbDeallocate h a n
      return (h, o, false)

/-- circular_buffer.hpp:298-305 `reset`. If the allocation throws, `buffer_` still points to the block that was freed. -/
def cbReset (heap : CbHeap α) (o : CbObj) (n : Nat) (limit : Option Nat) : Option (CbHeap α × CbObj × Bool) := do
  let b ← cbView heap o
  let c ← b.clear
  let (h, o) := cbStore heap o c
  if n = o.cap then return (h, o, true)
  else
    let h ← match o.buf with
      | none => some h
      | some a => cbDeallocate h a o.cap
    match cbSpend limit with
    | none => return (h, o, false)
    | some _ => return (cbAllocate h n, { o with buf := some h.length, cap := n }, true)

/-- circular_buffer.hpp:46-314: calls with the numbers of the variables. -/
inductive CbOp (α : Type) where
  | default (x : Nat)
  | sized (x n : Nat)
  | range (x n : Nat) (xs : List α)
  | copy (x y : Nat)
  | move (x y : Nat)
  | destroy (x : Nat)
  | assignCopy (x y : Nat)
  | assignMove (x y : Nat)
  | swap (x y : Nat)
  | call (x : Nat) (op : CircularBuffer.Op α)
  deriving Repr

/-- circular_buffer.hpp:186-305: a call that does not construct anything from a reference, or whose element could be constructed. -/
def cbInPlace (s : CbMem α) (x : Nat) (o : CbObj) (op : CircularBuffer.Op α) : CbOut (CbMem α) :=
  match (cbView s.heap o).bind (·.step op) with
  | none => .undefined
  | some c => let (h, o) := cbStore s.heap o c; .returned ⟨h, s.vars.set x (some o)⟩

/-- circular_buffer.hpp:186-305: one call of a modifier. Exceptions leave `push_back(const T&)` (line 190), but `push_front(const T&)` is `noexcept` if elements can be moved without
exceptions (line 205). -/
def cbCall (nothrowMove : Bool) (s : CbMem α) (limit : Option Nat) (x : Nat) (o : CbObj) : CircularBuffer.Op α → CbOut (CbMem α)
  | .pushBack v =>
    if o.cap = 0 then .undefined else
    match cbSpend limit with
    | none => .threw s
    | some _ => cbInPlace s x o (.pushBack v)
  | .pushFront v =>
    if o.cap = 0 then .undefined else
    match cbSpend limit with
    | none => if nothrowMove then .terminated else .threw s
    | some _ => cbInPlace s x o (.pushFront v)
  | .setCapacity n =>
    match cbSetCapacity nothrowMove s.heap o n limit with
    | none => .undefined
    | some (h, o, ok) => if ok then .returned ⟨h, s.vars.set x (some o)⟩ else .threw ⟨h, s.vars.set x (some o)⟩
  | .reset n =>
    match cbReset s.heap o n limit with
    | none => .undefined
    | some (h, o, ok) => if ok then .returned ⟨h, s.vars.set x (some o)⟩ else .threw ⟨h, s.vars.set x (some o)⟩
  | op => cbInPlace s x o op

/-- circular_buffer.hpp:46-98, 307-315: one call. Constructors need a variable that is not alive, everything else one that is. -/
def cbStep (nothrowMove : Bool) (s : CbMem α) (limit : Option Nat) : CbOp α → CbOut (CbMem α)
  | .default x =>
    match s.vars[x]? with
    | some none => .returned ⟨s.heap, s.vars.set x (some cbNull)⟩
    | _ => .undefined
  | .sized x n =>
    match s.vars[x]? with
    | some none =>
      match cbSized s.heap n limit with
      | (h, some o) => .returned ⟨h, s.vars.set x (some o)⟩
      | (h, none) => .threw ⟨h, s.vars⟩
    | _ => .undefined
  | .range x n xs =>
    match s.vars[x]? with
    | some none =>
      match cbRange s.heap n xs limit with
      | none => .undefined
      | some (h, some o) => .returned ⟨h, s.vars.set x (some o)⟩
      | some (h, none) => .threw ⟨h, s.vars⟩
    | _ => .undefined
  | .copy x y =>
    match s.vars[x]?, s.vars[y]? with
    | some none, some (some oy) =>
      match cbCopy s.heap oy limit with
      | none => .undefined
      | some (h, some o) => .returned ⟨h, s.vars.set x (some o)⟩
      | some (h, none) => .threw ⟨h, s.vars⟩
    | _, _ => .undefined
  | .move x y =>
    match s.vars[x]?, s.vars[y]? with
    | some none, some (some oy) => .returned ⟨s.heap, (s.vars.set y (some cbNull)).set x (some oy)⟩
    | _, _ => .undefined
  | .destroy x =>
    match s.vars[x]? with
    | some (some o) =>
      match cbDestroy s.heap o with
      | none => .undefined
      | some h => .returned ⟨h, s.vars.set x none⟩
    | _ => .undefined
  | .assignCopy x y =>
    match s.vars[x]?, s.vars[y]? with
    | some (some ox), some (some oy) =>
      match cbCopy s.heap oy limit with
      | none => .undefined
      | some (h, none) => .threw ⟨h, s.vars⟩
      | some (h, some other) =>
        match cbDestroy h ox with
        | none => .undefined
        | some h => .returned ⟨h, s.vars.set x (some other)⟩
    | _, _ => .undefined
  | .assignMove x y =>
    match s.vars[y]? with
    | some (some oy) =>
      let vars := s.vars.set y (some cbNull)
      match vars[x]? with
      | some (some ox) =>
        match cbDestroy s.heap ox with
        | none => .undefined
        | some h => .returned ⟨h, vars.set x (some oy)⟩
      | _ => .undefined
    | _ => .undefined
  | .swap x y =>
    match s.vars[x]?, s.vars[y]? with
    | some (some ox), some (some oy) => .returned ⟨s.heap, (s.vars.set x (some oy)).set y (some ox)⟩
    | _, _ => .undefined
  | .call x op =>
    match s.vars[x]? with
    | some (some o) => cbCall nothrowMove s limit x o op
    | _ => .undefined

/-- circular_buffer.hpp:46-314: a program that catches the exceptions of every call and goes on. The flags say which calls threw. -/
def cbRun (nothrowMove : Bool) : CbMem α → List (Option Nat × CbOp α) → CbOut (CbMem α × List Bool)
  | s, [] => .returned (s, [])
  | s, (limit, op) :: prog =>
    match cbStep nothrowMove s limit op with
    | .undefined => .undefined
    | .terminated => .terminated
    | .threw s' =>
      match cbRun nothrowMove s' prog with
      | .returned (t, flags) => .returned (t, true :: flags)
      | r => r
    | .returned s' =>
      match cbRun nothrowMove s' prog with
      | .returned (t, flags) => .returned (t, false :: flags)
      | r => r

/-- before the first call of circular_buffer.hpp:46: No variable is constructed, nothing is allocated. -/
def cbStart (α : Type) (n : Nat) : CbMem α := ⟨[], List.replicate n none⟩

/-- circular_buffer.hpp:105-128: What iteration and `capacity()` show of a variable. -/
def cbObserve (s : CbMem α) (x : Nat) : Option (Nat × List α) := do
  let o ← (s.vars[x]?).join
  let b ← cbView s.heap o
  let xs ← b.contents
  return (o.cap, xs)
end

end Gapp.Model
