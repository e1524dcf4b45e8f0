/-!
# Model of `gapp::detail::circular_buffer`

Source: `/repo/src/utility/circular_buffer.hpp`.

The raw storage `buffer_` is a list of slots; a slot is `none` while no object lives in it. Every
operation returns `none` when the C++ code would fail an assertion or touch a slot in the wrong
lifetime state (construct over a live object, assign to / read / destroy a dead one).
Simplifications: element type is a pure value (moves are copies, constructors do not throw),
allocation always succeeds, `size_type` is `Nat`.
-/

namespace Gapp.Model

/-- Data members of `circular_buffer` (circular_buffer.hpp:337-341). `capacity_` is `slots.length`. -/
structure CircularBuffer (α : Type) where
  slots : List (Option α)
  first : Nat
  size : Nat
  deriving Repr, DecidableEq

namespace CircularBuffer
variable {α : Type}

/-- circular_buffer.hpp:128 `capacity()`. -/
def capacity (b : CircularBuffer α) : Nat := b.slots.length

/-- circular_buffer.hpp:132 `full()`. -/
def full (b : CircularBuffer α) : Bool := b.size == b.capacity

/-- circular_buffer.hpp:131 `empty()`. -/
def empty (b : CircularBuffer α) : Bool := b.size == 0

/-- circular_buffer.hpp:50: Constructor with a capacity (circular_buffer.hpp, ctor `circular_buffer(size_type capacity)`) and
the default constructor (capacity 0): no live elements. -/
def init (cap : Nat) : CircularBuffer α := ⟨List.replicate cap none, 0, 0⟩

/-- utility.hpp:169-175 `next_mod`; `none` for a failed assertion. -/
def nextMod (value mod : Nat) : Option Nat :=
  if 0 < mod ∧ value < mod then some (if value + 1 = mod then 0 else value + 1) else none

/-- utility.hpp:178-184 `prev_mod`; `none` for a failed assertion. -/
def prevMod (value mod : Nat) : Option Nat :=
  if 0 < mod ∧ value < mod then some (if value = 0 then mod - 1 else value - 1) else none

/-- circular_buffer.hpp:353-357 `pointer_to`: the slot number of logical position `pos`. -/
def slotOf (b : CircularBuffer α) (pos : Nat) : Nat :=
  let idx := b.first + pos
  if idx ≥ b.capacity then idx - b.capacity else idx

/-- circular_buffer.hpp:138-148: Reading an object in a slot: defined only if an object lives there. -/
def read (b : CircularBuffer α) (slot : Nat) : Option α := (b.slots[slot]?).join

/-- circular_buffer.hpp:233, 253: `detail::construct` at a slot: the slot must exist and hold no object. -/
def construct (b : CircularBuffer α) (slot : Nat) (v : α) : Option (CircularBuffer α) :=
  match b.slots[slot]? with
  | some none => some { b with slots := b.slots.set slot (some v) }
  | _ => none

/-- circular_buffer.hpp:248: Assignment `buffer_[slot] = v`: the slot must hold an object. -/
def assign (b : CircularBuffer α) (slot : Nat) (v : α) : Option (CircularBuffer α) :=
  match b.slots[slot]? with
  | some (some _) => some { b with slots := b.slots.set slot (some v) }
  | _ => none

/-- circular_buffer.hpp:264, 272, 293: `detail::destroy` of a slot: the slot must hold an object. -/
def destroySlot (b : CircularBuffer α) (slot : Nat) : Option (CircularBuffer α) :=
  match b.slots[slot]? with
  | some (some _) => some { b with slots := b.slots.set slot none }
  | _ => none

/-- circular_buffer.hpp:138-148 `operator[]` (assertion `pos < size()`). -/
def get (b : CircularBuffer α) (pos : Nat) : Option α :=
  if pos < b.size then b.read (b.slotOf pos) else none

/-- circular_buffer.hpp:162-172 `front()`. -/
def front (b : CircularBuffer α) : Option α :=
  if b.empty then none else b.read b.first

/-- circular_buffer.hpp:174-184 `back()`. -/
def back (b : CircularBuffer α) : Option α :=
  if b.empty then none else b.get (b.size - 1)

/-- Iterating from `begin()` to `end()` (circular_buffer.hpp:105-121; the iterators are
position-based and dereference through `operator[]`). -/
def contents (b : CircularBuffer α) : Option (List α) :=
  (List.range b.size).mapM b.get

/-- circular_buffer.hpp:190-202, 218-236 `push_back` / `emplace_back`. -/
def pushBack (b : CircularBuffer α) (v : α) : Option (CircularBuffer α) :=
  if 0 < b.capacity then
    if b.full then do
      let b' ← b.assign b.first v
      let f ← nextMod b.first b.capacity
      return { b' with first := f }
    else do
      let b' ← b.construct (b.slotOf b.size) v
      return { b' with size := b.size + 1 }
  else none

/-- circular_buffer.hpp:204-216, 238-259 `push_front` / `emplace_front`. -/
def pushFront (b : CircularBuffer α) (v : α) : Option (CircularBuffer α) :=
  if 0 < b.capacity then do
    let newFirst ← prevMod b.first b.capacity
    if b.full then
      let b' ← b.assign newFirst v
      return { b' with first := newFirst }
    else
      let b' ← b.construct newFirst v
      return { b' with first := newFirst, size := b.size + 1 }
  else none

/-- circular_buffer.hpp:261-267 `pop_front`. -/
def popFront (b : CircularBuffer α) : Option (CircularBuffer α) :=
  if b.empty then none else do
    let b' ← b.destroySlot b.first
    let f ← nextMod b.first b.capacity
    return { b' with first := f, size := b.size - 1 }

/-- circular_buffer.hpp:269-274 `pop_back`. -/
def popBack (b : CircularBuffer α) : Option (CircularBuffer α) :=
  if b.empty then none else do
    let b' ← b.destroySlot (b.slotOf (b.size - 1))
    return { b' with size := b.size - 1 }

/-- circular_buffer.hpp:291-296 `clear`: destroy the elements in iteration order, then reset the
position fields. -/
def clear (b : CircularBuffer α) : Option (CircularBuffer α) := do
  let b' ← (List.range b.size).foldlM (fun c pos => c.destroySlot (c.slotOf pos)) b
  return { b' with first := 0, size := 0 }

/-- circular_buffer.hpp:276-289 `set_capacity`: copy the first `min(new_capacity, size())` elements
into a fresh buffer, `destroy()` the old one (lines 359-364, which runs `clear()`), install the new
buffer. -/
def setCapacity (b : CircularBuffer α) (newCap : Nat) : Option (CircularBuffer α) :=
  if newCap = b.capacity then some b else do
    let newSize := min newCap b.size
    let copied ← (List.range newSize).mapM b.get
    let _ ← b.clear
    return { slots := copied.map some ++ List.replicate (newCap - newSize) none,
             first := 0, size := newSize }

/-- circular_buffer.hpp:298-305 `reset`. -/
def reset (b : CircularBuffer α) (newCap : Nat) : Option (CircularBuffer α) := do
  let c ← b.clear
  if newCap = c.capacity then return c
  else return { c with slots := List.replicate newCap none }

/-- circular_buffer.hpp:57-67 range constructor: keep the last `min(capacity, length)` elements. -/
def ofRange (cap : Nat) (xs : List α) : CircularBuffer α :=
  let size := min cap xs.length
  ⟨(xs.drop (xs.length - size)).map some ++ List.replicate (cap - size) none, 0, size⟩

/-- circular_buffer.hpp:190-307: The public modifiers of the class. -/
inductive Op (α : Type) where
  | pushBack (v : α)
  | pushFront (v : α)
  | popBack
  | popFront
  | clear
  | setCapacity (n : Nat)
  | reset (n : Nat)
  deriving Repr

/-- circular_buffer.hpp:190-307: Execute one public operation. -/
def step (b : CircularBuffer α) : Op α → Option (CircularBuffer α)
  | .pushBack v => b.pushBack v
  | .pushFront v => b.pushFront v
  | .popBack => b.popBack
  | .popFront => b.popFront
  | .clear => b.clear
  | .setCapacity n => b.setCapacity n
  | .reset n => b.reset n

/-- circular_buffer.hpp:190-307: Execute a sequence of operations. -/
def run (b : CircularBuffer α) (ops : List (Op α)) : Option (CircularBuffer α) :=
  ops.foldlM step b

end CircularBuffer
end Gapp.Model
