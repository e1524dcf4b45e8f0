import Verif.Model.MergePareto
/-!
# The vector with inline storage

Models `small_vector` of `utility/small_vector.hpp` (lines 89-1063).

Memory is a region of cells; a cell holds an object or is raw memory. Constructing an object in a cell that holds one, destroying, reading or assigning a cell that holds none, touching a cell outside of a region and using a freed region are undefined behaviour (`ub`). Freeing memory that still holds objects is a leak (`leak`).

Simplifications:
* The allocator is `std::allocator` (all allocators are equal and have no `construct` and `destroy` of their own).
* Allocations do not fail, and the copies, moves, assignments and destructors of elements do not throw.
* The iterators that are returned by the modifiers are left out.
* Pointers into the vector are indices.
-/

namespace Gapp.Model

variable {α : Type}

/-- small_vector.hpp:338-339: What a vector depends on: the template parameters, the allocator and the element type. -/
structure SVEnv (α : Type) where
  /-- the inline capacity `Size` (line 338) -/
  inlineCap : Nat
  /-- `max_size()` (line 681) -/
  maxSize : Nat
  /-- how much more memory than requested is allocated for a number of elements (lines 92-102) -/
  slack : Nat → Nat
  /-- the value that is left in an object that was moved from -/
  moved : α → α
  /-- the value of a value-initialised object -/
  default : α
  /-- elements are trivially destructible: destroying them does nothing, and there may be an object in raw memory -/
  trivial : Bool

/-- small_vector.hpp:92-102, 338, 681: The environment makes sense: the inline buffer is not empty, and neither it nor an allocation exceeds `max_size()`. -/
structure SVEnvOk (E : SVEnv α) : Prop where
  inline_pos : 0 < E.inlineCap
  inline_le : E.inlineCap ≤ E.maxSize
  slack_le : ∀ n ≤ E.maxSize, n + E.slack n ≤ E.maxSize

/-- small_vector.hpp:651-661: The ways an operation can fail. -/
inductive SVErr
  /-- undefined behaviour -/
  | ub
  /-- memory is freed while there are objects in it -/
  | leak
  /-- `std::length_error` is thrown -/
  | length
  /-- `std::out_of_range` is thrown -/
  | range
deriving DecidableEq

/-- what small_vector.hpp:92-102 returns: Memory for `cap` elements. -/
structure Region (α : Type) where
  cap : Nat
  cells : Nat → Option α

/-- small_vector.hpp:777-815: A `const T&` argument: it refers to an object outside of the vector, or to an element of it. -/
inductive SVArg (α : Type)
  | ext (a : α)
  | own (i : Nat)

/-- small_vector.hpp:892-896: the inline buffer, the allocated storage if it is in use, and the number of elements (`last_ - first_`). -/
structure SVec (α : Type) where
  buf : Nat → Option α
  heap : Option (Region α)
  size : Nat

/-! ## Cells -/

/-- small_vector.hpp:92-102 `allocate`. `std::allocator` throws if more than `max_size()` elements are requested (the exception `std::bad_array_new_length` is not told apart from `std::length_error`). -/
def regAlloc (E : SVEnv α) (n : Nat) : Except SVErr (Region α) :=
  if n ≤ E.maxSize then .ok ⟨n + E.slack n, fun _ => none⟩ else .error .length

/-- an access through a pointer of small_vector.hpp:339-1062: Reading the object in cell `i`. -/
def regRead (r : Region α) (i : Nat) : Except SVErr α :=
  if i < r.cap then
    match r.cells i with
    | some a => .ok a
    | none => .error .ub
  else .error .ub

/-- small_vector.hpp:123-150 `construct`. -/
def regConstruct (E : SVEnv α) (r : Region α) (i : Nat) (a : α) : Except SVErr (Region α) :=
  if i < r.cap ∧ (E.trivial || (r.cells i).isNone) then .ok { r with cells := upd r.cells i (some a) } else .error .ub

/-- small_vector.hpp:113-119 `destroy`: nothing is done for trivially destructible types. -/
def regDestroy (E : SVEnv α) (r : Region α) (i : Nat) : Except SVErr (Region α) :=
  if E.trivial then .ok r
  else if i < r.cap ∧ (r.cells i).isSome then .ok { r with cells := upd r.cells i none } else .error .ub

/-- an assignment through a pointer of small_vector.hpp:339-1062: Assigning to the object in cell `i`. -/
def regAssign (r : Region α) (i : Nat) (a : α) : Except SVErr (Region α) :=
  if i < r.cap ∧ (r.cells i).isSome then .ok { r with cells := upd r.cells i (some a) } else .error .ub

/-- a move through a pointer of small_vector.hpp:339-1062: Moving the object out of cell `i`: its value, and the memory with the moved-from object. -/
def regMoveOut (E : SVEnv α) (r : Region α) (i : Nat) : Except SVErr (α × Region α) := do
  let a ← regRead r i
  let r ← regAssign r i (E.moved a)
  .ok (a, r)

/-- small_vector.hpp:156-159 `destroy_range` of `n` cells. -/
def regDestroyRange (E : SVEnv α) (r : Region α) (i : Nat) : (n : Nat) → Except SVErr (Region α)
  | 0 => .ok r
  | n + 1 => do
    let r ← regDestroy E r i
    regDestroyRange E r (i + 1) n

/-- small_vector.hpp:163-213 `construct_range` from a range of values (also used for `n` copies of a value that is not in the region, and for `n` value-initialised objects). The copy of the bytes for trivially constructible types has the same result if the element types are the same; see `rangeCopyBytes` for the other case. -/
def regConstructRange (E : SVEnv α) (r : Region α) (i : Nat) : List α → Except SVErr (Region α)
  | [] => .ok r
  | a :: as => do
    let r ← regConstruct E r i a
    regConstructRange E r (i + 1) as

/-- small_vector.hpp:777-815: Reading an argument while the vector's elements are in the region `r`. -/
def argRead (r : Region α) : SVArg α → Except SVErr α
  | .ext a => .ok a
  | .own i => regRead r i

/-- small_vector.hpp:183-190 `construct_range` from `n` copies of a value, which may be in the region. -/
def regConstructArg (E : SVEnv α) (r : Region α) (i : Nat) (arg : SVArg α) : (n : Nat) → Except SVErr (Region α)
  | 0 => .ok r
  | n + 1 => do
    let a ← argRead r arg
    let r ← regConstruct E r i a
    regConstructArg E r (i + 1) arg n

/-- small_vector.hpp:265-269 `assign_range` of a value (`std::fill`), which may be in the region. -/
def regAssignArg (r : Region α) (i : Nat) (arg : SVArg α) : (n : Nat) → Except SVErr (Region α)
  | 0 => .ok r
  | n + 1 => do
    let a ← argRead r arg
    let r ← regAssign r i a
    regAssignArg r (i + 1) arg n

/-- small_vector.hpp:258-262 `assign_range` from a range (`std::copy`). -/
def regAssignRange (r : Region α) (i : Nat) : List α → Except SVErr (Region α)
  | [] => .ok r
  | a :: as => do
    let r ← regAssign r i a
    regAssignRange r (i + 1) as

/-- small_vector.hpp:217-253 `relocate_range_strong`, `relocate_range_weak` from one region into another. The elements are moved (`relocate_range_strong` copies them if moves may throw; `moved` is the identity then). -/
def regRelocate (E : SVEnv α) (src : Region α) (i : Nat) (dst : Region α) (j : Nat) : (n : Nat) → Except SVErr (Region α × Region α)
  | 0 => .ok (src, dst)
  | n + 1 => do
    let (a, src) ← regMoveOut E src i
    let dst ← regConstruct E dst j a
    regRelocate E src (i + 1) dst (j + 1) n

/-- small_vector.hpp:237-253 `relocate_range_weak` within one region. -/
def regRelocateIn (E : SVEnv α) (r : Region α) (i j : Nat) : (n : Nat) → Except SVErr (Region α)
  | 0 => .ok r
  | n + 1 => do
    let (a, r) ← regMoveOut E r i
    let r ← regConstruct E r j a
    regRelocateIn E r (i + 1) (j + 1) n

/-- small_vector.hpp:792: `std::shift_right(first + i, first + i + n + 1, 1)`: the `n` elements from `i` are moved one cell to the right, starting with the last one. -/
def regShiftRight (E : SVEnv α) (r : Region α) (i : Nat) : (n : Nat) → Except SVErr (Region α)
  | 0 => .ok r
  | n + 1 => do
    let (a, r) ← regMoveOut E r (i + n)
    let r ← regAssign r (i + n + 1) a
    regShiftRight E r i n

/-- small_vector.hpp:868: Move-assignment of the `n` elements from `j` to the cells from `i`, in this order. -/
def regMoveDown (E : SVEnv α) (r : Region α) (i j : Nat) : (n : Nat) → Except SVErr (Region α)
  | 0 => .ok r
  | n + 1 => do
    let (a, r) ← regMoveOut E r j
    let r ← regAssign r i a
    regMoveDown E r (i + 1) (j + 1) n

/-- small_vector.hpp:868: `std::shift_left(first + i, first + last, n)`: the memory and the end of the shifted elements. -/
def regShiftLeft (E : SVEnv α) (r : Region α) (i last n : Nat) : Except SVErr (Region α × Nat) :=
  if n = 0 then .ok (r, last)
  else if last - i ≤ n then .ok (r, i)
  else do
    let r ← regMoveDown E r i (i + n) (last - i - n)
    .ok (r, last - n)

/-- small_vector.hpp:723: `std::swap_ranges` of the first `n` cells of two regions. -/
def regSwapRanges (r s : Region α) : (n : Nat) → Except SVErr (Region α × Region α)
  | 0 => .ok (r, s)
  | n + 1 => do
    let (r, s) ← regSwapRanges r s n
    let a ← regRead r n
    let b ← regRead s n
    let r ← regAssign r n b
    let s ← regAssign s n a
    .ok (r, s)

/-- a range of pointers of small_vector.hpp:339-1062: The objects of the `n` cells from `i`. -/
def regList (r : Region α) (i : Nat) : (n : Nat) → Except SVErr (List α)
  | 0 => .ok []
  | n + 1 => do
    let a ← regRead r i
    let l ← regList r (i + 1) n
    .ok (a :: l)

/-- small_vector.hpp:105-108 `deallocate`. -/
def regFree (E : SVEnv α) (r : Region α) : Except SVErr Unit :=
  if E.trivial || (List.range r.cap).all (fun i => (r.cells i).isNone) then .ok () else .error .leak

/-! ## Storage -/

/-- small_vector.hpp:362-366: the empty vector. -/
def svEmpty : SVec α := ⟨fun _ => none, none, 0⟩

/-- small_vector.hpp:619-621, 680: The storage `[first_, last_alloc_)`. -/
def svRegion (E : SVEnv α) (v : SVec α) : Region α :=
  match v.heap with
  | none => ⟨E.inlineCap, v.buf⟩
  | some r => r

/-- small_vector.hpp:680 `capacity`. -/
def svCap (E : SVEnv α) (v : SVec α) : Nat := (svRegion E v).cap

/-- small_vector.hpp:339-1062: The vector after its storage was modified in place, with `n` elements. -/
def svPut (v : SVec α) (r : Region α) (n : Nat) : SVec α :=
  match v.heap with
  | none => ⟨r.cells, none, n⟩
  | some _ => ⟨v.buf, some r, n⟩

/-- small_vector.hpp:1005-1008, 1033-1036 `deallocate(); set_storage(data, size, capacity)`: the old storage, which is in the state `old`, is given up for the allocated storage `new`. -/
def svAdopt (E : SVEnv α) (v : SVec α) (old new : Region α) (n : Nat) : Except SVErr (SVec α) :=
  match v.heap with
  | none => .ok ⟨old.cells, some new, n⟩
  | some _ => do
    regFree E old
    .ok ⟨v.buf, some new, n⟩

/-- small_vector.hpp:1043-1060 `next_capacity`. -/
def svNextCap (E : SVEnv α) (cap growth : Nat) : Except SVErr Nat :=
  if growth > E.maxSize - cap then .error .length
  else if cap > E.maxSize - cap / 2 then .ok E.maxSize
  else .ok (max (cap + growth) (cap + cap / 2))

/-- small_vector.hpp:910-921 `reallocate_n`. -/
def svReallocate (E : SVEnv α) (v : SVec α) (newCap : Nat) : Except SVErr (SVec α) := do
  let new ← regAlloc E newCap
  let (old, new) ← regRelocate E (svRegion E v) 0 new 0 v.size
  let old ← regDestroyRange E old 0 v.size
  svAdopt E v old new v.size

/-- small_vector.hpp:924-939 `reallocate_append`. -/
def svReallocateAppend (E : SVEnv α) (v : SVec α) (newCap : Nat) (arg : SVArg α) : Except SVErr (SVec α) := do
  let new ← regAlloc E newCap
  let a ← argRead (svRegion E v) arg
  let new ← regConstruct E new v.size a
  let (old, new) ← regRelocate E (svRegion E v) 0 new 0 v.size
  let old ← regDestroyRange E old 0 v.size
  svAdopt E v old new (v.size + 1)

/-- small_vector.hpp:942-960 `reallocate_emplace`. -/
def svReallocateEmplace (E : SVEnv α) (v : SVec α) (newCap pos : Nat) (arg : SVArg α) : Except SVErr (SVec α) := do
  let new ← regAlloc E newCap
  let a ← argRead (svRegion E v) arg
  let new ← regConstruct E new pos a
  let (old, new) ← regRelocate E (svRegion E v) 0 new 0 pos
  let (old, new) ← regRelocate E old pos new (pos + 1) (v.size - pos)
  let old ← regDestroyRange E old 0 v.size
  svAdopt E v old new (v.size + 1)

/-- small_vector.hpp:183-190: `n` copies of an argument that is read from the region `src`, which is not the one they are constructed in. -/
def argCopies (src : Region α) (arg : SVArg α) (n : Nat) : Except SVErr (List α) :=
  if n = 0 then .ok [] else do
    let a ← argRead src arg
    .ok (List.replicate n a)

/-- small_vector.hpp:962-981, 984-1003 `reallocate_insert`: `vals` are the values of the source, as they are read from it after the elements before `pos` were moved to the new storage. -/
def svReallocateInsert (E : SVEnv α) (v : SVec α) (newCap pos : Nat) (vals : Region α → Except SVErr (List α)) : Except SVErr (SVec α) := do
  let new ← regAlloc E newCap
  let (old, new) ← regRelocate E (svRegion E v) 0 new 0 pos
  let xs ← vals old
  let new ← regConstructRange E new pos xs
  let (old, new) ← regRelocate E old pos new (pos + xs.length) (v.size - pos)
  let old ← regDestroyRange E old 0 v.size
  svAdopt E v old new (v.size + xs.length)

/-! ## Constructors and the destructor -/

/-- small_vector.hpp:900-908 `allocate_n`: the storage of a new vector for `n` elements. -/
def svAllocate (E : SVEnv α) (n : Nat) : Except SVErr (SVec α) :=
  if n ≤ E.inlineCap then .ok svEmpty
  else do
    let r ← regAlloc E n
    .ok ⟨fun _ => none, some r, 0⟩

/-- small_vector.hpp:375-403, 421-427: a new vector of the given elements (`n` value-initialised elements, `n` copies of a value, the elements of a forward range or of another vector). -/
def svCtorRange (E : SVEnv α) (xs : List α) : Except SVErr (SVec α) := do
  let v ← svAllocate E xs.length
  let r ← regConstructRange E (svRegion E v) 0 xs
  .ok (svPut v r xs.length)

/-- small_vector.hpp:699-704 `reset`. -/
def svReset (E : SVEnv α) (v : SVec α) : Except SVErr (SVec α) := do
  let r ← regDestroyRange E (svRegion E v) 0 v.size
  match v.heap with
  | none => .ok ⟨r.cells, none, 0⟩
  | some _ => do
    regFree E r
    .ok ⟨v.buf, none, 0⟩

/-- small_vector.hpp:452-456: the destructor. The inline buffer is freed together with the vector. -/
def svDestroy (E : SVEnv α) (v : SVec α) : Except SVErr Unit := do
  let v ← svReset E v
  regFree E (svRegion E v)

/-- small_vector.hpp:429-446: the move constructor. The result is the new vector and the source. -/
def svMoveCtor (E : SVEnv α) (w : SVec α) : Except SVErr (SVec α × SVec α) :=
  match w.heap with
  | none => do
    let (src, dst) ← regRelocate E (svRegion E w) 0 (svRegion E svEmpty) 0 w.size
    let src ← regDestroyRange E src 0 w.size
    .ok (⟨dst.cells, none, w.size⟩, ⟨src.cells, none, 0⟩)
  | some r => .ok (⟨fun _ => none, some r, w.size⟩, ⟨w.buf, none, 0⟩)

/-! ## Adding and removing elements -/

/-- small_vector.hpp:757-768 `emplace_back`, `push_back`. -/
def svPushBack (E : SVEnv α) (v : SVec α) (arg : SVArg α) : Except SVErr (SVec α) :=
  if v.size ≠ svCap E v then do
    let a ← argRead (svRegion E v) arg
    let r ← regConstruct E (svRegion E v) v.size a
    .ok (svPut v r (v.size + 1))
  else do
    let newCap ← svNextCap E (svCap E v) 1
    svReallocateAppend E v newCap arg

/-- small_vector.hpp:414, 524, 858: Repeated `emplace_back` of the elements of an input range (lines 414, 524, 858). -/
def svPushAll (E : SVEnv α) (v : SVec α) : List α → Except SVErr (SVec α)
  | [] => .ok v
  | a :: as => do
    let v ← svPushBack E v (.ext a)
    svPushAll E v as

/-- small_vector.hpp:408-415: a new vector of the elements of an input range. -/
def svCtorInput (E : SVEnv α) (xs : List α) : Except SVErr (SVec α) := svPushAll E svEmpty xs

/-- small_vector.hpp:770 `pop_back`: `destroy(alloc_, last_--)` destroys the cell that `last_` points to before it is decremented. -/
def svPopBack (E : SVEnv α) (v : SVec α) : Except SVErr (SVec α) :=
  if v.size = 0 then .error .ub
  else do
    let r ← regDestroy E (svRegion E v) v.size
    .ok (svPut v r (v.size - 1))

/-- small_vector.hpp:781-798 `emplace`, 775-776 `insert` of one element. -/
def svEmplace (E : SVEnv α) (v : SVec α) (pos : Nat) (arg : SVArg α) : Except SVErr (SVec α) :=
  if v.size ≠ svCap E v then
    if pos = v.size then svPushBack E v arg
    else do
      let a ← argRead (svRegion E v) arg
      let (b, r) ← regMoveOut E (svRegion E v) (v.size - 1)
      let r ← regConstruct E r v.size b
      let r ← regShiftRight E r pos (v.size - pos - 1)
      let r ← regAssign r pos a
      .ok (svPut v r (v.size + 1))
  else do
    let newCap ← svNextCap E (svCap E v) 1
    svReallocateEmplace E v newCap pos arg

/-- small_vector.hpp:800-823 `insert` of `count` copies. -/
def svInsertN (E : SVEnv α) (v : SVec α) (pos count : Nat) (arg : SVArg α) : Except SVErr (SVec α) :=
  if count ≤ svCap E v - v.size then do
    let middle := max (v.size - count) pos
    let r ← regConstructArg E (svRegion E v) v.size arg (middle + count - v.size)
    let r ← regRelocateIn E r middle (middle + count) (v.size - middle)
    let r ← regAssignArg r middle arg (v.size - middle)
    .ok (svPut v r (v.size + count))
  else do
    let newCap ← svNextCap E (svCap E v) count
    svReallocateInsert E v newCap pos (fun old => argCopies old arg count)

/-- small_vector.hpp:826-850 `insert` of a forward range. -/
def svInsertRange (E : SVEnv α) (v : SVec α) (pos : Nat) (xs : List α) : Except SVErr (SVec α) :=
  if xs.length ≤ svCap E v - v.size then do
    let middle := max (v.size - xs.length) pos
    let r ← regConstructRange E (svRegion E v) v.size (xs.drop (v.size - middle))
    let r ← regRelocateIn E r middle (middle + xs.length) (v.size - middle)
    let r ← regAssignRange r middle (xs.take (v.size - middle))
    .ok (svPut v r (v.size + xs.length))
  else do
    let newCap ← svNextCap E (svCap E v) xs.length
    svReallocateInsert E v newCap pos (fun _ => .ok xs)

/-- small_vector.hpp:853-862 `insert` of an input range. `std::rotate` is replaced by its result. -/
def svInsertInput (E : SVEnv α) (v : SVec α) (pos : Nat) (xs : List α) : Except SVErr (SVec α) := do
  let w ← svPushAll E v xs
  let l ← regList (svRegion E w) pos (w.size - pos)
  let r ← regAssignRange (svRegion E w) pos (l.drop (v.size - pos) ++ l.take (v.size - pos))
  .ok (svPut w r w.size)

/-- small_vector.hpp:864-872 `erase` of `[first, last)`, 778 `erase` of one element. -/
def svErase (E : SVEnv α) (v : SVec α) (first last : Nat) : Except SVErr (SVec α) := do
  let (r, newLast) ← regShiftLeft E (svRegion E v) first v.size (last - first)
  let r ← regDestroyRange E r newLast (v.size - newLast)
  .ok (svPut v r newLast)

/-- small_vector.hpp:693-697 `clear`. -/
def svClear (E : SVEnv α) (v : SVec α) : Except SVErr (SVec α) := do
  let r ← regDestroyRange E (svRegion E v) 0 v.size
  .ok (svPut v r 0)

/-! ## Capacity -/

/-- small_vector.hpp:686 `reserve`. -/
def svReserve (E : SVEnv α) (v : SVec α) (n : Nat) : Except SVErr (SVec α) :=
  if n > svCap E v then do
    let newCap ← svNextCap E (svCap E v) (n - svCap E v)
    svReallocate E v newCap
  else .ok v

/-- small_vector.hpp:687 `shrink_to_fit`. -/
def svShrink (E : SVEnv α) (v : SVec α) : Except SVErr (SVec α) :=
  if v.size > E.inlineCap then svReallocate E v v.size else .ok v

/-- small_vector.hpp:772, 1011-1024 `resize(count)`. -/
def svResize (E : SVEnv α) (v : SVec α) (n : Nat) : Except SVErr (SVec α) :=
  if n ≤ v.size then do
    let r ← regDestroyRange E (svRegion E v) n (v.size - n)
    .ok (svPut v r n)
  else do
    let w ← svReserve E v n
    let r ← regConstructRange E (svRegion E w) w.size (List.replicate (n - v.size) E.default)
    .ok (svPut w r n)

/-- small_vector.hpp:773, 1011-1024 `resize(count, value)`: a value in the vector is read from freed memory if `reserve` allocated new storage. -/
def svResizeV (E : SVEnv α) (v : SVec α) (n : Nat) (arg : SVArg α) : Except SVErr (SVec α) :=
  if n ≤ v.size then do
    let r ← regDestroyRange E (svRegion E v) n (v.size - n)
    .ok (svPut v r n)
  else do
    let w ← svReserve E v n
    match arg with
    | .ext a => do
      let r ← regConstructRange E (svRegion E w) w.size (List.replicate (n - v.size) a)
      .ok (svPut w r n)
    | .own i =>
      if n > svCap E v then .error .ub
      else do
        let r ← regConstructArg E (svRegion E w) w.size (.own i) (n - v.size)
        .ok (svPut w r n)

/-! ## Assignment -/

/-- small_vector.hpp:462-486 `assign(count, value)`. -/
def svAssignN (E : SVEnv α) (v : SVec α) (n : Nat) (arg : SVArg α) : Except SVErr (SVec α) :=
  let com := min v.size n
  if n ≤ svCap E v then do
    let r ← regAssignArg (svRegion E v) 0 arg com
    let r ← regConstructArg E r com arg (n - com)
    let r ← regDestroyRange E r com (v.size - com)
    -- the destroyed cells are those from `com` on: there are none if elements were constructed
    .ok (svPut v r n)
  else do
    let newCap ← svNextCap E (svCap E v) (n - v.size)
    let new ← regAlloc E newCap
    let xs ← argCopies (svRegion E v) arg n
    let new ← regConstructRange E new 0 xs
    let old ← regDestroyRange E (svRegion E v) 0 v.size
    svAdopt E v old new n

/-- small_vector.hpp:488-513 `assign` of a forward range, 532-551 the copy assignment. -/
def svAssignRange (E : SVEnv α) (v : SVec α) (xs : List α) : Except SVErr (SVec α) :=
  let com := min v.size xs.length
  if xs.length ≤ svCap E v then do
    let r ← regAssignRange (svRegion E v) 0 (xs.take com)
    let r ← regConstructRange E r com (xs.drop com)
    let r ← regDestroyRange E r com (v.size - com)
    .ok (svPut v r xs.length)
  else do
    let newCap ← svNextCap E (svCap E v) (xs.length - v.size)
    let new ← regAlloc E newCap
    let new ← regConstructRange E new 0 xs
    let old ← regDestroyRange E (svRegion E v) 0 v.size
    svAdopt E v old new xs.length

/-- small_vector.hpp:515-525 `assign` of an input range. -/
def svAssignInput (E : SVEnv α) (v : SVec α) (xs : List α) : Except SVErr (SVec α) := do
  let com := min v.size xs.length
  let r ← regAssignRange (svRegion E v) 0 (xs.take com)
  let r ← regDestroyRange E r com (v.size - com)
  svPushAll E (svPut v r com) (xs.drop com)

/-- small_vector.hpp:605: Moving the first `n` elements out of a region (dereferencing move iterators). -/
def regMoveList (E : SVEnv α) (r : Region α) (i : Nat) : (n : Nat) → Except SVErr (List α × Region α)
  | 0 => .ok ([], r)
  | n + 1 => do
    let (a, r) ← regMoveOut E r i
    let (l, r) ← regMoveList E r (i + 1) n
    .ok (a :: l, r)

/-- small_vector.hpp:553-607: the move assignment of two different vectors: `v = std::move(w)`. `fwd` tells whether move iterators are forward iterators in the standard library that is used (P2520). -/
def svMoveAssign (E : SVEnv α) (fwd : Bool) (v w : SVec α) : Except SVErr (SVec α × SVec α) :=
  match v.heap, w.heap with
  | some _, some _ => .ok (⟨v.buf, w.heap, w.size⟩, ⟨w.buf, v.heap, v.size⟩)
  | none, some r => do
    let old ← regDestroyRange E (svRegion E v) 0 v.size
    .ok (⟨old.cells, some r, w.size⟩, ⟨w.buf, none, 0⟩)
  | _, none => do
    let (xs, src) ← regMoveList E (svRegion E w) 0 w.size
    let v' ← if fwd then svAssignRange E v xs else svAssignInput E v xs
    .ok (v', svPut w src w.size)

/-- small_vector.hpp:717-728: `swap` of two vectors in inline storage; `small` has at most as many elements as `big`. -/
def svSwapInline (E : SVEnv α) (big small : SVec α) : Except SVErr (SVec α × SVec α) := do
  let (s, b) ← regSwapRanges (svRegion E small) (svRegion E big) small.size
  let (b, s) ← regRelocate E b small.size s small.size (big.size - small.size)
  let b ← regDestroyRange E b small.size (big.size - small.size)
  .ok (⟨b.cells, none, small.size⟩, ⟨s.cells, none, big.size⟩)

/-- small_vector.hpp:730-741: `swap` of a vector in allocated storage and one in inline storage. -/
def svSwapMixed (E : SVEnv α) (big small : SVec α) : Except SVErr (SVec α × SVec α) := do
  let (src, dst) ← regRelocate E (svRegion E small) 0 ⟨E.inlineCap, big.buf⟩ 0 small.size
  let src ← regDestroyRange E src 0 small.size
  .ok (⟨dst.cells, none, small.size⟩, ⟨src.cells, big.heap, big.size⟩)

/-- small_vector.hpp:706-748 `swap` of two different vectors. -/
def svSwap (E : SVEnv α) (v w : SVec α) : Except SVErr (SVec α × SVec α) :=
  match v.heap, w.heap with
  | some _, some _ => .ok (⟨v.buf, w.heap, w.size⟩, ⟨w.buf, v.heap, v.size⟩)
  | none, none =>
    if v.size < w.size then do
      let (w', v') ← svSwapInline E w v
      .ok (v', w')
    else svSwapInline E v w
  | none, some _ => do
    let (w', v') ← svSwapMixed E w v
    .ok (v', w')
  | some _, none => svSwapMixed E v w

/-! ## Access -/

/-- small_vector.hpp:651-661 `at`. -/
def svAt (E : SVEnv α) (v : SVec α) (i : Nat) : Except SVErr α :=
  if i ≥ v.size then .error .range else regRead (svRegion E v) i

/-- small_vector.hpp:639-649 `operator[]`: the index is only checked by an assertion. -/
def svIndex (E : SVEnv α) (v : SVec α) (i : Nat) : Except SVErr α :=
  if i < v.size then regRead (svRegion E v) i else .error .ub

/-- small_vector.hpp:619-621: The elements `[begin(), end())`. -/
def svElems (E : SVEnv α) (v : SVec α) : Except SVErr (List α) := regList (svRegion E v) 0 v.size

/-- small_vector.hpp:882-885 `operator==`. -/
def svEq [BEq α] (E : SVEnv α) (v w : SVec α) : Except SVErr Bool := do
  let xs ← svElems E v
  let ys ← svElems E w
  .ok (xs == ys)

/-! ## Histories -/

/-- small_vector.hpp:362-1062: The operations of a program on its vectors, which are numbered. A constructor replaces the vector of that number, which is destroyed before. -/
inductive SVOp (α : Type)
  | pushBack (v : Nat) (arg : SVArg α)
  | popBack (v : Nat)
  | emplace (v pos : Nat) (arg : SVArg α)
  | insertN (v pos count : Nat) (arg : SVArg α)
  | insertRange (v pos : Nat) (xs : List α)
  | insertInput (v pos : Nat) (xs : List α)
  | erase (v first last : Nat)
  | resize (v n : Nat)
  | resizeV (v n : Nat) (arg : SVArg α)
  | assignN (v n : Nat) (arg : SVArg α)
  | assignRange (v : Nat) (xs : List α)
  | assignInput (v : Nat) (xs : List α)
  | reserve (v n : Nat)
  | shrinkToFit (v : Nat)
  | clear (v : Nat)
  | copyAssign (v w : Nat)
  | moveAssign (v w : Nat) (fwd : Bool)
  | swap (v w : Nat)
  | ctorN (v n : Nat)
  | ctorRange (v : Nat) (xs : List α)
  | ctorInput (v : Nat) (xs : List α)
  | copyCtor (v w : Nat)
  | moveCtor (v w : Nat)

/-- small_vector.hpp:362-1062: One operation on one vector. -/
def svOn (s : Nat → SVec α) (v : Nat) (f : SVec α → Except SVErr (SVec α)) : Except SVErr (Nat → SVec α) := do
  let x ← f (s v)
  .ok (upd s v x)

/-- small_vector.hpp:362-1062: One operation on two different vectors. -/
def svOn2 (s : Nat → SVec α) (v w : Nat) (f : SVec α → SVec α → Except SVErr (SVec α × SVec α)) : Except SVErr (Nat → SVec α) := do
  let (x, y) ← f (s v) (s w)
  .ok (upd (upd s v x) w y)

/-- small_vector.hpp:362-1062: One operation. -/
def svStep (E : SVEnv α) (s : Nat → SVec α) : SVOp α → Except SVErr (Nat → SVec α)
  | .pushBack v arg => svOn s v (fun x => svPushBack E x arg)
  | .popBack v => svOn s v (fun x => svPopBack E x)
  | .emplace v pos arg => svOn s v (fun x => svEmplace E x pos arg)
  | .insertN v pos n arg => svOn s v (fun x => svInsertN E x pos n arg)
  | .insertRange v pos xs => svOn s v (fun x => svInsertRange E x pos xs)
  | .insertInput v pos xs => svOn s v (fun x => svInsertInput E x pos xs)
  | .erase v i j => svOn s v (fun x => svErase E x i j)
  | .resize v n => svOn s v (fun x => svResize E x n)
  | .resizeV v n arg => svOn s v (fun x => svResizeV E x n arg)
  | .assignN v n arg => svOn s v (fun x => svAssignN E x n arg)
  | .assignRange v xs => svOn s v (fun x => svAssignRange E x xs)
  | .assignInput v xs => svOn s v (fun x => svAssignInput E x xs)
  | .reserve v n => svOn s v (fun x => svReserve E x n)
  | .shrinkToFit v => svOn s v (fun x => svShrink E x)
  | .clear v => svOn s v (fun x => svClear E x)
  | .copyAssign v w =>
    if v = w then .ok s else svOn s v (fun x => do
      let xs ← svElems E (s w)
      svAssignRange E x xs)
  | .moveAssign v w fwd => if v = w then .ok s else svOn2 s v w (svMoveAssign E fwd)
  | .swap v w => if v = w then .ok s else svOn2 s v w (svSwap E)
  | .ctorN v n => svOn s v (fun x => do svDestroy E x; svCtorRange E (List.replicate n E.default))
  | .ctorRange v xs => svOn s v (fun x => do svDestroy E x; svCtorRange E xs)
  | .ctorInput v xs => svOn s v (fun x => do svDestroy E x; svCtorInput E xs)
  | .copyCtor v w => svOn s v (fun x => do
      let xs ← svElems E (s w)
      svDestroy E x
      svCtorRange E xs)
  | .moveCtor v w => svOn2 s v w (fun x y => do svDestroy E x; svMoveCtor E y)

/-! ## Ranges of another element type -/

/-- small_vector.hpp:199-207: the elements of a contiguous source range of trivially convertible elements are constructed by copying `n * size` bytes from the source, where `size` is the size of the *destination's* elements. `bytes` are the bytes of the source range. -/
def rangeCopyBytes {β : Type} (bytes : List β) (n size : Nat) : Except SVErr (List β) :=
  if n * size ≤ bytes.length then .ok (bytes.take (n * size)) else .error .ub

end Gapp.Model
