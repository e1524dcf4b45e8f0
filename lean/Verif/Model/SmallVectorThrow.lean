import Verif.Model.CircularOwnership
/-!
# Model of the memory of several `small_vector`s whose calls can throw

Source: `/repo/src/utility/small_vector.hpp`.

`Model/SmallVector` is the vector with calls that cannot fail. Here the vectors are variables with pointers to blocks of memory, and each call has a limit on the number of allocations and of
copies of elements that succeed before one throws (`none`: all succeed), as in `Model/CircularOwnership`, from which the free store is taken. The inline buffer of a vector is a block that
comes and goes with the variable; it does not fail.

Simplifications:
* The allocator is `std::allocator`, it returns as much memory as is asked for, and `max_size()` is not reached.
* The elements are not trivially copyable types (for these nothing but an allocation can fail). Destructors do not throw.
* Elements are either moved, assigned by moving and swapped without exceptions or none of these (`nothrowMove`). They are swapped by the general `std::swap`. An element whose move throws is unchanged.
* The arguments are not elements of the vector. `pop_back` and `insert` of several elements are left out, they do not work (`Model/SmallVector`, C45).
-/

namespace Gapp.Model

/-- small_vector.hpp:893-896: the data members; `inl` is the block of `buffer_`, `cur` the block that `first_` points to. -/
structure SvtObj where
  inl : Nat
  cur : Nat
  size : Nat
  cap : Nat
  deriving DecidableEq, Repr

/-- the objects of small_vector.hpp:339: the memory and the variables. -/
structure SvtMem (α : Type) where
  heap : CbHeap α
  vars : List (Option SvtObj)
  deriving DecidableEq, Repr

/-- small_vector.hpp:338, 213-254: the inline capacity, whether elements are moved without exceptions, and the value that is left in an object that was moved from. -/
structure SvtEnv (α : Type) where
  inlineCap : Nat
  nothrowMove : Bool
  moved : α → α

section
variable {α : Type}

/-- small_vector.hpp:155-159 `destroy_range` of `n` slots from `i` on. -/
def svtDestroyRange (heap : CbHeap α) (a i n : Nat) : Option (CbHeap α) :=
  (List.range n).foldlM (fun h k => cbDestroyAt h a (i + k)) heap

/-- small_vector.hpp:180-211 `construct_range`: the elements are constructed in the slots from `i` on; `k` are done. If one throws, those constructed so far are destroyed. The flag is
false then; the last component is what is left of the limit. -/
def svtFill (a i : Nat) : CbHeap α → Nat → List α → Option Nat → Option (CbHeap α × Bool × Option Nat)
  | heap, _, [], limit => some (heap, true, limit)
  | heap, k, x :: xs, limit =>
    match cbSpend limit with
    | none => do
      let h ← svtDestroyRange heap a i k
      return (h, false, some 0)
    | some limit => do
      let h ← cbConstruct heap a (i + k) x
      svtFill a i h (k + 1) xs limit

/-- small_vector.hpp:230, 251: what a construction from an element reads, and what it leaves there: `moving` tells whether the element is moved. -/
def svtTake (E : SvtEnv α) (moving : Bool) (heap : CbHeap α) (a i : Nat) : Option (α × CbHeap α) :=
  match heap[a]? with
  | some (some slots) =>
    match slots[i]? with
    | some (some x) => some (x, if moving then heap.set a (some (slots.set i (some (E.moved x)))) else heap)
    | _ => none
  | _ => none

/-- small_vector.hpp:213-254 `relocate_range_strong` (`moving` if elements can be moved without exceptions) and `relocate_range_weak` (`moving`): `n` elements are constructed in the slots from
`j` on of the block `b` from those in the slots from `i` on of the block `a`; `k` are done. -/
def svtRelocate (E : SvtEnv α) (moving : Bool) (a i b j : Nat) : CbHeap α → Nat → Nat → Option Nat → Option (CbHeap α × Bool × Option Nat)
  | heap, _, 0, limit => some (heap, true, limit)
  | heap, k, n + 1, limit =>
    match (if E.nothrowMove then some limit else cbSpend limit) with
    | none => do
      let h ← svtDestroyRange heap b j k
      return (h, false, some 0)
    | some limit => do
      let (x, h) ← svtTake E moving heap a (i + k)
      let h ← cbConstruct h b (j + k) x
      svtRelocate E moving a i b j h (k + 1) n limit

/-- small_vector.hpp:1005-1008 `deallocate`: nothing for the inline buffer. -/
def svtDeallocate (heap : CbHeap α) (o : SvtObj) : Option (CbHeap α) :=
  if o.cur = o.inl then some heap else cbDeallocate heap o.cur o.cap

/-- the end of the lifetime of small_vector.hpp:893: The memory of the inline buffer goes away with the variable. If objects still live in it, they are never destroyed; the block is
kept in the model to show that they leak. -/
def svtEndInline (heap : CbHeap α) (a : Nat) : CbHeap α :=
  match heap[a]? with
  | some (some slots) => if slots.all Option.isNone then heap.set a none else heap
  | _ => heap

/-- small_vector.hpp:900-908 `allocate_n` for a new variable: the inline buffer is the next block, a block that is allocated the one after it; no object if the allocation throws. -/
def svtAllocateN (E : SvtEnv α) (heap : CbHeap α) (n : Nat) (limit : Option Nat) : CbHeap α × Option (SvtObj × Option Nat) :=
  let inl := heap.length
  let heap := cbAllocate heap E.inlineCap
  if n ≤ E.inlineCap then (heap, some (⟨inl, inl, 0, E.inlineCap⟩, limit))
  else
    match cbSpend limit with
    | none => (svtEndInline heap inl, none)
    | some limit => (cbAllocate heap n, some (⟨inl, heap.length, 0, n⟩, limit))

/-- small_vector.hpp:385-405: the constructors from a number of copies and from a range, with the guard that frees the block. -/
def svtCtor (E : SvtEnv α) (heap : CbHeap α) (xs : List α) (limit : Option Nat) : Option (CbHeap α × Option SvtObj) :=
  match svtAllocateN E heap xs.length limit with
  | (h, none) => some (h, none)
  | (h, some (o, limit)) => do
    let (h, ok, _) ← svtFill o.cur 0 h 0 xs limit
    if ok then return (h, some { o with size := xs.length })
    else
      let h ← svtDeallocate h o
      return (svtEndInline h o.inl, none)

/-- small_vector.hpp:1043-1060 `next_capacity`; `max_size()` is not reached. -/
def svtNextCap (cap growth : Nat) : Nat := max (cap + growth) (cap + cap / 2)

/-- small_vector.hpp:910-921 `reallocate_n`. The flag is false for an exception. -/
def svtReallocate (E : SvtEnv α) (heap : CbHeap α) (o : SvtObj) (n : Nat) (limit : Option Nat) : Option (CbHeap α × SvtObj × Bool × Option Nat) :=
  match cbSpend limit with
  | none => some (heap, o, false, some 0)
  | some limit => do
    let a := heap.length
    let (h, ok, limit) ← svtRelocate E E.nothrowMove o.cur 0 a 0 (cbAllocate heap n) 0 o.size limit
    if ok then
      let h ← svtDestroyRange h o.cur 0 o.size
      let h ← svtDeallocate h o
      return (h, { o with cur := a, cap := n }, true, limit)
    else
      let h ← cbDeallocate h a n
      return (h, o, false, limit)

/-- small_vector.hpp:923-940 `reallocate_append`. -/
def svtReallocateAppend (E : SvtEnv α) (heap : CbHeap α) (o : SvtObj) (n : Nat) (x : α) (limit : Option Nat) : Option (CbHeap α × SvtObj × Bool × Option Nat) :=
  match cbSpend limit with
  | none => some (heap, o, false, some 0)
  | some limit =>
    let a := heap.length
    match cbSpend limit with
    | none => do
      let h ← cbDeallocate (cbAllocate heap n) a n
      return (h, o, false, some 0)
    | some limit => do
      let h ← cbConstruct (cbAllocate heap n) a o.size x
      let (h, ok, limit) ← svtRelocate E E.nothrowMove o.cur 0 a 0 h 0 o.size limit
      if ok then
        let h ← svtDestroyRange h o.cur 0 o.size
        let h ← svtDeallocate h o
        return (h, { o with cur := a, size := o.size + 1, cap := n }, true, limit)
      else
        let h ← cbDestroyAt h a o.size
        let h ← cbDeallocate h a n
        return (h, o, false, limit)

/-- small_vector.hpp:750, 756-768 `push_back(const T&)`, `emplace_back`. -/
def svtPush (E : SvtEnv α) (heap : CbHeap α) (o : SvtObj) (x : α) (limit : Option Nat) : Option (CbHeap α × SvtObj × Bool × Option Nat) :=
  if o.size ≠ o.cap then
    match cbSpend limit with
    | none => some (heap, o, false, some 0)
    | some limit => do
      let h ← cbConstruct heap o.cur o.size x
      return (h, { o with size := o.size + 1 }, true, limit)
  else svtReallocateAppend E heap o (svtNextCap o.cap 1) x limit

/-- small_vector.hpp:414, 524: the loop that appends the elements of an input range. -/
def svtPushAll (E : SvtEnv α) (heap : CbHeap α) (o : SvtObj) : List α → Option Nat → Option (CbHeap α × SvtObj × Bool × Option Nat)
  | [], limit => some (heap, o, true, limit)
  | x :: xs, limit => do
    let (h, o, ok, limit) ← svtPush E heap o x limit
    if ok then svtPushAll E h o xs limit else return (h, o, false, limit)

/-- small_vector.hpp:407-415: the constructor from an input range. If `emplace_back` throws, the destructor of the vector is not run: its inline buffer is gone, and nobody destroys the
elements or frees the block that was allocated. -/
def svtCtorInput (E : SvtEnv α) (heap : CbHeap α) (xs : List α) (limit : Option Nat) : Option (CbHeap α × Option SvtObj) := do
  let (h, o, ok, _) ← svtPushAll E (cbAllocate heap E.inlineCap) ⟨heap.length, heap.length, 0, E.inlineCap⟩ xs limit
  if ok then return (h, some o) else return (svtEndInline h o.inl, none)

/-- small_vector.hpp:429-445: the move constructor. -/
def svtMoveCtor (E : SvtEnv α) (heap : CbHeap α) (o : SvtObj) (limit : Option Nat) : Option (CbHeap α × Option (SvtObj × SvtObj)) :=
  let inl := heap.length
  let heap := cbAllocate heap E.inlineCap
  if o.cur = o.inl then do
    let (h, ok, _) ← svtRelocate E true o.cur 0 inl 0 heap 0 o.size limit
    if ok then
      let h ← svtDestroyRange h o.cur 0 o.size
      return (h, some (⟨inl, inl, o.size, E.inlineCap⟩, { o with size := 0 }))
    else return (svtEndInline h inl, none)
  else some (heap, some ({ o with inl := inl }, ⟨o.inl, o.inl, 0, E.inlineCap⟩))

/-- small_vector.hpp:452-456: the destructor. -/
def svtDestroy (heap : CbHeap α) (o : SvtObj) : Option (CbHeap α) := do
  let h ← svtDestroyRange heap o.cur 0 o.size
  let h ← svtDeallocate h o
  return svtEndInline h o.inl

/-- small_vector.hpp:257-269 `assign_range`: the first elements are assigned; `k` are done. The flag is false if one throws: those assigned before keep their new values. -/
def svtAssignRange (a : Nat) : CbHeap α → Nat → List α → Option Nat → Option (CbHeap α × Bool × Option Nat)
  | heap, _, [], limit => some (heap, true, limit)
  | heap, k, x :: xs, limit =>
    match cbSpend limit with
    | none => some (heap, false, some 0)
    | some limit =>
      match heap[a]? with
      | some (some slots) =>
        match slots[k]? with
        | some (some _) => svtAssignRange a (heap.set a (some (slots.set k (some x)))) (k + 1) xs limit
        | _ => none
      | _ => none

/-- small_vector.hpp:462-513 `assign` (a number of copies or a forward range). -/
def svtAssign (E : SvtEnv α) (heap : CbHeap α) (o : SvtObj) (xs : List α) (limit : Option Nat) : Option (CbHeap α × SvtObj × Bool) :=
  let com := min o.size xs.length
  if xs.length ≤ o.cap then do
    let (h, ok, limit) ← svtAssignRange o.cur heap 0 (xs.take com) limit
    if !ok then return (h, o, false)
    else
      let (h, ok, _) ← svtFill o.cur com h 0 (xs.drop com) limit
      if !ok then return (h, o, false)
      else
        let h ← svtDestroyRange h o.cur com (o.size - com)
        return (h, { o with size := xs.length }, true)
  else
    match cbSpend limit with
    | none => some (heap, o, false)
    | some limit => do
      let a := heap.length
      let n := svtNextCap o.cap (xs.length - o.size)
      let (h, ok, _) ← svtFill a 0 (cbAllocate heap n) 0 xs limit
      if ok then
        let h ← svtDestroyRange h o.cur 0 o.size
        let h ← svtDeallocate h o
        return (h, { o with cur := a, size := xs.length, cap := n }, true)
      else
        let h ← cbDeallocate h a n
        return (h, o, false)

/-- small_vector.hpp:515-525 `assign` (an input range). -/
def svtAssignInput (E : SvtEnv α) (heap : CbHeap α) (o : SvtObj) (xs : List α) (limit : Option Nat) : Option (CbHeap α × SvtObj × Bool) := do
  let com := min o.size xs.length
  let (h, ok, limit) ← svtAssignRange o.cur heap 0 (xs.take com) limit
  if !ok then return (h, o, false)
  else
    let h ← svtDestroyRange h o.cur com (o.size - com)
    let (h, o, ok, _) ← svtPushAll E h { o with size := com } (xs.drop com) limit
    return (h, o, ok)

/-- small_vector.hpp:686 `reserve`. -/
def svtReserve (E : SvtEnv α) (heap : CbHeap α) (o : SvtObj) (n : Nat) (limit : Option Nat) : Option (CbHeap α × SvtObj × Bool × Option Nat) :=
  if o.cap < n then svtReallocate E heap o (svtNextCap o.cap (n - o.cap)) limit else some (heap, o, true, limit)

/-- small_vector.hpp:1010-1024 `resize_impl` with a value. -/
def svtResize (E : SvtEnv α) (heap : CbHeap α) (o : SvtObj) (n : Nat) (x : α) (limit : Option Nat) : Option (CbHeap α × SvtObj × Bool) :=
  if n ≤ o.size then do
    let h ← svtDestroyRange heap o.cur n (o.size - n)
    return (h, { o with size := n }, true)
  else do
    let (h, o, ok, limit) ← svtReserve E heap o n limit
    if !ok then return (h, o, false)
    else
      let (h, ok, _) ← svtFill o.cur o.size h 0 (List.replicate (n - o.size) x) limit
      if ok then return (h, { o with size := n }, true) else return (h, o, false)

/-- small_vector.hpp:213-254, 781-798: What is left of the limit when an element is moved; `none` if it throws. Elements that move without exceptions never do. -/
def svtSpend (E : SvtEnv α) (limit : Option Nat) : Option (Option Nat) := if E.nothrowMove then some limit else cbSpend limit

/-- small_vector.hpp:795: the assignment to an element that is there. -/
def svtPutAt (heap : CbHeap α) (a i : Nat) (x : α) : Option (CbHeap α) :=
  match heap[a]? with
  | some (some slots) =>
    match slots[i]? with
    | some (some _) => some (heap.set a (some (slots.set i (some x))))
    | _ => none
  | _ => none

/-- small_vector.hpp:257-262 `assign_range`, `std::copy` and `std::shift_left` with elements that are moved: The slots from `i` on of the block `a` are assigned from those from `j` on of the block
`b`; `k` are done, `n` are left. -/
def svtMoveRange (E : SvtEnv α) (a i b j : Nat) : CbHeap α → Nat → Nat → Option Nat → Option (CbHeap α × Bool × Option Nat)
  | heap, _, 0, limit => some (heap, true, limit)
  | heap, k, n + 1, limit =>
    match svtSpend E limit with
    | none => some (heap, false, some 0)
    | some limit => do
      let (x, h) ← svtTake E true heap b (j + k)
      let h ← svtPutAt h a (i + k) x
      svtMoveRange E a i b j h (k + 1) n limit

/-- small_vector.hpp:864-872 `erase`. `std::shift_left` does nothing for an empty range, and if nothing is left to be moved. -/
def svtErase (E : SvtEnv α) (heap : CbHeap α) (o : SvtObj) (i j : Nat) (limit : Option Nat) : Option (CbHeap α × SvtObj × Bool) :=
  if i ≤ j ∧ j ≤ o.size then do
    let (h, ok, _) ← if i = j then some (heap, true, limit) else svtMoveRange E o.cur i o.cur j heap 0 (o.size - j) limit
    if !ok then return (h, o, false)
    else
      let h ← svtDestroyRange h o.cur (o.size - (j - i)) (j - i)
      return (h, { o with size := o.size - (j - i) }, true)
  else none

/-- small_vector.hpp:756-768, 524: the loop that appends elements of the block `b` by moving them, `k` are done. The capacity suffices: only elements of an inline buffer are appended in this way. The number
is that of the elements that were appended. -/
def svtAppendMoved (E : SvtEnv α) (a i b j : Nat) : CbHeap α → Nat → Nat → Option Nat → Option (CbHeap α × Bool × Nat)
  | heap, k, 0, _ => some (heap, true, k)
  | heap, k, n + 1, limit =>
    match svtSpend E limit with
    | none => some (heap, false, k)
    | some limit => do
      let (x, h) ← svtTake E true heap b (j + k)
      let h ← cbConstruct h a (i + k) x
      svtAppendMoved E a i b j h (k + 1) n limit

/-- small_vector.hpp:553-607: the move assignment of `p` to another variable `o`. `fwd` tells whether move iterators are forward iterators: they are since P2520, so this depends on the standard library.
If they are not, `assign` for input ranges is called (:605, :515-525). The results are the two variables. -/
def svtMoveAssign (E : SvtEnv α) (fwd : Bool) (heap : CbHeap α) (o p : SvtObj) (limit : Option Nat) : Option (CbHeap α × SvtObj × SvtObj × Bool) :=
  if o.cur ≠ o.inl ∧ p.cur ≠ p.inl then
    some (heap, { p with inl := o.inl }, { o with inl := p.inl }, true)
  else if p.cur ≠ p.inl then do
    let h ← svtDestroyRange heap o.cur 0 o.size
    return (h, { p with inl := o.inl }, ⟨p.inl, p.inl, 0, E.inlineCap⟩, true)
  else do
    let com := min o.size p.size
    let (h, ok, limit) ← svtMoveRange E o.cur 0 p.cur 0 heap 0 com limit
    if !ok then return (h, o, p, false)
    else if fwd then
      let (h, ok, _) ← svtRelocate E true p.cur com o.cur com h 0 (p.size - com) limit
      if !ok then return (h, o, p, false)
      else
        let h ← svtDestroyRange h o.cur com (o.size - com)
        return (h, { o with size := p.size }, p, true)
    else
      let h ← svtDestroyRange h o.cur com (o.size - com)
      let (h, ok, k) ← svtAppendMoved E o.cur com p.cur com h 0 (p.size - com) limit
      return (h, { o with size := com + k }, p, ok)

/-- small_vector.hpp:725 `std::swap_ranges` of the first `n` elements of the blocks `a` and `b`; `k` are done. An element of `a` is moved to a temporary object, that of `b` to `a` and the temporary
object to `b`. The temporary object is lost if one of these throws. -/
def svtSwapRanges (E : SvtEnv α) (a b : Nat) : CbHeap α → Nat → Nat → Option Nat → Option (CbHeap α × Bool × Option Nat)
  | heap, _, 0, limit => some (heap, true, limit)
  | heap, k, n + 1, limit =>
    match svtSpend E limit with
    | none => some (heap, false, some 0)
    | some limit => do
      let (x, h) ← svtTake E true heap a k
      match svtSpend E limit with
      | none => return (h, false, some 0)
      | some limit =>
        let (y, h) ← svtTake E true h b k
        let h ← svtPutAt h a k y
        match svtSpend E limit with
        | none => return (h, false, some 0)
        | some limit =>
          let h ← svtPutAt h b k x
          svtSwapRanges E a b h (k + 1) n limit

/-- small_vector.hpp:721-731: `swap` of two vectors with their elements in the inline buffers, `o` has fewer. -/
def svtSwapInlineOrdered (E : SvtEnv α) (heap : CbHeap α) (o p : SvtObj) (limit : Option Nat) : Option (CbHeap α × SvtObj × SvtObj × Bool) := do
  let (h, ok, limit) ← svtSwapRanges E o.cur p.cur heap 0 o.size limit
  if !ok then return (h, o, p, false)
  else
    let (h, ok, _) ← svtRelocate E E.nothrowMove p.cur o.size o.cur o.size h 0 (p.size - o.size) limit
    if !ok then return (h, o, p, false)
    else
      let h ← svtDestroyRange h p.cur o.size (p.size - o.size)
      return (h, { o with size := p.size }, { p with size := o.size }, true)

/-- small_vector.hpp:735-743: `swap` of `o` with its elements in the inline buffer and `p` with an allocated block. -/
def svtSwapMixedOrdered (E : SvtEnv α) (heap : CbHeap α) (o p : SvtObj) (limit : Option Nat) : Option (CbHeap α × SvtObj × SvtObj × Bool) := do
  let (h, ok, _) ← svtRelocate E E.nothrowMove o.cur 0 p.inl 0 heap 0 o.size limit
  if !ok then return (h, o, p, false)
  else
    let h ← svtDestroyRange h o.cur 0 o.size
    return (h, { p with inl := o.inl }, ⟨p.inl, p.inl, o.size, E.inlineCap⟩, true)

/-- small_vector.hpp:706-748: `swap` of two different variables. -/
def svtSwapVars (E : SvtEnv α) (heap : CbHeap α) (o p : SvtObj) (limit : Option Nat) : Option (CbHeap α × SvtObj × SvtObj × Bool) :=
  if o.cur ≠ o.inl ∧ p.cur ≠ p.inl then some (heap, { p with inl := o.inl }, { o with inl := p.inl }, true)
  else if o.cur = o.inl ∧ p.cur = p.inl then
    if o.size < p.size then svtSwapInlineOrdered E heap o p limit
    else (svtSwapInlineOrdered E heap p o limit).map (fun r => (r.1, r.2.2.1, r.2.1, r.2.2.2))
  else if o.cur = o.inl then svtSwapMixedOrdered E heap o p limit
  else (svtSwapMixedOrdered E heap p o limit).map (fun r => (r.1, r.2.2.1, r.2.1, r.2.2.2))

/-- small_vector.hpp:794 `std::shift_right` by one: the elements in the slots below `i + n` down to `i` are moved to the next one, from the last one on. -/
def svtShiftRight (E : SvtEnv α) (a i : Nat) : CbHeap α → Nat → Option Nat → Option (CbHeap α × Bool × Option Nat)
  | heap, 0, limit => some (heap, true, limit)
  | heap, n + 1, limit =>
    match svtSpend E limit with
    | none => some (heap, false, some 0)
    | some limit => do
      let (x, h) ← svtTake E true heap a (i + n)
      let h ← svtPutAt h a (i + n + 1) x
      svtShiftRight E a i h n limit

/-- small_vector.hpp:942-963 `reallocate_emplace`. -/
def svtReallocateEmplace (E : SvtEnv α) (heap : CbHeap α) (o : SvtObj) (n i : Nat) (x : α) (limit : Option Nat) : Option (CbHeap α × SvtObj × Bool) :=
  match cbSpend limit with
  | none => some (heap, o, false)
  | some limit =>
    let a := heap.length
    match cbSpend limit with
    | none => do
      let h ← cbDeallocate (cbAllocate heap n) a n
      return (h, o, false)
    | some limit => do
      let h ← cbConstruct (cbAllocate heap n) a i x
      let (h, ok, limit) ← svtRelocate E E.nothrowMove o.cur 0 a 0 h 0 i limit
      if !ok then
        let h ← cbDestroyAt h a i
        let h ← cbDeallocate h a n
        return (h, o, false)
      else
        let (h, ok, _) ← svtRelocate E E.nothrowMove o.cur i a (i + 1) h 0 (o.size - i) limit
        if !ok then
          let h ← svtDestroyRange h a 0 i
          let h ← cbDestroyAt h a i
          let h ← cbDeallocate h a n
          return (h, o, false)
        else
          let h ← svtDestroyRange h o.cur 0 o.size
          let h ← svtDeallocate h o
          return (h, { o with cur := a, size := o.size + 1, cap := n }, true)

/-- small_vector.hpp:781-798 `emplace` (and `insert` of one element, :775-776). The new element is first a temporary object; `last_` is incremented before the elements are shifted. -/
def svtEmplace (E : SvtEnv α) (heap : CbHeap α) (o : SvtObj) (i : Nat) (x : α) (limit : Option Nat) : Option (CbHeap α × SvtObj × Bool) :=
  if o.size < i then none
  else if o.size ≠ o.cap then
    match cbSpend limit with
    | none => some (heap, o, false)
    | some limit =>
      if i = o.size then do
        let h ← cbConstruct heap o.cur o.size x
        return (h, { o with size := o.size + 1 }, true)
      else
        match svtSpend E limit with
        | none => some (heap, o, false)
        | some limit => do
          let (y, h) ← svtTake E true heap o.cur (o.size - 1)
          let h ← cbConstruct h o.cur o.size y
          let (h, ok, limit) ← svtShiftRight E o.cur i h (o.size - 1 - i) limit
          if !ok then return (h, { o with size := o.size + 1 }, false)
          else
            match svtSpend E limit with
            | none => return (h, { o with size := o.size + 1 }, false)
            | some _ =>
              let h ← svtPutAt h o.cur i x
              return (h, { o with size := o.size + 1 }, true)
  else svtReallocateEmplace E heap o (svtNextCap o.cap 1) i x limit

/-- small_vector.hpp:363-1060: calls with the numbers of the variables. -/
inductive SvtOp (α : Type) where
  | default (x : Nat)
  | ctor (x : Nat) (xs : List α)
  | ctorInput (x : Nat) (xs : List α)
  | copy (x y : Nat)
  | move (x y : Nat)
  | destroy (x : Nat)
  | push (x : Nat) (v : α)
  | reserve (x n : Nat)
  | shrink (x : Nat)
  | resize (x n : Nat) (v : α)
  | clear (x : Nat)
  | reset (x : Nat)
  | assign (x : Nat) (xs : List α)
  | assignInput (x : Nat) (xs : List α)
  | assignCopy (x y : Nat)
  | erase (x i j : Nat)
  | emplace (x i : Nat) (v : α)
  | assignMove (x y : Nat) (fwd : Bool)
  | swap (x y : Nat)
  deriving Repr

/-- small_vector.hpp:363-1060: the outcome of a modifier of the variable `x`. -/
def svtDone (s : SvtMem α) (x : Nat) : Option (CbHeap α × SvtObj × Bool) → CbOut (SvtMem α)
  | none => .undefined
  | some (h, o, ok) => if ok then .returned ⟨h, s.vars.set x (some o)⟩ else .threw ⟨h, s.vars.set x (some o)⟩

/-- small_vector.hpp:363-445: the outcome of a constructor of the variable `x`. -/
def svtMade (s : SvtMem α) (x : Nat) : Option (CbHeap α × Option SvtObj) → CbOut (SvtMem α)
  | none => .undefined
  | some (h, some o) => .returned ⟨h, s.vars.set x (some o)⟩
  | some (h, none) => .threw ⟨h, s.vars⟩

/-- small_vector.hpp:553-607, 706-748: the outcome of a call with the variables `x` and `y`. -/
def svtDone2 (s : SvtMem α) (x y : Nat) : Option (CbHeap α × SvtObj × SvtObj × Bool) → CbOut (SvtMem α)
  | none => .undefined
  | some (h, o, p, ok) => if ok then .returned ⟨h, (s.vars.set x (some o)).set y (some p)⟩ else .threw ⟨h, (s.vars.set x (some o)).set y (some p)⟩

/-- small_vector.hpp:672-682: the elements that iterating over a vector shows. -/
def svtElems (heap : CbHeap α) (o : SvtObj) : Option (List α) :=
  match heap[o.cur]? with
  | some (some slots) => (List.range o.size).mapM (fun i => (slots[i]?).join)
  | _ => none

/-- small_vector.hpp:363-1060: one call. Constructors need a variable that is not alive, everything else one that is. -/
def svtStep (E : SvtEnv α) (s : SvtMem α) (limit : Option Nat) : SvtOp α → CbOut (SvtMem α)
  | .default x =>
    match s.vars[x]? with
    | some none => .returned ⟨cbAllocate s.heap E.inlineCap, s.vars.set x (some ⟨s.heap.length, s.heap.length, 0, E.inlineCap⟩)⟩
    | _ => .undefined
  | .ctor x xs =>
    match s.vars[x]? with
    | some none => svtMade s x (svtCtor E s.heap xs limit)
    | _ => .undefined
  | .ctorInput x xs =>
    match s.vars[x]? with
    | some none => svtMade s x (svtCtorInput E s.heap xs limit)
    | _ => .undefined
  | .copy x y =>
    match s.vars[x]?, s.vars[y]? with
    | some none, some (some o) => svtMade s x ((svtElems s.heap o).bind (fun xs => svtCtor E s.heap xs limit))
    | _, _ => .undefined
  | .move x y =>
    match s.vars[x]?, s.vars[y]? with
    | some none, some (some o) =>
      match svtMoveCtor E s.heap o limit with
      | none => .undefined
      | some (h, some (new, old)) => .returned ⟨h, (s.vars.set y (some old)).set x (some new)⟩
      | some (h, none) => .threw ⟨h, s.vars⟩
    | _, _ => .undefined
  | .destroy x =>
    match s.vars[x]? with
    | some (some o) =>
      match svtDestroy s.heap o with
      | none => .undefined
      | some h => .returned ⟨h, s.vars.set x none⟩
    | _ => .undefined
  | .push x v =>
    match s.vars[x]? with
    | some (some o) => svtDone s x ((svtPush E s.heap o v limit).map (fun r => (r.1, r.2.1, r.2.2.1)))
    | _ => .undefined
  | .reserve x n =>
    match s.vars[x]? with
    | some (some o) => svtDone s x ((svtReserve E s.heap o n limit).map (fun r => (r.1, r.2.1, r.2.2.1)))
    | _ => .undefined
  | .shrink x =>
    match s.vars[x]? with
    | some (some o) =>
      if E.inlineCap < o.size then svtDone s x ((svtReallocate E s.heap o o.size limit).map (fun r => (r.1, r.2.1, r.2.2.1)))
      else .returned s
    | _ => .undefined
  | .resize x n v =>
    match s.vars[x]? with
    | some (some o) => svtDone s x (svtResize E s.heap o n v limit)
    | _ => .undefined
  | .clear x =>
    match s.vars[x]? with
    | some (some o) => svtDone s x ((svtDestroyRange s.heap o.cur 0 o.size).map (fun h => (h, { o with size := 0 }, true)))
    | _ => .undefined
  | .reset x =>
    match s.vars[x]? with
    | some (some o) =>
      svtDone s x (((svtDestroyRange s.heap o.cur 0 o.size).bind (fun h => svtDeallocate h o)).map (fun h => (h, ⟨o.inl, o.inl, 0, E.inlineCap⟩, true)))
    | _ => .undefined
  | .assign x xs =>
    match s.vars[x]? with
    | some (some o) => svtDone s x (svtAssign E s.heap o xs limit)
    | _ => .undefined
  | .assignInput x xs =>
    match s.vars[x]? with
    | some (some o) => svtDone s x (svtAssignInput E s.heap o xs limit)
    | _ => .undefined
  | .assignCopy x y =>
    match s.vars[x]?, s.vars[y]? with
    | some (some o), some (some p) =>
      if x = y then .returned s else svtDone s x ((svtElems s.heap p).bind (fun xs => svtAssign E s.heap o xs limit))
    | _, _ => .undefined
  | .erase x i j =>
    match s.vars[x]? with
    | some (some o) => svtDone s x (svtErase E s.heap o i j limit)
    | _ => .undefined
  | .emplace x i v =>
    match s.vars[x]? with
    | some (some o) => svtDone s x (svtEmplace E s.heap o i v limit)
    | _ => .undefined
  | .assignMove x y fwd =>
    match s.vars[x]?, s.vars[y]? with
    | some (some o), some (some p) => if x = y then .returned s else svtDone2 s x y (svtMoveAssign E fwd s.heap o p limit)
    | _, _ => .undefined
  | .swap x y =>
    match s.vars[x]?, s.vars[y]? with
    | some (some o), some (some p) => if x = y then .returned s else svtDone2 s x y (svtSwapVars E s.heap o p limit)
    | _, _ => .undefined

/-- small_vector.hpp:363-1060: a program that catches the exceptions of every call and goes on. The flags say which calls threw. -/
def svtRun (E : SvtEnv α) : SvtMem α → List (Option Nat × SvtOp α) → CbOut (SvtMem α × List Bool)
  | s, [] => .returned (s, [])
  | s, (limit, op) :: prog =>
    match svtStep E s limit op with
    | .undefined => .undefined
    | .terminated => .terminated
    | .threw s' =>
      match svtRun E s' prog with
      | .returned (t, flags) => .returned (t, true :: flags)
      | r => r
    | .returned s' =>
      match svtRun E s' prog with
      | .returned (t, flags) => .returned (t, false :: flags)
      | r => r

/-- before the first call of small_vector.hpp:363: No variable is constructed, there is no memory. -/
def svtStart (α : Type) (n : Nat) : SvtMem α := ⟨[], List.replicate n none⟩

/-- small_vector.hpp:672-682: What iteration and `capacity()` show of a variable. -/
def svtObserve (s : SvtMem α) (x : Nat) : Option (Nat × List α) := do
  let o ← (s.vars[x]?).join
  let xs ← svtElems s.heap o
  return (o.cap, xs)
end

end Gapp.Model
