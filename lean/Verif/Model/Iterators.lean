import Verif.Model.CircularBuffer
import Verif.Model.Matrix
import Mathlib.Data.Int.Basic
/-!
# The iterators

Models `stable_iterator_base`, the operators that `random_access_iterator_interface` derives from it, `iota_iterator<size_t>` and the element access of `container_interface` of
`utility/iterators.hpp`. `size_t` is a natural number below `2 ^ 64`, `ptrdiff_t` is an integer from `-2 ^ 63` up to `2 ^ 63 - 1`; the conversions between them wrap around. A failed assertion
and an overflow of a signed number are `none`.
-/

namespace Gapp.Model

variable {α : Type}

/-- iterators.hpp:391, 394: Conversion to `size_t`. -/
def toSizeT (x : ℤ) : ℕ := (x % 2 ^ 64).toNat

/-- iterators.hpp:266: Conversion to `ptrdiff_t`. -/
def toPtrdiff (x : ℤ) : ℤ := (x + 2 ^ 63) % 2 ^ 64 - 2 ^ 63

/-- iterators.hpp:280, 389: Negation of a `ptrdiff_t`: `-2 ^ 63` has no negative. -/
def negPtrdiff (n : ℤ) : Option ℤ := if n = -2 ^ 63 then none else some (-n)

/-- what iterators.hpp:317-410 uses of a container: A container as the iterators see it: `size()` and `operator[]`, whose failed assertion is `none`. -/
structure RangeView (α : Type) where
  size : ℕ
  get : ℕ → Option α

/-- what iterators.hpp:317-410 uses of a container: A `std::vector`. -/
def listView (l : List α) : RangeView α := ⟨l.length, fun i => l[i]?⟩

/-- A `circular_buffer`: circular_buffer.hpp:35-36, 105-109, 127, 138-148. -/
def bufferView (b : CircularBuffer α) : RangeView α := ⟨b.size, b.get⟩

/-- The rows of a `Matrix`: matrix.hpp:58-72, 114-126, 175. -/
def matrixView (m : Mat α) : RangeView (List α) := ⟨matRows m, matRow m⟩

/-- iterators.hpp:413-414: the data members of `stable_iterator_base`. `data` is the address of the container, `none` is `nullptr`. -/
structure StableIter where
  data : Option ℕ
  idx : ℕ
  deriving DecidableEq, Repr

namespace StableIter

/-- iterators.hpp:328-330: the default constructor. -/
def dflt : StableIter := ⟨none, 0⟩

/-- iterators.hpp:336-340: the iterator at `idx` of the container at the address `c`. -/
def make (mem : ℕ → RangeView α) (c idx : ℕ) : Option StableIter := if idx ≤ (mem c).size then some ⟨some c, idx⟩ else none

/-- iterators.hpp:342-348 `operator*`. -/
def deref (mem : ℕ → RangeView α) (it : StableIter) : Option α := do
  let c ← it.data
  if it.idx < (mem c).size then (mem c).get it.idx else none

/-- iterators.hpp:352-354, 361-363: the assertions of the comparisons. -/
def comparable (mem : ℕ → RangeView α) (a b : StableIter) : Bool :=
  a.data == b.data && (match a.data with | none => true | some c => decide (a.idx ≤ (mem c).size)) && (match b.data with | none => true | some c => decide (b.idx ≤ (mem c).size))

/-- iterators.hpp:350-357 `operator==`. -/
def eq (mem : ℕ → RangeView α) (a b : StableIter) : Option Bool := if comparable mem a b then some (a.idx == b.idx) else none

/-- iterators.hpp:359-366 `operator<`. -/
def lt (mem : ℕ → RangeView α) (a b : StableIter) : Option Bool := if comparable mem a b then some (decide (a.idx < b.idx)) else none

/-- iterators.hpp:273 `operator>`. -/
def gt (mem : ℕ → RangeView α) (a b : StableIter) : Option Bool := lt mem b a

/-- iterators.hpp:274 `operator<=`. -/
def le (mem : ℕ → RangeView α) (a b : StableIter) : Option Bool := (lt mem b a).map (!·)

/-- iterators.hpp:275 `operator>=`. -/
def ge (mem : ℕ → RangeView α) (a b : StableIter) : Option Bool := (lt mem a b).map (!·)

/-- iterators.hpp:368-375 `increment`, 187-190 `operator++()`. -/
def incr (mem : ℕ → RangeView α) (it : StableIter) : Option StableIter := do
  let c ← it.data
  if it.idx = (mem c).size then none else some { it with idx := toSizeT (it.idx + 1) }

/-- iterators.hpp:377-384 `decrement`, 238-241 `operator--()`. -/
def decr (it : StableIter) : Option StableIter := do
  let _ ← it.data
  if it.idx = 0 then none else some { it with idx := it.idx - 1 }

/-- iterators.hpp:192-197 `operator++(int)`: the returned iterator and the changed one. -/
def postIncr (mem : ℕ → RangeView α) (it : StableIter) : Option (StableIter × StableIter) := (incr mem it).map (fun n => (it, n))

/-- iterators.hpp:243-248 `operator--(int)`: the returned iterator and the changed one. -/
def postDecr (it : StableIter) : Option (StableIter × StableIter) := (decr it).map (fun n => (it, n))

/-- iterators.hpp:386-394 `operator+=`. The assertions convert `n` to `size_t`: `data_->size() - n` wraps around. -/
def advance (mem : ℕ → RangeView α) (it : StableIter) (n : ℤ) : Option StableIter := do
  let c ← it.data
  if n < 0 then
    let m ← negPtrdiff n
    if it.idx < toSizeT m then none else some { it with idx := toSizeT (it.idx + n) }
  else if 0 < n then
    if toSizeT ((mem c).size - n) < it.idx then none else some { it with idx := toSizeT (it.idx + n) }
  else some { it with idx := toSizeT (it.idx + n) }

/-- iterators.hpp:277-278 `operator+`. -/
def plus (mem : ℕ → RangeView α) (it : StableIter) (n : ℤ) : Option StableIter := advance mem it n

/-- iterators.hpp:280-281 `operator-=` and `operator-`. -/
def minus (mem : ℕ → RangeView α) (it : StableIter) (n : ℤ) : Option StableIter := do
  let m ← negPtrdiff n
  advance mem it m

/-- iterators.hpp:283 `operator[]`. -/
def index (mem : ℕ → RangeView α) (it : StableIter) (n : ℤ) : Option α := do
  let i ← plus mem it n
  deref mem i

/-- iterators.hpp:396-410 `operator-` of two iterators. -/
def diff (mem : ℕ → RangeView α) (a b : StableIter) : Option ℤ := do
  let c ← a.data
  let d ← b.data
  if c ≠ d then none
  else if (mem c).size < a.idx then none
  else if (mem d).size < b.idx then none
  else
    let distance := if b.idx ≤ a.idx then a.idx - b.idx else b.idx - a.idx
    if 2 ^ 63 - 1 < distance then none else some (distance : ℤ)

/-- with the operators of iterators.hpp:342-376: the loop `for (; first != last; ++first) f(*first)` over stable iterators, with at most `fuel` steps: the elements that are visited. Written by the users of the iterators, e.g. the
range-based `for` over a `circular_buffer` or over the rows of a `Matrix`. -/
def traverse (mem : ℕ → RangeView α) (last : StableIter) : (fuel : ℕ) → (it : StableIter) → Option (List α)
  | 0, _ => none
  | fuel + 1, it => do
    let e ← eq mem it last
    if e then some []
    else
      let x ← deref mem it
      let it' ← incr mem it
      let xs ← traverse mem last fuel it'
      some (x :: xs)

/-- The same loop over `std::reverse_iterator`s (iterators.hpp:37-66, circular_buffer.hpp:114-121): the base iterator is decremented before it is dereferenced. -/
def traverseBack (mem : ℕ → RangeView α) (first : StableIter) : (fuel : ℕ) → (it : StableIter) → Option (List α)
  | 0, _ => none
  | fuel + 1, it => do
    let e ← eq mem it first
    if e then some []
    else
      let it' ← decr it
      let x ← deref mem it'
      let xs ← traverseBack mem first fuel it'
      some (x :: xs)

end StableIter

/-! ## `iota_iterator<size_t>` -/

namespace Iota

/-- iterators.hpp:525-531 `increment`. -/
def incr (v : ℕ) : Option ℕ := if v = 2 ^ 64 - 1 then none else some (toSizeT (v + 1))

/-- iterators.hpp:533-539 `decrement`. -/
def decr (v : ℕ) : Option ℕ := if v = 0 then none else some (v - 1)

/-- iterators.hpp:541-548 `operator+=`. -/
def advance (v : ℕ) (n : ℤ) : Option ℕ :=
  if 0 < n then
    if toSizeT (2 ^ 64 - 1 - n) < v then none else some (toSizeT (v + n))
  else if n < 0 then do
    let m ← negPtrdiff n
    if v < toSizeT m then none else some (toSizeT (v + n))
  else some (toSizeT (v + n))

/-- iterators.hpp:550-553 `operator-` of two iterators. -/
def diff (a b : ℕ) : Option ℤ := if b ≤ a then some (toPtrdiff (a - b)) else negPtrdiff (toPtrdiff (b - a))

/-- The loop `for (; first != last; ++first) f(*first)`, with at most `fuel` steps: the values that are visited (iterators.hpp:510-518, 525-531). -/
def traverse (last : ℕ) : (fuel : ℕ) → (v : ℕ) → Option (List ℕ)
  | 0, _ => none
  | fuel + 1, v => if v = last then some [] else do
      let v' ← incr v
      let vs ← traverse last fuel v'
      some (v :: vs)

end Iota

/-! ## `container_interface` -/

/-- iterators.hpp:93-139: The result of an element access: the element, an exception, or a failed assertion or undefined behaviour. -/
inductive Access (α : Type) where
  | value (x : α)
  | throws
  | aborts
  deriving DecidableEq, Repr

/-- A container whose `begin()` and `end()` are iterators to the elements `first` and `last` of a `std::vector`: e.g. matrix.hpp:247-255, nd_sort.hpp:26-60. -/
structure Segment (α : Type) where
  data : List α
  first : ℕ
  last : ℕ

namespace Segment

/-- iterators.hpp:83-86 `size`: the distance of the iterators. -/
def size (s : Segment α) : ℕ := toSizeT ((s.last : ℤ) - s.first)

/-- iterators.hpp:88-91 `empty`. -/
def empty (s : Segment α) : Bool := s.first == s.last

/-- iterators.hpp:93-139: Dereferencing the iterator to the position `i` of the vector. -/
def read (s : Segment α) (i : ℕ) : Access α := match s.data[i]? with | some x => .value x | none => .aborts

/-- iterators.hpp:93-101 `front`. -/
def front (s : Segment α) : Access α := s.read s.first

/-- iterators.hpp:103-111 `back`. -/
def back (s : Segment α) : Access α := if s.last = 0 then .aborts else s.read (s.last - 1)

/-- iterators.hpp:113-125 `operator[]`. -/
def get (s : Segment α) (i : ℕ) : Access α := if i < s.size then s.read (s.first + i) else .aborts

/-- iterators.hpp:127-139 `at`. -/
def atIdx (s : Segment α) (i : ℕ) : Access α := if s.size ≤ i then .throws else s.read (s.first + i)

end Segment

end Gapp.Model
