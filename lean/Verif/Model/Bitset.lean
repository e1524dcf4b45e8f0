/-!
# Model of `gapp::detail::dynamic_bitset`

Source: `/repo/src/utility/dynamic_bitset.hpp`, `/repo/src/utility/bit.hpp`.

`blocks_` is a list of 64-bit words (`block_type = std::size_t` on a 64-bit target); the container
itself is modelled separately (`SmallVector`). Out-of-range accesses, failed assertions and
`back()` of an empty container give `none`. Bits of the last block at and above `size_` are kept in
the model exactly as the code leaves them.
-/

namespace Gapp.Model

/-- Data members (dynamic_bitset.hpp:208-209). -/
structure Bitset where
  blocks : List (BitVec 64)
  size : Nat
  deriving DecidableEq, Repr

namespace Bitset

/-- bit.hpp:75-78 `block_of`. -/
def blockOf (v : Bool) : BitVec 64 := if v then BitVec.allOnes 64 else 0

/-- bit.hpp:59-64 `mask_right_n` (only called with `n < 64`; `ones >> (64 - n)`). -/
def maskRightN (n : Nat) : BitVec 64 := if n ≠ 0 then BitVec.allOnes 64 >>> (64 - n) else 0

/-- dynamic_bitset.hpp:73,78,122: number of blocks for a size. -/
def blockCount (size : Nat) : Nat := size / 64 + (if size % 64 ≠ 0 then 1 else 0)

/-- dynamic_bitset.hpp:77-80 (and 72-75 with `value = false`: value-initialised blocks). -/
def init (size : Nat) (value : Bool) : Bitset :=
  ⟨List.replicate (blockCount size) (blockOf value), size⟩

/-- dynamic_bitset.hpp:94-102 `operator[] const` and 34-37 `reference::operator bool`. -/
def get (b : Bitset) (idx : Nat) : Option Bool :=
  if idx < b.size then
    (b.blocks[idx / 64]?).map (fun blk => (blk &&& (1#64 <<< (idx % 64))) != 0#64)
  else none

/-- Modify the block containing `idx` (through `reference`, dynamic_bitset.hpp:57-67). -/
def modifyBlock (b : Bitset) (idx : Nat) (f : BitVec 64 → BitVec 64 → BitVec 64) : Option Bitset :=
  if idx < b.size then
    (b.blocks[idx / 64]?).map (fun blk =>
      { b with blocks := b.blocks.set (idx / 64) (f blk (1#64 <<< (idx % 64))) })
  else none

/-- dynamic_bitset.hpp:39-51 `reference::operator=(bool)`, `set`, `clear`. -/
def assign (b : Bitset) (idx : Nat) (v : Bool) : Option Bitset :=
  b.modifyBlock idx (fun blk mask => if v then blk ||| mask else blk &&& ~~~mask)

/-- dynamic_bitset.hpp:52 `reference::flip`. -/
def flip (b : Bitset) (idx : Nat) : Option Bitset :=
  b.modifyBlock idx (fun blk mask => blk ^^^ mask)

/-- dynamic_bitset.hpp:114-118 `clear`. -/
def clear (_ : Bitset) : Bitset := ⟨[], 0⟩

/-- dynamic_bitset.hpp:231-239. -/
def fullBlockCount (b : Bitset) : Nat := b.size / 64
/-- dynamic_bitset.hpp:236: The number of bits used in the last block. -/
def partialBlockSize (b : Bitset) : Nat := b.size % 64

/-- dynamic_bitset.hpp:241-244. -/
def partialBlockMask (b : Bitset) : BitVec 64 := maskRightN b.partialBlockSize

/-- dynamic_bitset.hpp:246-249 `partial_block`: `blocks_.back() & mask`; undefined without blocks. -/
def partialBlock (b : Bitset) : Option (BitVec 64) :=
  b.blocks.getLast?.map (· &&& b.partialBlockMask)

/-- dynamic_bitset.hpp:150, 160, 170: The blocks visited by `for (i = 0; i < full_block_count(); i++) … blocks_[i]`. -/
def fullBlocks (b : Bitset) : Option (List (BitVec 64)) :=
  (List.range b.fullBlockCount).mapM (fun i => b.blocks[i]?)

/-- dynamic_bitset.hpp:120-131 `resize`. Note that the masks use the old `size_`. -/
def resize (b : Bitset) (newSize : Nat) (value : Bool) : Option Bitset :=
  let nb := blockCount newSize
  let blocks := b.blocks.take nb ++ List.replicate (nb - b.blocks.length) (blockOf value)
  if newSize > b.size then
    match blocks.getLast? with
    | none => none
    | some last =>
      let last := last &&& b.partialBlockMask
      let last := last ||| (~~~ b.partialBlockMask &&& blockOf value)
      some ⟨blocks.dropLast ++ [last], newSize⟩
  else some ⟨blocks, newSize⟩

/-- dynamic_bitset.hpp:133-139 `fill`. -/
def fill (b : Bitset) (value : Bool) : Bitset := { b with blocks := b.blocks.map (fun _ => blockOf value) }

/-- dynamic_bitset.hpp:152, 155, 175: `std::popcount`: number of one bits of a word. -/
def popcount64 (x : BitVec 64) : Nat := (List.range 64).countP (fun i => x.getLsbD i)

/-- dynamic_bitset.hpp:216: `std::countr_zero`: number of consecutive zero bits from the least significant bit. -/
def countrZero (x : BitVec 64) : Nat := (List.range 64).findIdx (fun i => x.getLsbD i)

/-- dynamic_bitset.hpp:226: `std::countr_one`: number of consecutive one bits from the least significant bit. -/
def countrOne (x : BitVec 64) : Nat := (List.range 64).findIdx (fun i => !x.getLsbD i)

/-- dynamic_bitset.hpp:146-156 `popcount`. -/
def popcount (b : Bitset) : Option Nat := do
  let fs ← b.fullBlocks
  let p ← b.partialBlock
  return fs.foldl (fun count blk => count + popcount64 blk) 0 + popcount64 p

/-- dynamic_bitset.hpp:158-166 `any_set`: the partial block is only read if the loop finishes. -/
def anySet (b : Bitset) : Option Bool := do
  let fs ← b.fullBlocks
  if fs.any (fun blk => blk != 0#64) then return true
  let p ← b.partialBlock
  return p != 0#64

/-- dynamic_bitset.hpp:168-176 `all_set`. -/
def allSet (b : Bitset) : Option Bool := do
  let fs ← b.fullBlocks
  if fs.any (fun blk => blk != BitVec.allOnes 64) then return false
  let p ← b.partialBlock
  return popcount64 p == b.partialBlockSize

/-- dynamic_bitset.hpp:178-181 `none_set`. -/
def noneSet (b : Bitset) : Option Bool := b.anySet.map (!·)

/-- dynamic_bitset.hpp:211-219 / 221-229: the loop over the blocks with the running index `i`. -/
def findLoop (skip : BitVec 64) (cnt : BitVec 64 → Nat) (size : Nat) : Nat → List (BitVec 64) → Nat
  | _, [] => size
  | i, blk :: rest =>
      if blk = skip then findLoop skip cnt size (i + 1) rest else min size (i * 64 + cnt blk)

/-- dynamic_bitset.hpp:141-144, 211-229 `find_first`. -/
def findFirst (b : Bitset) (value : Bool) : Nat :=
  if value then findLoop 0#64 countrZero b.size 0 b.blocks
  else findLoop (BitVec.allOnes 64) countrOne b.size 0 b.blocks

/-- dynamic_bitset.hpp:183-193 `operator~`. -/
def complement (b : Bitset) : Bitset := ⟨b.blocks.map (~~~ ·), b.size⟩

/-- dynamic_bitset.hpp:195-205 `operator==`. -/
def eq (l r : Bitset) : Option Bool :=
  if l.size ≠ r.size then some false else do
    let fl ← l.fullBlocks
    let fr ← (List.range l.fullBlockCount).mapM (fun i => r.blocks[i]?)
    if fl ≠ fr then return false
    let pl ← l.partialBlock
    let pr ← r.partialBlock
    return pl == pr

/-- dynamic_bitset.hpp:87-97: The sequence of values read by `operator[]` at positions `0 … size-1`. -/
def contents (b : Bitset) : Option (List Bool) := (List.range b.size).mapM b.get

/-- dynamic_bitset.hpp:19-250: The public modifiers. -/
inductive Op where
  | assign (idx : Nat) (v : Bool)
  | flip (idx : Nat)
  | fill (v : Bool)
  | clear
  | complement
  | resize (n : Nat) (v : Bool)

/-- dynamic_bitset.hpp:19-250: One call of a public modifier. -/
def step (b : Bitset) : Op → Option Bitset
  | .assign i v => b.assign i v
  | .flip i => b.flip i
  | .fill v => some (b.fill v)
  | .clear => some b.clear
  | .complement => some b.complement
  | .resize n v => b.resize n v

/-- dynamic_bitset.hpp:19-250: A sequence of calls. -/
def run (b : Bitset) (ops : List Op) : Option Bitset := ops.foldlM step b

end Bitset
end Gapp.Model
