import Verif.Model.SmallVectorThrow
import Verif.Spec.CircularOwnership
/-!
# Specification of several vectors with calls that can throw

Variables that hold ideal vectors: a capacity and a list of elements. `S` is the inline capacity, `nm` tells whether elements are moved without exceptions. Only the type of the calls is shared
with the model. Each step takes the number of allocations and copies that succeed (`none`: all of them) and returns what is left.
-/

namespace Gapp.Spec
open Gapp.Model (SvtOp)
open DequeVars (throws)

/-- An ideal vector. -/
structure IdealVec (α : Type) where
  cap : Nat
  items : List α
  deriving DecidableEq, Repr

namespace IdealVec
variable {α : Type}

/-- What is left of the limit after `cost` allocations and copies. -/
def left (limit : Option Nat) (cost : Nat) : Option Nat := limit.map (· - cost)

/-- How many copies succeed before one throws. -/
def reached (limit : Option Nat) : Nat := limit.getD 0

/-- The capacity grows by the number of elements that are needed or by a half. -/
def grown (cap growth : Nat) : Nat := max (cap + growth) (cap + cap / 2)

/-- The number of copies for putting the elements into another block. -/
def copies (nm : Bool) (n : Nat) : Nat := if nm then 0 else n

/-- All or nothing: `v` is unchanged if the call throws (the flag is false), otherwise it is `w`. -/
def attempt (limit : Option Nat) (cost : Nat) (v w : IdealVec α) : IdealVec α × Bool × Option Nat :=
  if throws limit cost then (v, false, some 0) else (w, true, left limit cost)

/-- Appending an element; all or nothing. -/
def push (nm : Bool) (v : IdealVec α) (x : α) (limit : Option Nat) : IdealVec α × Bool × Option Nat :=
  if v.items.length < v.cap then attempt limit 1 v ⟨v.cap, v.items ++ [x]⟩
  else attempt limit (2 + copies nm v.items.length) v ⟨grown v.cap 1, v.items ++ [x]⟩

/-- Appending the elements of a list until one append throws. -/
def pushAll (nm : Bool) : IdealVec α → List α → Option Nat → IdealVec α × Bool × Option Nat
  | v, [], limit => (v, true, limit)
  | v, x :: xs, limit =>
    match v.push nm x limit with
    | (w, true, l) => pushAll nm w xs l
    | (w, false, l) => (w, false, l)

/-- Another capacity; all or nothing. -/
def recap (nm : Bool) (v : IdealVec α) (cap : Nat) (limit : Option Nat) : IdealVec α × Bool × Option Nat :=
  attempt limit (1 + copies nm v.items.length) v ⟨cap, v.items⟩

/-- `reserve`; all or nothing. -/
def reserve (nm : Bool) (v : IdealVec α) (n : Nat) (limit : Option Nat) : IdealVec α × Bool × Option Nat :=
  if v.cap < n then v.recap nm (grown v.cap (n - v.cap)) limit else (v, true, limit)

/-- `resize`: the elements are unchanged if it throws; the capacity may have grown. -/
def resize (nm : Bool) (v : IdealVec α) (n : Nat) (x : α) (limit : Option Nat) : IdealVec α × Bool :=
  if n ≤ v.items.length then (⟨v.cap, v.items.take n⟩, true)
  else
    match v.reserve nm n limit with
    | (w, false, _) => (w, false)
    | (w, true, l) =>
      if throws l (n - v.items.length) then (w, false) else (⟨w.cap, w.items ++ List.replicate (n - v.items.length) x⟩, true)

/-- The elements after an assignment of `xs` in place that threw at the copy number `k`: the first ones are assigned, nothing is appended and nothing removed. -/
def partly (v : IdealVec α) (xs : List α) (k : Nat) : IdealVec α :=
  ⟨v.cap, xs.take (min k (min v.items.length xs.length)) ++ v.items.drop (min k (min v.items.length xs.length))⟩

/-- `assign` of a list: all or nothing if the capacity does not suffice. -/
def assign (v : IdealVec α) (xs : List α) (limit : Option Nat) : IdealVec α × Bool :=
  if xs.length ≤ v.cap then
    if throws limit xs.length then (v.partly xs (reached limit), false) else (⟨v.cap, xs⟩, true)
  else if throws limit (1 + xs.length) then (v, false) else (⟨grown v.cap (xs.length - v.items.length), xs⟩, true)

/-- `assign` of an input range: the elements that are there are assigned, the rest are removed or appended. -/
def assignInput (nm : Bool) (v : IdealVec α) (xs : List α) (limit : Option Nat) : IdealVec α × Bool :=
  let com := min v.items.length xs.length
  if throws limit com then (v.partly xs (reached limit), false)
  else
    match pushAll nm ⟨v.cap, xs.take com⟩ (xs.drop com) (left limit com) with
    | (w, ok, _) => (w, ok)

/-- The elements after `k` elements were moved `n` places to the left, from the place `i + n` on: those before `i` are unchanged, the next `k` are the ones that were moved, and what is left where
they came from has been moved from, unless it was overwritten. -/
def shifted (moved : α → α) (xs : List α) (i n k : Nat) : List α :=
  xs.mapIdx (fun p x => if p < i then x else if p < i + k then (xs[p + n]?).getD x else if i + n ≤ p ∧ p < i + n + k then moved x else x)

/-- `erase` of the elements from `i` up to `j`. If it throws, some elements are moved and none is removed. -/
def erase (nm : Bool) (moved : α → α) (v : IdealVec α) (i j : Nat) (limit : Option Nat) : IdealVec α × Bool :=
  if i < j ∧ throws limit (copies nm (v.items.length - j)) = true then (⟨v.cap, shifted moved v.items i (j - i) (reached limit)⟩, false)
  else (⟨v.cap, v.items.take i ++ v.items.drop j⟩, true)

/-- The elements after the last `k` elements were moved one place to the right, to make room: the place they leave holds an element that was moved from. -/
def opened (moved : α → α) (xs : List α) (k : Nat) : List α :=
  xs.take (xs.length - k) ++ ((xs.drop (xs.length - k)).take 1).map moved ++ xs.drop (xs.length - k)

/-- `emplace` at the place `i`: all or nothing at the end, and if the capacity does not suffice. Otherwise the last elements may have been moved if it throws. -/
def emplace (nm : Bool) (moved : α → α) (v : IdealVec α) (i : Nat) (x : α) (limit : Option Nat) : IdealVec α × Bool :=
  let all := v.items.take i ++ x :: v.items.drop i
  if v.items.length = v.cap then
    if throws limit (2 + copies nm v.items.length) then (v, false) else (⟨grown v.cap 1, all⟩, true)
  else if i = v.items.length then
    if throws limit 1 then (v, false) else (⟨v.cap, all⟩, true)
  else if throws limit (1 + copies nm (v.items.length - i + 1)) then
    if reached limit ≤ 1 then (v, false) else (⟨v.cap, opened moved v.items (reached limit - 1)⟩, false)
  else (⟨v.cap, all⟩, true)

/-- Move assignment of `q` to `p`: the values afterwards, in this order. If `q` has an allocated block, it is taken over, and `q` gets the block of `p` if `p` has one, too. Otherwise the elements are moved
one by one. If one throws, the first ones have been moved; those behind the old ones are kept only if the elements are appended one by one (`fwd` is false). -/
def assignMove (S : Nat) (nm : Bool) (moved : α → α) (fwd : Bool) (p q : IdealVec α) (limit : Option Nat) : IdealVec α × IdealVec α × Bool :=
  if q.cap ≠ S then (q, if p.cap ≠ S then p else ⟨S, []⟩, true)
  else if throws limit (copies nm q.items.length) then
    let k := reached limit
    (if fwd = true ∨ k < min p.items.length q.items.length then p.partly q.items k else ⟨p.cap, q.items.take k⟩,
      ⟨S, (q.items.take k).map moved ++ q.items.drop k⟩, false)
  else (⟨p.cap, q.items⟩, ⟨S, q.items.map moved⟩, true)

/-- The first elements of two lists are exchanged by three moves each; `k` moves are done. -/
def exchange (moved : α → α) : List α → List α → Nat → List α × List α
  | a :: as, b :: bs, k + 3 => (b :: (exchange moved as bs k).1, a :: (exchange moved as bs k).2)
  | _ :: as, b :: bs, 2 => (b :: as, moved b :: bs)
  | a :: as, bs, 1 => (moved a :: as, bs)
  | as, bs, _ => (as, bs)

/-- `swap` of two vectors in inline buffers, `p` is not longer than `q`: first the common elements are exchanged, then the rest of `q` is copied to `p`. -/
def swapInline (nm : Bool) (moved : α → α) (p q : IdealVec α) (limit : Option Nat) : IdealVec α × IdealVec α × Bool :=
  let m := p.items.length
  if throws limit (copies nm (3 * m)) then
    (⟨p.cap, (exchange moved p.items q.items (reached limit)).1⟩, ⟨q.cap, (exchange moved p.items q.items (reached limit)).2⟩, false)
  else if throws (left limit (copies nm (3 * m))) (copies nm (q.items.length - m)) then (⟨p.cap, q.items.take m⟩, ⟨q.cap, p.items ++ q.items.drop m⟩, false)
  else (q, p, true)

/-- `swap`: if one of the two has an allocated block and the other has not, all or nothing. -/
def swap (S : Nat) (nm : Bool) (moved : α → α) (p q : IdealVec α) (limit : Option Nat) : IdealVec α × IdealVec α × Bool :=
  if p.cap ≠ S ∧ q.cap ≠ S then (q, p, true)
  else if p.cap = S ∧ q.cap = S then
    if p.items.length < q.items.length then swapInline nm moved p q limit
    else ((swapInline nm moved q p limit).2.1, (swapInline nm moved q p limit).1, (swapInline nm moved q p limit).2.2)
  else if throws limit (copies nm (if p.cap = S then p.items.length else q.items.length)) then (p, q, false)
  else (q, p, true)

end IdealVec

/-- The values of the variables; `none` for a variable that is not alive. -/
abbrev VecVars (α : Type) := List (Option (IdealVec α))

namespace VecVars
variable {α : Type}

/-- Constructing the variable `x` from a list of elements: nothing if it throws. -/
def build (S : Nat) (d : VecVars α) (x : Nat) (xs : List α) (limit : Option Nat) : VecVars α × Bool :=
  if throws limit ((if xs.length ≤ S then 0 else 1) + xs.length) then (d, true) else (d.set x (some ⟨max S xs.length, xs⟩), false)

/-- The variable `x` after a modifier. -/
def put (d : VecVars α) (x : Nat) (r : IdealVec α × Bool) : VecVars α × Bool := (d.set x (some r.1), !r.2)

/-- The variables `x` and `y` after a call. -/
def put2 (d : VecVars α) (x y : Nat) (r : IdealVec α × IdealVec α × Bool) : VecVars α × Bool := ((d.set x (some r.1)).set y (some r.2.1), !r.2.2)

/-- One call: the values after it and whether it threw. `none`: a precondition is violated (a constructor needs a variable that is not alive, everything else one that is, and places in the vector). -/
def step (S : Nat) (nm : Bool) (moved : α → α) (d : VecVars α) (limit : Option Nat) : SvtOp α → Option (VecVars α × Bool)
  | .default x =>
    match d[x]? with
    | some none => some (d.set x (some ⟨S, []⟩), false)
    | _ => none
  | .ctor x xs =>
    match d[x]? with
    | some none => some (d.build S x xs limit)
    | _ => none
  | .ctorInput x xs =>
    match d[x]? with
    | some none =>
      match IdealVec.pushAll nm ⟨S, []⟩ xs limit with
      | (w, true, _) => some (d.set x (some w), false)
      | (_, false, _) => some (d, true)
    | _ => none
  | .copy x y =>
    match d[x]?, d[y]? with
    | some none, some (some q) => some (d.build S x q.items limit)
    | _, _ => none
  | .move x y =>
    match d[x]?, d[y]? with
    | some none, some (some q) =>
      if q.cap = S ∧ throws limit (IdealVec.copies nm q.items.length) = true then
        some (d.set y (some ⟨S, (q.items.take (IdealVec.reached limit)).map moved ++ q.items.drop (IdealVec.reached limit)⟩), true)
      else some ((d.set y (some ⟨S, []⟩)).set x (some q), false)
    | _, _ => none
  | .destroy x =>
    match d[x]? with
    | some (some _) => some (d.set x none, false)
    | _ => none
  | .push x v =>
    match d[x]? with
    | some (some q) => some (d.put x ((q.push nm v limit).1, (q.push nm v limit).2.1))
    | _ => none
  | .reserve x n =>
    match d[x]? with
    | some (some q) => some (d.put x ((q.reserve nm n limit).1, (q.reserve nm n limit).2.1))
    | _ => none
  | .shrink x =>
    match d[x]? with
    | some (some q) =>
      if S < q.items.length then some (d.put x ((q.recap nm q.items.length limit).1, (q.recap nm q.items.length limit).2.1)) else some (d, false)
    | _ => none
  | .resize x n v =>
    match d[x]? with
    | some (some q) => some (d.put x (q.resize nm n v limit))
    | _ => none
  | .clear x =>
    match d[x]? with
    | some (some q) => some (d.set x (some ⟨q.cap, []⟩), false)
    | _ => none
  | .reset x =>
    match d[x]? with
    | some (some _) => some (d.set x (some ⟨S, []⟩), false)
    | _ => none
  | .assign x xs =>
    match d[x]? with
    | some (some q) => some (d.put x (q.assign xs limit))
    | _ => none
  | .assignInput x xs =>
    match d[x]? with
    | some (some q) => some (d.put x (q.assignInput nm xs limit))
    | _ => none
  | .assignCopy x y =>
    match d[x]?, d[y]? with
    | some (some p), some (some q) => if x = y then some (d, false) else some (d.put x (p.assign q.items limit))
    | _, _ => none
  | .erase x i j =>
    match d[x]? with
    | some (some q) => if i ≤ j ∧ j ≤ q.items.length then some (d.put x (q.erase nm moved i j limit)) else none
    | _ => none
  | .emplace x i v =>
    match d[x]? with
    | some (some q) => if i ≤ q.items.length then some (d.put x (q.emplace nm moved i v limit)) else none
    | _ => none
  | .assignMove x y fwd =>
    match d[x]?, d[y]? with
    | some (some p), some (some q) => if x = y then some (d, false) else some (d.put2 x y (p.assignMove S nm moved fwd q limit))
    | _, _ => none
  | .swap x y =>
    match d[x]?, d[y]? with
    | some (some p), some (some q) => if x = y then some (d, false) else some (d.put2 x y (p.swap S nm moved q limit))
    | _, _ => none

/-- A program that catches all exceptions: the values at the end and which calls threw. -/
def program (S : Nat) (nm : Bool) (moved : α → α) : VecVars α → List (Option Nat × SvtOp α) → Option (VecVars α × List Bool)
  | d, [] => some (d, [])
  | d, (limit, op) :: prog =>
    match d.step S nm moved limit op with
    | none => none
    | some (d', threw) =>
      match program S nm moved d' prog with
      | none => none
      | some (e, flags) => some (e, threw :: flags)

/-- No constructor from an input range throws in the program. -/
def SafeProgram (S : Nat) (nm : Bool) (moved : α → α) : VecVars α → List (Option Nat × SvtOp α) → Prop
  | _, [] => True
  | d, (limit, op) :: prog =>
    ∀ d' threw, d.step S nm moved limit op = some (d', threw) → ((∃ x xs, op = .ctorInput x xs) → threw = false) ∧ SafeProgram S nm moved d' prog

end VecVars
end Gapp.Spec
