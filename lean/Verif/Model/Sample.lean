/-!
# Sampling without replacement

Source: `/repo/src/utility/rng.hpp:459-524`.

The random integers are given as a list of draws, one for each call of `rng::randomInt(lbound, limit)` (which returns an arbitrary value of
`[lbound, limit]`). Integers are unbounded: `lbound`, `ubound` and `count` must be such that the C++ types do not overflow, which holds
when `ubound - lbound >= count`. `is_selected` is a list of booleans (the `thread_local` bitset is resized and filled before use, see
`Model/Bitset.lean`). An invalid access is `none`.
-/

namespace Gapp.Model

/-- rng.hpp:502-519: The position `n - lbound` in `is_selected`. -/
def bitIdx (lb n : Int) : Option Nat := if lb ≤ n then some (n - lb).toNat else none

/-- rng.hpp:491-504: The state of the first loop: `limit`, `is_selected`, and the numbers written so far. -/
abbrev FloydState := Int × List Bool × List Int

/-- rng.hpp:497-502: one iteration, with the draw `n`. -/
def floydStep (lb : Int) (s : FloydState) (n : Int) : Option FloydState := do
  let (limit, sel, acc) := s
  let selected ← sel[← bitIdx lb n]?
  let number := if selected then limit else n
  let idx ← bitIdx lb number
  if idx < sel.length then some (limit + 1, sel.set idx true, acc ++ [number]) else none

/-- rng.hpp:509-513: one iteration of the loop that removes numbers, with the draw `n`. -/
def removeStep (lb : Int) (s : Int × List Bool) (n : Int) : Option (Int × List Bool) := do
  let (limit, sel) := s
  let i ← bitIdx lb n
  let j ← bitIdx lb limit
  if ← sel[i]? then some (limit + 1, sel.set i false)
  else if j < sel.length then some (limit + 1, sel.set j false) else none

/-- rng.hpp:515-519: the positions of the selected bits, shifted by `lbound`. -/
def collectSelected (lb : Int) (sel : List Bool) : List Int :=
  (sel.zipIdx.filter (fun p => p.1)).map (fun p => lb + p.2)

/-- rng.hpp:465-471: one iteration of `sampleUniqueSet`, with the draw `n`. -/
def setStep (s : Int × List Int × List Int) (n : Int) : Int × List Int × List Int :=
  let (limit, selected, acc) := s
  (limit + 1, selected ++ [n], acc ++ [if n ∈ selected then limit else n])

/-- rng.hpp:459-474 `sampleUniqueSet`. The loop ends when `limit = ubound`, i.e. after `count` draws. -/
def sampleUniqueSet (ub : Int) (count : Nat) (draws : List Int) : Option (List Int) :=
  if draws.length = count then some (draws.foldl setStep (ub - count, [], [])).2.2 else none

/-- rng.hpp:477-524 `sampleUnique`. `selectMany` is the value of `count >= uint64_t(0.6 * range_len)` (line 485), which only selects one of
two methods; the results below hold for both values, so the rounding of this product does not matter. -/
def sampleUnique (lb ub : Int) (count : Nat) (selectMany : Bool) (draws : List Int) : Option (List Int) := do
  let rangeLen := (ub - lb).toNat
  if rangeLen ≥ 65536 then sampleUniqueSet ub count draws
  else if !selectMany then
    if draws.length = count then
      let s ← draws.foldlM (floydStep lb) (ub - count, List.replicate rangeLen false, [])
      return s.2.2
    else none
  else
    let rcount := rangeLen - count
    if draws.length = rcount then
      let s ← draws.foldlM (removeStep lb) (ub - rcount, List.replicate rangeLen true)
      let numbers := collectSelected lb s.2
      if numbers.length ≤ count then return numbers ++ List.replicate (count - numbers.length) 0 else none
    else none

/-- rng.hpp:477-524: The number of draws `sampleUnique` makes. -/
def sampleDraws (lb ub : Int) (count : Nat) (selectMany : Bool) : Nat :=
  if (ub - lb).toNat ≥ 65536 ∨ selectMany = false then count else (ub - lb).toNat - count

end Gapp.Model
