import Verif.Model.Rng
/-!
# Generating random candidates

Source: `/repo/src/encoding/binary.cpp:11-17`, `integer.cpp:10-20`, `permutation.cpp:12-19`, `real.cpp:11-22`, `/repo/src/utility/rng.hpp:331-351`.

The bounds of a gene are a pair of the lower and the upper bound. `none` is a failed assertion or an access out of range.
-/

namespace Gapp.Model

/-- rng.hpp:331-337 `randomInt(lbound, ubound)`: some number in `[lbound, ubound]`; every one of them occurs for some value of `u`. (`std::uniform_int_distribution` is not modelled.) -/
def randomInt (lbound ubound : Int) (u : Nat) : Option Int := if lbound ≤ ubound then some (lbound + u % (ubound - lbound + 1)) else none

/-- binary.cpp:11-17. `pool` is the state of the distribution and `gen` are the next outputs of the generator. -/
def generateBinary (chromLen : Nat) (pool : BitVec 64) (gen : List (BitVec 64)) : Option (List Bool) := (boolDraws chromLen pool gen).map (·.1)

/-- integer.cpp:10-20. `us` are the random numbers. -/
def generateInteger (chromLen : Nat) (bounds : List (Int × Int)) (us : Nat → Nat) : Option (List Int) :=
  (List.range chromLen).mapM (fun idx => do
    let b ← bounds[idx]?
    randomInt b.1 b.2 (us idx))

/-- real.cpp:11-22, in exact arithmetic. `xs` are the outputs of the generator. -/
def generateReal {K : Type} [Field K] [LinearOrder K] (chromLen : Nat) (bounds : List (K × K)) (xs : Nat → BitVec 64) : Option (List K) :=
  if chromLen = bounds.length then
    (List.range chromLen).mapM (fun i => do
      let b ← bounds[i]?
      if b.1 ≤ b.2 then randomRealIn b.1 b.2 (xs i) else none)
  else none

/-- permutation.cpp:16 of the encodings: Swapping two elements. -/
def swapElems {α : Type} (v : List α) (i j : Nat) : List α :=
  match v[i]?, v[j]? with
  | some x, some y => (v.set i y).set j x
  | _, _ => v

/-- permutation.cpp:16 of the encodings: `std::shuffle`: the element number `i` is swapped with one at a random position up to `i`, for each `i` from 1. -/
def stdShuffle {α : Type} (v : List α) (us : Nat → Nat) : List α :=
  (List.range (v.length - 1)).foldl (fun v k => swapElems v (k + 1) (us k % (k + 2))) v

/-- permutation.cpp:12-19. -/
def generatePermutation (chromLen : Nat) (us : Nat → Nat) : List Nat := stdShuffle (List.range chromLen) us

end Gapp.Model
