import Verif.Model.Sorting
import Verif.Model.Sample
import Mathlib.Algebra.Order.Field.Basic
/-!
# The mutation methods

Source: `/repo/src/mutation/permutation.cpp`, `binary.cpp`, `integer.cpp`, `real.cpp`.

Each function gets the chromosome and the results of the random draws it makes, in the order in which they are made. `randomReal() < mutation_rate()`
is given as the value of this comparison. An access outside of the chromosome, or a violated precondition, is `none`.
-/

namespace Gapp.Model

section
variable {α : Type}

/-- `rng::sampleUnique(0, n, count)` with its asserted precondition `count <= n` (rng.hpp:477-524). -/
def sampleIndices (n count : Nat) (selectMany : Bool) (draws : List Int) : Option (List Nat) :=
  if count ≤ n then (sampleUnique 0 n count selectMany draws).map (fun l => l.map Int.toNat) else none

/-- permutation.cpp:31 of the mutations: `std::reverse(begin + first, begin + last)`. -/
def reverseRange (l : List α) (first last : Nat) : Option (List α) :=
  if first ≤ last ∧ last ≤ l.length then some (l.take first ++ ((l.take last).drop first).reverse ++ l.drop last) else none

/-- permutation.cpp:16-33 `Inversion::mutate`. `rangeLen` and `first` are the draws of the lines 25-28. -/
def inversion (mutates : Bool) (rangeLen first : Nat) (l : List α) : Option (List α) :=
  if l.length < 2 then some l
  else if mutates then reverseRange l first (first + rangeLen) else some l

/-- permutation.cpp:24-26 and 70-72: the longest range; `scaled` is `size_t(range_max_ * chrom_len)`. -/
def maxRangeLen (scaled minLen : Nat) : Nat := max scaled minLen

/-- permutation.cpp:35-46 `Swap2::mutate`. -/
def swap2 (mutates selectMany : Bool) (draws : List Int) (l : List α) : Option (List α) := do
  if l.length < 2 then return l
  if mutates then
    let idxs ← sampleIndices l.length 2 selectMany draws
    swap? l (← idxs[0]?) (← idxs[1]?)
  else return l

/-- permutation.cpp:48-60 `Swap3::mutate`. -/
def swap3 (mutates selectMany : Bool) (draws : List Int) (l : List α) : Option (List α) := do
  if l.length < 3 then return l
  if mutates then
    let idxs ← sampleIndices l.length 3 selectMany draws
    let l ← swap? l (← idxs[0]?) (← idxs[1]?)
    swap? l (← idxs[0]?) (← idxs[2]?)
  else return l

/-- permutation.cpp:62-79 `Shuffle::mutate`. `shuffled` is the result of `std::shuffle` on the range, a permutation of it. -/
def shuffleMut (mutates : Bool) (rangeLen first : Nat) (shuffled : List α) (l : List α) : Option (List α) :=
  if l.length < 2 then some l
  else if mutates then
    if first + rangeLen ≤ l.length then some (l.take first ++ shuffled ++ l.drop (first + rangeLen)) else none
  else some l

/-- permutation.cpp:101 of the mutations: `std::rotate(begin + first, begin + middle, begin + last)`. -/
def rotateRange (l : List α) (first middle last : Nat) : Option (List α) :=
  if first ≤ middle ∧ middle ≤ last ∧ last ≤ l.length then
    some (l.take first ++ (l.take last).drop middle ++ (l.take middle).drop first ++ l.drop last)
  else none

/-- permutation.cpp:81-103 `Shift::mutate`. -/
def shift (mutates : Bool) (rangeLen : Nat) (selectMany : Bool) (draws : List Int) (l : List α) : Option (List α) := do
  if l.length < 2 then return l
  if mutates then
    if l.length < rangeLen then none
    let idxs ← sampleIndices (l.length - rangeLen + 1) 2 selectMany draws
    let src ← idxs[0]?
    let dest ← idxs[1]?
    if dest < src then rotateRange l dest src (src + rangeLen)
    else rotateRange l src (src + rangeLen) (dest + rangeLen)
  else return l

/-- binary.cpp:18 of the mutations: Apply `f` to the gene at each of the given positions in turn; `d` is the draw made for the position. -/
def updateAt {β : Type} (f : Nat → β → α → Option α) : List (Nat × β) → List α → Option (List α)
  | [], l => some l
  | (idx, d) :: rest, l => do
    let g ← l[idx]?
    let g' ← f idx d g
    updateAt f rest (l.set idx g')

/-- binary.cpp:13-22 `Flip::mutate`. `count` is the result of `randomBinomial`. -/
def flip (count : Nat) (selectMany : Bool) (draws : List Int) (l : List Nat) : Option (List Nat) := do
  let idxs ← sampleIndices l.length count selectMany draws
  updateAt (fun _ (_ : Unit) g => some (g ^^^ 1)) (idxs.map (fun i => (i, ()))) l

/-- integer.cpp:24-33: the loop that draws a gene until it is different from the old one. `none`: it is still going on after all of the draws. -/
def newIntGene (old : Int) (draws : List Int) : Option Int := draws.find? (fun x => decide (x ≠ old))

/-- integer.cpp:13-34 `Uniform::mutate`. `geneDraws` has the draws made for each of the positions. -/
def intUniform (count : Nat) (selectMany : Bool) (draws : List Int) (geneDraws : List (List Int)) (l : List Int) : Option (List Int) := do
  let idxs ← sampleIndices l.length count selectMany draws
  if geneDraws.length = idxs.length then
    updateAt (fun _ ds old => newIntGene old ds) (idxs.zip geneDraws) l
  else none
end

/-- candidate.hpp:30-57 `Bounds`. -/
structure GeneBounds (K : Type) where
  lower : K
  upper : K

/-- real.cpp:21, 36, 59, 78, 105 of the mutations: The common part of the methods of real.cpp: sample the positions, then change each of the genes. -/
def realMutate {K β : Type} (gene : GeneBounds K → β → K → K) (bounds : List (GeneBounds K)) (count : Nat) (selectMany : Bool) (draws : List Int)
    (geneDraws : List β) (l : List K) : Option (List K) := do
  let idxs ← sampleIndices l.length count selectMany draws
  if geneDraws.length = idxs.length then
    updateAt (fun idx d old => do
      let b ← bounds[idx]?
      return gene b d old) (idxs.zip geneDraws) l
  else none

section
variable {K : Type} [Field K] [LinearOrder K]

/-- real.cpp:49, 68, 95 of the mutations: `std::clamp(v, lo, hi)`. -/
def stdClamp (v lo hi : K) : K := if v < lo then lo else if hi < v then hi else v

/-- real.cpp:24-27 `Uniform`: the draw is the result of `randomReal()`. -/
def realUniformGene (b : GeneBounds K) (r : K) (_ : K) : K := b.lower + (b.upper - b.lower) * r

/-- real.cpp:38-50 `NonUniform`: the draw is the value of `multiplier` (with the power function, it is not modelled how it is computed) and
the boolean that selects the bound. -/
def realNonUniformGene (b : GeneBounds K) (d : K × Bool) (old : K) : K :=
  let bound := if d.2 then b.lower else b.upper
  let g := old + (bound - old) * d.1
  stdClamp g b.lower b.upper

/-- real.cpp:61-69 `Gauss`: the draw is from the standard normal distribution. -/
def realGaussGene (sigma : K) (b : GeneBounds K) (z : K) (old : K) : K :=
  let SD := (b.upper - b.lower) / sigma
  let g := old + (SD * z + 0)
  stdClamp g b.lower b.upper

/-- real.cpp:80-96 `Polynomial`: the draw is `alpha`, and the value of the power function in the branch taken. -/
def realPolynomialGene (b : GeneBounds K) (d : K × K) (old : K) : K :=
  let g := if d.1 ≤ 1 / 2 then old + (d.2 - 1) * (old - b.lower) else old + (1 - d.2) * (b.upper - old)
  stdClamp g b.lower b.upper

/-- real.cpp:108-111 `Boundary`. -/
def realBoundaryGene (b : GeneBounds K) (d : Bool) (_ : K) : K := if d then b.lower else b.upper

end

end Gapp.Model
