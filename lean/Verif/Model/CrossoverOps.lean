import Verif.Model.Crossover
import Verif.Model.EdgeCrossover
/-!
# The crossover operators of the library

Source: `/repo/src/crossover/permutation.cpp`, `binary.cpp`, `integer.cpp`.

These call the implementations of `Model/Crossover.lean` with random arguments. The random draws are arguments of the model; the ranges
they come from are given by the predicates below (`rng::randomInt(lo, hi)` returns any value in `[lo, hi]`, and `rng::sampleUnique(0, n, k)`
returns `k` distinct values below `n`, see `Model/Rng.lean`).
Simplification: the chromosomes only, as in `Model/Crossover.lean`.
-/

namespace Gapp.Model

/-- permutation.cpp:23-24, 41-42, 101-103: `length = randomInt(1, chrom_len - 1)`, `first = randomInt(0, chrom_len - length)`. -/
structure RangeDraw (chromLen : Nat) where
  length : Nat
  first : Nat
  length_ok : 1 ≤ length ∧ length ≤ chromLen - 1
  first_ok : first ≤ chromLen - length

/-- permutation.cpp:59-60, binary.cpp:42-43, 53-54: the result of `sampleUnique(0, chrom_len, n)`. -/
structure IndexDraw (chromLen : Nat) where
  idxs : List Nat
  nodup : idxs.Nodup
  lt : ∀ i ∈ idxs, i < chromLen

/-- permutation.cpp:15-31 `Order1::crossover`; the draw is only used when `chrom_len >= 2`. -/
def permOrder1 (p1 p2 : List Nat) (draw : 2 ≤ p1.length → RangeDraw p1.length) : Option (List Nat × List Nat) :=
  if h : p1.length < 2 then some (p1, p2)
  else do
    let d := draw (Nat.le_of_not_lt h)
    let last := d.first + d.length
    return (← order1Unsigned p1 p2 d.first last, ← order1Unsigned p2 p1 d.first last)

/-- permutation.cpp:33-49 `Order2::crossover`. -/
def permOrder2 (p1 p2 : List Nat) (draw : 2 ≤ p1.length → RangeDraw p1.length) : Option (List Nat × List Nat) :=
  if h : p1.length < 2 then some (p1, p2)
  else do
    let d := draw (Nat.le_of_not_lt h)
    let last := d.first + d.length
    return (← order2Unsigned p1 p2 d.first last, ← order2Unsigned p2 p1 d.first last)

/-- permutation.cpp:51-66 `Position::crossover`. -/
def permPosition (p1 p2 : List Nat) (draw : IndexDraw p1.length) : Option (List Nat × List Nat) :=
  if p1.length < 2 then some (p1, p2)
  else do return (← positionUnsigned p1 p2 draw.idxs, ← positionUnsigned p2 p1 draw.idxs)

/-- permutation.cpp:68-77 `Cycle::crossover`. -/
def permCycle (p1 p2 : List Nat) : Option (List Nat × List Nat) :=
  if p1.length < 2 then some (p1, p2) else cycleUnsigned p1 p2

/-- permutation.cpp:79-91 `Edge::crossover`. -/
def permEdge (p1 p2 : List Nat) : Option (List Nat × List Nat) :=
  if p1.length < 2 then some (p1, p2)
  else do return (← edgeUnsigned p1 p2, ← edgeUnsigned p2 p1)

/-- permutation.cpp:93-110 `PMX::crossover`. -/
def permPmx (p1 p2 : List Nat) (draw : 2 ≤ p1.length → RangeDraw p1.length) : Option (List Nat × List Nat) :=
  if h : p1.length < 2 then some (p1, p2)
  else do
    let d := draw (Nat.le_of_not_lt h)
    let last := d.first + d.length
    return (← pmxUnsigned p1 p2 d.first last, ← pmxUnsigned p2 p1 d.first last)

section
variable {α : Type}

/-- binary.cpp:15-23, integer.cpp:17-25 `SinglePoint::crossover`; `point` is `randomInt(0, chrom_len)`. -/
def opSinglePoint (p1 p2 : List α) (point : Fin (p1.length + 1)) : Option (List α × List α) :=
  singlePointCrossover p1 p2 point

/-- binary.cpp:25-34, integer.cpp:27-34 `TwoPoint::crossover`. -/
def opTwoPoint (p1 p2 : List α) (a b : Fin (p1.length + 1)) : Option (List α × List α) :=
  twoPointCrossover p1 p2 (a, b)

/-- binary.cpp:36-46, integer.cpp:36-46 `NPoint::crossover`. -/
def opNPoint (p1 p2 : List α) (draw : IndexDraw p1.length) : Option (List α × List α) :=
  nPointCrossover p1 p2 draw.idxs

/-- binary.cpp:48-65, integer.cpp:48-66 `Uniform::crossover`. -/
def opUniform (p1 p2 : List α) (draw : IndexDraw p1.length) : Option (List α × List α) :=
  uniformCrossover p1 p2 draw.idxs
end

end Gapp.Model
