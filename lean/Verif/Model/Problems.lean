import Verif.Model.Matrix
import Mathlib.Algebra.Order.Field.Basic
import Mathlib.Analysis.Real.Sqrt
/-!
# Benchmark problems: decoding of variables, string matching and the travelling salesman

Models `problems/benchmark_function.cpp`, `problems/integer.cpp` and `problems/travelling_salesman.cpp`. Arithmetic is exact. Failed assertions, accesses outside of a container and divisions by zero are `none`.
-/

namespace Gapp.Model

section Decode

variable {K : Type} [Field K]

/-- benchmark_function.cpp:23-26: `std::accumulate` over the bits of one variable. -/
def bitsAccumulate (bits : List Bool) : K := bits.foldl (fun acc b => acc * 2 + (if b then 1 else 0)) 0

/-- benchmark_function.cpp:18-31: one variable. -/
def decodeVar (bchrom : List Bool) (lo up : K) (varBits i : Nat) : K :=
  bitsAccumulate ((bchrom.drop (i * varBits)).take ((i + 1) * varBits - i * varBits)) / (2 ^ varBits - 1) * (up - lo) + lo

/-- benchmark_function.cpp:12-34 `convert`. Bounds are pairs of a lower and an upper bound. -/
def decodeVars (bchrom : List Bool) (bounds : List (K × K)) (varBits : Nat) : Option (List K) :=
  if bchrom.length = varBits * bounds.length then
    if varBits = 0 ∧ bounds ≠ [] then none
    else some ((List.range bounds.length).map (fun i =>
      decodeVar bchrom (bounds.getD i (0, 0)).1 (bounds.getD i (0, 0)).2 varBits i))
  else none

/-- benchmark_function.hpp:169-173 `invoke` on a binary chromosome: the variables that the real-encoded function is called with. `realLen` and `binLen` are the chromosome lengths of the two fitness functions. -/
def decodeForInvoke (realLen binLen : Nat) (bchrom : List Bool) (bounds : List (K × K)) : Option (List K) :=
  if realLen = 0 then none else decodeVars bchrom bounds (binLen / realLen)

end Decode

/-- integer.cpp:27 of the problems: `static_cast<char>`, as an unsigned byte. -/
def toByte (x : Int) : Nat := (x % 256).toNat

/-- integer.cpp:20-32: the loop of `StringFinder::invoke`. `target` are the bytes of the string. -/
def stringFinderLoop (target : List Nat) (chrom : List Int) (i fit : Nat) : (n : Nat) → Option Nat
  | 0 => some fit
  | n + 1 => do
    let c ← chrom[i]?
    let t ← target[i]?
    stringFinderLoop target chrom (i + 1) (fit + if toByte c = t then 1 else 0) n

/-- integer.cpp:20-32 `StringFinder::invoke`; `num_vars()` is the length of the target (line 12). -/
def stringFinder (target : List Nat) (chrom : List Int) : Option Nat :=
  if chrom.length = target.length then stringFinderLoop target chrom 0 0 chrom.length else none

/-- integer.cpp:12: the bounds of the genes. -/
def stringFinderBounds : Int × Int := (32, 32 + 95)

/-! ## The travelling salesman -/

/-- travelling_salesman.cpp:22-25: `std::hypot(dx, dy)`. -/
noncomputable def cityDist (cities : List (ℝ × ℝ)) (i j : Nat) : ℝ :=
  let a := cities.getD i (0, 0)
  let b := cities.getD j (0, 0)
  Real.sqrt ((a.1 - b.1) ^ 2 + (a.2 - b.2) ^ 2)

/-- travelling_salesman.cpp:20-26: the loop over the columns. -/
def tspRowLoop (d : Nat → Nat → ℝ) (m : Mat ℝ) (i j : Nat) : (n : Nat) → Option (Mat ℝ)
  | 0 => some m
  | n + 1 => do
    let m ← matSet m i j (d i j)
    tspRowLoop d m i (j + 1) n

/-- travelling_salesman.cpp:18-27: the loop over the rows. -/
def tspFillLoop (d : Nat → Nat → ℝ) (m : Mat ℝ) (i : Nat) : (n : Nat) → Option (Mat ℝ)
  | 0 => some m
  | n + 1 => do
    let m ← tspRowLoop d m i 0 m.ncols
    tspFillLoop d m (i + 1) n

/-- travelling_salesman.cpp:10-28: the distance matrix. -/
noncomputable def tspMatrix (cities : List (ℝ × ℝ)) : Option (Mat ℝ) :=
  let m := matCtor cities.length cities.length (0 : ℝ)
  tspFillLoop (cityDist cities) m 0 (matRows m)

/-- travelling_salesman.cpp:35-38: the loop over the chromosome. -/
noncomputable def tspLoop (m : Mat ℝ) (chrom : List Nat) (i : Nat) (acc : ℝ) : (n : Nat) → Option ℝ
  | 0 => some acc
  | n + 1 => do
    let a ← chrom[i]?
    let b ← chrom[i + 1]?
    let x ← matRowGet m a b
    tspLoop m chrom (i + 1) (acc + x) n

/-- travelling_salesman.cpp:30-43 `TSP::invoke`; `num_vars()` is `cities.size() - 1` (line 11). -/
noncomputable def tspInvoke (cities : List (ℝ × ℝ)) (chrom : List Nat) : Option ℝ :=
  if cities.length - 1 = 0 then none
  else do
    let m ← tspMatrix cities
    let dist ← tspLoop m chrom 0 0 (cities.length - 1 - 1)
    let front ← chrom.head?
    let back ← chrom.getLast?
    let x ← matRowGet m (matRows m - 1) front
    let y ← matRowGet m (matRows m - 1) back
    some (-(dist + x + y))

end Gapp.Model
