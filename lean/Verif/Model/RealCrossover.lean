import Verif.Model.Mutation
import Verif.Model.Operators
/-!
# The crossover methods of the real encoding

Source: `/repo/src/crossover/real.cpp`.

The genes are elements of an ordered field, rounding is not modelled. A result of `rng::randomReal()` is an argument.
-/

namespace Gapp.Model

/-- The loop over the genes of the four methods (real.cpp:31-39, 56-66, 83-110, 132-139). `gene i b x y` are the genes of the children at the locus `i`, when `x` and `y`
are the genes of the parents and `b` the bounds. The lengths are asserted to be equal (22-23, 46-47, 72-73, 117-118): a mismatch is `none`. -/
def geneLoop {K : Type} (gene : Nat → GeneBounds K → K → K → K × K) : Nat → List (GeneBounds K) → List K → List K → Option (List K × List K)
  | _, [], [], [] => some ([], [])
  | i, b :: bs, x :: xs, y :: ys => do
    let rest ← geneLoop gene (i + 1) bs xs ys
    let g := gene i b x y
    return (g.1 :: rest.1, g.2 :: rest.2)
  | _, _, _, _ => none

section
variable {K : Type} [Field K] [LinearOrder K]

/-- real.cpp:20-42 `Arithmetic::crossover`. -/
def arithmeticCrossover (alpha : K) (bounds : List (GeneBounds K)) (p1 p2 : List K) : Option (List K × List K) :=
  geneLoop (fun _ b x y =>
    let c1 := alpha * x + (1 - alpha) * y
    let c2 := (1 - alpha) * x + alpha * y
    (stdClamp c1 b.lower b.upper, stdClamp c2 b.lower b.upper)) 0 bounds p1 p2

/-- rng.hpp:346-351: `rng::randomReal(lo, hi)` (rng.hpp), with the result `r` of the generator in `[0, 1)`. -/
def realBetween (lo hi r : K) : K := lo + (hi - lo) * r

/-- real.cpp:44-68 `BLXa::crossover`. `draws i` are the two random numbers used for the locus `i`. -/
def blxCrossover (alpha : K) (draws : Nat → K × K) (bounds : List (GeneBounds K)) (p1 p2 : List K) : Option (List K × List K) :=
  geneLoop (fun i b x y =>
    let range_min := if y < x then y else x
    let range_max := if y < x then x else y
    let range_ext := alpha * (range_max - range_min)
    let c1 := realBetween (range_min - range_ext) (range_max + range_ext) (draws i).1
    let c2 := realBetween (range_min - range_ext) (range_max + range_ext) (draws i).2
    (stdClamp c1 b.lower b.upper, stdClamp c2 b.lower b.upper)) 0 bounds p1 p2

/-- real.cpp:95-101 `alphaToBetaPrime`. `pow` stands for `std::pow`; the infinite result for `u = 0` is not modelled. -/
def betaPrime (pow : K → K → K) (eta alpha u : K) : K :=
  if u ≤ 1 / alpha then pow (u * alpha) (-(eta + 1)) else pow (1 / (2 - u * alpha)) (-(eta + 1))

/-- real.cpp:70-113 `SimulatedBinary::crossover`. -/
def sbxCrossover (t : Tol K) (pow : K → K → K) (eta : K) (draws : Nat → K × K) (bounds : List (GeneBounds K)) (p1 p2 : List K) :
    Option (List K × List K) :=
  geneLoop (fun i b x y =>
    let gene_low := if y < x then y else x
    let gene_high := if y < x then x else y
    if floatIsEqual t (.fin gene_high) (.fin gene_low) then (x, y)
    else
      let beta1 := 1 + 2 * (gene_low - b.lower) / (gene_high - gene_low)
      let beta2 := 1 + 2 * (b.upper - gene_high) / (gene_high - gene_low)
      let alpha1 := 2 - pow beta1 (-(eta + 1))
      let alpha2 := 2 - pow beta2 (-(eta + 1))
      let beta1_prime := betaPrime pow eta alpha1 (draws i).1
      let beta2_prime := betaPrime pow eta alpha2 (draws i).2
      let c1 := 1 / 2 * (x + y - beta1_prime * |x - y|)
      let c2 := 1 / 2 * (x + y + beta2_prime * |x - y|)
      (stdClamp c1 b.lower b.upper, stdClamp c2 b.lower b.upper)) 0 bounds p1 p2

/-- real.cpp:115-143 `Wright::crossover`. -/
def wrightCrossover (t : Tol K) (w1 w2 : K) (bounds : List (GeneBounds K)) (parent1 parent2 : Cand K (FVec K)) : Option (List K × List K) :=
  let p1 := if paretoCompareLess t parent1.fitness parent2.fitness then parent2 else parent1
  let p2 := if paretoCompareLess t parent1.fitness parent2.fitness then parent1 else parent2
  geneLoop (fun _ b x y =>
    let c1 := w1 * (x - y) + x
    let c2 := w2 * (x - y) + x
    (stdClamp c1 b.lower b.upper, stdClamp c2 b.lower b.upper)) 0 bounds p1.chrom p2.chrom

end

end Gapp.Model
