import Verif.Model.Double
import Verif.Model.Mutation
import Verif.Model.RealCrossover
/-!
# The real-coded operators in binary64 arithmetic

Source: `/repo/src/encoding/real.cpp`, `/repo/src/crossover/real.cpp`, `/repo/src/mutation/real.cpp`.

The operations are those of `Dbl`, in the order in which the source has them. `std::pow` is a parameter `pow`. A result of `rng::randomReal()` is given by the upper 53
bits of the output of the generator. The flags `fused` say which of the expressions `c + a * b` are evaluated with one rounding. The flags `recip` say whether `a / b` is compiled as
`a * (1 / b)`, what the option `-freciprocal-math` (`/repo/CMakeLists.txt:88`) allows.
-/

namespace Gapp.Model
open Dbl

/-- used in crossover/real.cpp:87-88, mutation/real.cpp:42, 63, soga_selection.cpp:23-38, 157: `a / b`, which may be compiled as `a * (1 / b)`. -/
def divR (recip : Bool) (a b : Dbl) : Dbl := if recip then mul a (div (.fin 1) b) else div a b

/-- real.cpp:11-22 (encoding) `RCGA::generateCandidate`. `draws i` is the random number used for the locus `i`. -/
def generateRealD (fused : Bool) (chromLen : Nat) (bounds : List (GeneBounds Dbl)) (draws : Nat → ℕ) : Option (List Dbl) :=
  if chromLen = bounds.length then
    (List.range chromLen).mapM (fun i => do
      let b ← bounds[i]?
      randomRealD fused b.lower b.upper (draws i))
  else none

/-! ## Crossovers -/

/-- real.cpp:31, 54, 80, 133 of the crossovers: The loop over the genes of the four crossover methods, as `geneLoop`; an assertion may fail for a gene. -/
def geneLoopD (gene : Nat → GeneBounds Dbl → Dbl → Dbl → Option (Dbl × Dbl)) :
    Nat → List (GeneBounds Dbl) → List Dbl → List Dbl → Option (List Dbl × List Dbl)
  | _, [], [], [] => some ([], [])
  | i, b :: bs, x :: xs, y :: ys => do
    let g ← gene i b x y
    let rest ← geneLoopD gene (i + 1) bs xs ys
    return (g.1 :: rest.1, g.2 :: rest.2)
  | _, _, _, _ => none

/-- real.cpp:33-34 of the crossovers: `a * x + b * y`: with no fused operation, or with one of the two products fused with the sum. -/
def mulAddMul (fused : Option Bool) (a x b y : Dbl) : Dbl :=
  match fused with
  | none => add (mul a x) (mul b y)
  | some true => mulAdd true a x (mul b y)
  | some false => mulAdd true b y (mul a x)

/-- real.cpp:20-42 `Arithmetic::crossover`. -/
def arithmeticCrossoverD (fused : Option Bool) (k : ℕ) (bounds : List (GeneBounds Dbl)) (p1 p2 : List Dbl) : Option (List Dbl × List Dbl) :=
  let alpha := unitReal k
  geneLoopD (fun _ b x y =>
    let c1 := mulAddMul fused alpha x (sub (.fin 1) alpha) y
    let c2 := mulAddMul fused (sub (.fin 1) alpha) x alpha y
    some (clamp c1 b.lower b.upper, clamp c2 b.lower b.upper)) 0 bounds p1 p2

/-- real.cpp:44-68 `BLXa::crossover`. -/
def blxCrossoverD (fused : Bool) (alpha : Dbl) (draws : Nat → ℕ × ℕ) (bounds : List (GeneBounds Dbl)) (p1 p2 : List Dbl) :
    Option (List Dbl × List Dbl) :=
  geneLoopD (fun i b x y => do
    let range_min := if y.lt x then y else x
    let range_max := if y.lt x then x else y
    let span := sub range_max range_min
    let lo := mulAdd fused (neg alpha) span range_min
    let hi := mulAdd fused alpha span range_max
    let c1 ← randomRealD fused lo hi (draws i).1
    let c2 ← randomRealD fused lo hi (draws i).2
    return (clamp c1 b.lower b.upper, clamp c2 b.lower b.upper)) 0 bounds p1 p2

/-- real.cpp:95-101 `alphaToBetaPrime`. -/
def betaPrimeD (fused : Bool) (pow : Dbl → Dbl → Dbl) (eta alpha : Dbl) (k : ℕ) : Dbl :=
  let u := unitReal k
  if u.le (div (.fin 1) alpha) then pow (mul u alpha) (neg (add eta (.fin 1)))
  else pow (div (.fin 1) (mulAdd fused (neg u) alpha (.fin 2))) (neg (add eta (.fin 1)))

/-- real.cpp:70-113 `SimulatedBinary::crossover`. `eq` is `math::floatIsEqual`. -/
def sbxCrossoverD (recip fused : Bool) (eq : Dbl → Dbl → Bool) (pow : Dbl → Dbl → Dbl) (eta : Dbl) (draws : Nat → ℕ × ℕ) (bounds : List (GeneBounds Dbl)) (p1 p2 : List Dbl) :
    Option (List Dbl × List Dbl) :=
  geneLoopD (fun i b x y =>
    let gene_low := if y.lt x then y else x
    let gene_high := if y.lt x then x else y
    if eq gene_high gene_low then some (x, y)
    else
      let beta1 := add (.fin 1) (divR recip (mul (.fin 2) (sub gene_low b.lower)) (sub gene_high gene_low))
      let beta2 := add (.fin 1) (divR recip (mul (.fin 2) (sub b.upper gene_high)) (sub gene_high gene_low))
      let alpha1 := sub (.fin 2) (pow beta1 (neg (add eta (.fin 1))))
      let alpha2 := sub (.fin 2) (pow beta2 (neg (add eta (.fin 1))))
      let beta1_prime := betaPrimeD fused pow eta alpha1 (draws i).1
      let beta2_prime := betaPrimeD fused pow eta alpha2 (draws i).2
      let c1 := mul (.fin (1 / 2)) (mulAdd fused (neg beta1_prime) (abs (sub x y)) (add x y))
      let c2 := mul (.fin (1 / 2)) (mulAdd fused beta2_prime (abs (sub x y)) (add x y))
      some (clamp c1 b.lower b.upper, clamp c2 b.lower b.upper)) 0 bounds p1 p2

/-- real.cpp:115-143 `Wright::crossover`. `less` is the value of `paretoCompareLess(parent1.fitness, parent2.fitness)`. -/
def wrightCrossoverD (fused : Bool) (less : Bool) (k1 k2 : ℕ) (bounds : List (GeneBounds Dbl)) (parent1 parent2 : List Dbl) :
    Option (List Dbl × List Dbl) :=
  let p1 := if less then parent2 else parent1
  let p2 := if less then parent1 else parent2
  geneLoopD (fun _ b x y =>
    let c1 := mulAdd fused (unitReal k1) (sub x y) x
    let c2 := mulAdd fused (unitReal k2) (sub x y) x
    some (clamp c1 b.lower b.upper, clamp c2 b.lower b.upper)) 0 bounds p1 p2

/-! ## Mutations -/

/-- real.cpp:21, 36, 59, 78, 105 of the mutations: The common part of the mutation methods, as `realMutate`; an assertion may fail for a gene. -/
def realMutateD {β : Type} (gene : GeneBounds Dbl → β → Dbl → Option Dbl) (bounds : List (GeneBounds Dbl)) (count : Nat) (selectMany : Bool) (draws : List Int)
    (geneDraws : List β) (l : List Dbl) : Option (List Dbl) := do
  let idxs ← sampleIndices l.length count selectMany draws
  if geneDraws.length = idxs.length then
    updateAt (fun idx d old => do
      let b ← bounds[idx]?
      gene b d old) (idxs.zip geneDraws) l
  else none

/-- real.cpp:24-27 `Uniform`. -/
def realUniformGeneD (fused : Bool) (b : GeneBounds Dbl) (k : ℕ) (_ : Dbl) : Option Dbl := randomRealD fused b.lower b.upper k

/-- real.cpp:42 of the mutations: The conversion of an integer to `double`. -/
def ofNatD (n : ℕ) : Dbl := roundD n

/-- real.cpp:38-50 `NonUniform`: the draws are a random number and the random boolean. -/
def realNonUniformGeneD (recip fused : Bool) (pow : Dbl → Dbl → Dbl) (beta : Dbl) (gen maxGen : ℕ) (b : GeneBounds Dbl) (d : ℕ × Bool) (old : Dbl) : Option Dbl :=
  let rand := unitReal d.1
  let exponent := pow (sub (.fin 1) (divR recip (ofNatD gen) (ofNatD maxGen))) beta
  let multiplier := sub (.fin 1) (pow rand exponent)
  let bound := if d.2 then b.lower else b.upper
  let g := mulAdd fused (sub bound old) multiplier old
  some (clamp g b.lower b.upper)

/-- real.cpp:61-69 `Gauss`, rng.hpp:353-359 `randomNormal(0.0, SD)`: the draw is from the standard normal distribution. `none`: the assertion of `randomNormal` fails. -/
def realGaussGeneD (recip fused : Bool) (sigma : Dbl) (b : GeneBounds Dbl) (z : Dbl) (old : Dbl) : Option Dbl :=
  let SD := divR recip (sub b.upper b.lower) sigma
  if le (.fin 0) SD then
    let g := add old (mulAdd fused SD z (.fin 0))
    some (clamp g b.lower b.upper)
  else none

/-- real.cpp:80-96 `Polynomial`. -/
def realPolynomialGeneD (fused : Bool) (pow : Dbl → Dbl → Dbl) (eta : Dbl) (b : GeneBounds Dbl) (k : ℕ) (old : Dbl) : Option Dbl :=
  let alpha := unitReal k
  let g :=
    if alpha.le (.fin (1 / 2)) then
      let delta := sub (pow (mul (.fin 2) alpha) (div (.fin 1) (add (.fin 1) eta))) (.fin 1)
      mulAdd fused delta (sub old b.lower) old
    else
      let delta := sub (.fin 1) (pow (mulAdd fused (.fin (-2)) alpha (.fin 2)) (div (.fin 1) (add (.fin 1) eta)))
      mulAdd fused delta (sub b.upper old) old
  some (clamp g b.lower b.upper)

/-- real.cpp:108-111 `Boundary`. -/
def realBoundaryGeneD (b : GeneBounds Dbl) (d : Bool) (_ : Dbl) : Option Dbl := some (if d then b.lower else b.upper)

end Gapp.Model
