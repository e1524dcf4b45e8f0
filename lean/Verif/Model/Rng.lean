import Mathlib.Logic.Function.Iterate
import Mathlib.Algebra.Order.Floor.Ring
import Mathlib.Algebra.Order.Field.Basic
/-!
# The pseudo-random number generators

Source: `/repo/src/utility/rng.hpp:88-351, 375-437`, `/repo/src/utility/distribution.hpp`, `/repo/src/utility/bit.hpp:29-56`.

`std::uint64_t` is `BitVec 64`.
-/

namespace Gapp.Model

/-! ## Splitmix64 -/

/-- rng.hpp:115-119: the output function applied to the new state. -/
def splitmixMix (s : BitVec 64) : BitVec 64 :=
  let z := s
  let z := (z ^^^ (z >>> 30)) * 0xbf58476d1ce4e5b9#64
  let z := (z ^^^ (z >>> 27)) * 0x94d049bb133111eb#64
  z ^^^ (z >>> 31)

/-- rng.hpp:113-120 `Splitmix64::operator()`: the output and the new state. -/
def splitmixNext (state : BitVec 64) : BitVec 64 × BitVec 64 :=
  let state' := state + 0x9e3779b97f4a7c15#64
  (splitmixMix state', state')

/-! ## Xoroshiro128+ -/

/-- rng.hpp:151 `state_type`. -/
abbrev XState := BitVec 64 × BitVec 64

/-- rng.hpp:214-218 `seed_sequence`. -/
def seedSequence (seed : BitVec 64) : XState :=
  let r1 := splitmixNext seed
  let r2 := splitmixNext r1.2
  (r1.1, r2.1)

/-- rng.hpp:168-177 `operator()`: the state change. -/
def xoroStep (s : XState) : XState :=
  let x := s.1 ^^^ s.2
  (s.1.rotateLeft 24 ^^^ x ^^^ (x <<< 16), x.rotateLeft 37)

/-- rng.hpp:168-177 `operator()`: the output. -/
def xoroOut (s : XState) : BitVec 64 := s.1 + s.2

/-- rng.hpp:186-194: the inner loop of `jump`; the first argument is the number of iterations left, `n` the bit number.
The state is `(new_state, state_)`. -/
def jumpLoop (JUMP : BitVec 64) : Nat → Nat → XState × XState → XState × XState
  | 0, _, st => st
  | k + 1, n, (new, s) =>
    let new' := if JUMP.getLsbD n then (new.1 ^^^ s.1, new.2 ^^^ s.2) else new
    jumpLoop JUMP k (n + 1) (new', xoroStep s)

/-- rng.hpp:180-199 `jump`. -/
def xoroJump (s : XState) : XState :=
  let st := jumpLoop 0xd2a98b26625eee7b#64 64 0 ((0#64, 0#64), s)
  let st := jumpLoop 0xdddf9b1090aa7ac1#64 64 0 st
  st.1

/-! ## `uniform_bool_distribution` -/

/-- distribution.hpp:28-40 `operator()`. `gen` are the outputs the generator is going to produce. Returns the boolean, the new bit pool and
the remaining generator outputs. -/
def boolDraw (pool : BitVec 64) (gen : List (BitVec 64)) : Option (Bool × BitVec 64 × List (BitVec 64)) := do
  let (pool, gen) ← if pool = 1#64 then
      match gen with
      | [] => none
      | w :: rest => some (w ||| (1#64 <<< 63), rest)
    else some (pool, gen)
  return (pool.getLsbD 0, pool >>> 1, gen)

/-- distribution.hpp:14: `n` consecutive calls. -/
def boolDraws : Nat → BitVec 64 → List (BitVec 64) → Option (List Bool × BitVec 64 × List (BitVec 64))
  | 0, pool, gen => some ([], pool, gen)
  | n + 1, pool, gen => do
    let (b, pool, gen) ← boolDraw pool gen
    let (bs, pool, gen) ← boolDraws n pool gen
    return (b :: bs, pool, gen)

/-! ## `ConcurrentXoroshiro128p` -/

/-- The distributions of the standard library used by the generators (rng.hpp:290-291). They are opaque: `normalDraw` and `poissonDraw` give the
result of a call as a function of the cached state and of the generator's state: the result, the new cached state, and the
number of outputs taken from the generator. `normalFresh` and `poissonFresh` are the cached states after construction, which the
standard requires to be equivalent to the one after `reset()`. -/
structure StdDists where
  Out : Type
  Normal : Type
  Poisson : Type
  Mean : Type
  decMean : DecidableEq Mean
  normalFresh : Normal
  poissonFresh : Poisson
  defaultMean : Mean
  normalDraw : Normal → XState → Out × Normal × Nat
  poissonDraw : Mean → Poisson → XState → Out × Poisson × Nat
  ofWord : BitVec 64 → Out
  ofBool : Bool → Out

instance (D : StdDists) : DecidableEq D.Mean := D.decMean

/-- rng.hpp:272-292 `RegisteredGenerator`: the generator of one thread and its distributions. `drawn` is a ghost variable: the number of outputs taken
from the generator since it was created or last seeded. -/
structure RegGen (D : StdDists) where
  id : Nat
  state : XState
  pool : BitVec 64
  normal : D.Normal
  mean : D.Mean
  poisson : D.Poisson
  drawn : Nat

/-- The static members: `global_generator_` and the list of registered generators, rng.hpp:294-305. -/
structure RngGlobal (D : StdDists) where
  global : XState
  gens : List (RegGen D)

/-- rng.hpp:257-261: a generator after it got a new state and its distributions were reset; `poisson_distribution::reset()` keeps the mean. -/
def RegGen.reseeded {D : StdDists} (r : RegGen D) (s : XState) : RegGen D :=
  { r with state := s, pool := 1#64, normal := D.normalFresh, poisson := D.poissonFresh, drawn := 0 }

/-- `generator->instance = global_generator_.jump()` and the resets for each registered generator in turn, rng.hpp:255-262. -/
def reseedGens {D : StdDists} : XState → List (RegGen D) → XState × List (RegGen D)
  | g, [] => (g, [])
  | g, r :: rest =>
    let g' := xoroJump g
    let res := reseedGens g' rest
    (res.1, r.reseeded g' :: res.2)

/-- A new `RegisteredGenerator`, rng.hpp:274-291. -/
def newGen (D : StdDists) (id : Nat) (s : XState) : RegGen D := ⟨id, s, 1#64, D.normalFresh, D.defaultMean, D.poissonFresh, 0⟩

/-- rng.hpp:272-303: The ways a thread uses its generator. -/
inductive Use (D : StdDists)
  /-- `rng::prng()`, rng.hpp:239-242. -/
  | word
  /-- `randomBool()`, rng.hpp:325-328. -/
  | bool
  /-- `randomNormal(…)`, rng.hpp:353-359: the standard normal draw; mean and deviation are applied to the result. -/
  | normal
  /-- `randomPoisson(mean)`, rng.hpp:361-372. -/
  | poisson (mean : D.Mean)

/-- rng.hpp:272-303: One use of a generator: the result and the new state. -/
def RegGen.use {D : StdDists} (r : RegGen D) : Use D → D.Out × RegGen D
  | .word => (D.ofWord (xoroOut r.state), { r with state := xoroStep r.state, drawn := r.drawn + 1 })
  | .bool =>
    if r.pool = 1#64 then
      let pool := xoroOut r.state ||| (1#64 <<< 63)
      (D.ofBool (pool.getLsbD 0), { r with state := xoroStep r.state, pool := pool >>> 1, drawn := r.drawn + 1 })
    else
      (D.ofBool (r.pool.getLsbD 0), { r with pool := r.pool >>> 1 })
  | .normal =>
    let x := D.normalDraw r.normal r.state
    (x.1, { r with state := xoroStep^[x.2.2] r.state, normal := x.2.1, drawn := r.drawn + x.2.2 })
  | .poisson m =>
    let r := if r.mean ≠ m then { r with mean := m, poisson := D.poissonFresh } else r
    let x := D.poissonDraw r.mean r.poisson r.state
    (x.1, { r with state := xoroStep^[x.2.2] r.state, poisson := x.2.1, drawn := r.drawn + x.2.2 })

/-- rng.hpp:272-303: The results of consecutive uses of a generator, and its final state. -/
def RegGen.uses {D : StdDists} (r : RegGen D) : List (Use D) → List D.Out × RegGen D
  | [] => ([], r)
  | u :: us =>
    let x := r.use u
    let y := x.2.uses us
    (x.1 :: y.1, y.2)

/-- rng.hpp:245-303: What can happen to the generators. Each of these is atomic: seeding and (de)registration hold the lock; a use only
touches the state of its own thread. -/
inductive RngOp (D : StdDists)
  /-- `prng.seed(s)`, rng.hpp:250-263. -/
  | seed (s : BitVec 64)
  /-- The first use of the generator by the thread `id`, rng.hpp:274-279. -/
  | register (id : Nat)
  /-- The end of the thread `id`, rng.hpp:281-285. -/
  | unregister (id : Nat)
  /-- The thread `id` uses its generator. -/
  | use (id : Nat) (u : Use D)

/-- rng.hpp:272-303: Replace the state of the generators of the thread `id` after a use. -/
def useAt {D : StdDists} (id : Nat) (u : Use D) (gens : List (RegGen D)) : List (RegGen D) :=
  gens.map (fun r => if r.id = id then (r.use u).2 else r)

/-- rng.hpp:245-303: The effect of one operation and the result returned by it, if any. -/
def rngStep {D : StdDists} (g : RngGlobal D) : RngOp D → RngGlobal D × Option (Nat × D.Out)
  | .seed s =>
    let r := reseedGens (seedSequence s) g.gens
    (⟨r.1, r.2⟩, none)
  | .register id =>
    let s := xoroJump g.global
    (⟨s, g.gens ++ [newGen D id s]⟩, none)
  | .unregister id => (⟨g.global, g.gens.filter (fun r => r.id != id)⟩, none)
  | .use id u => (⟨g.global, useAt id u g.gens⟩, (g.gens.find? (fun r => r.id == id)).map (fun r => (id, (r.use u).1)))

/-- rng.hpp:245-303: A history of operations; the results are logged together with the thread that got them. -/
def rngRun {D : StdDists} (g : RngGlobal D) : List (RngOp D) → RngGlobal D × List (Nat × D.Out)
  | [] => (g, [])
  | op :: ops =>
    let x := rngStep g op
    let y := rngRun x.1 ops
    (y.1, x.2.toList ++ y.2)

/-- The initial state: the global generator is constructed with the constant `GAPP_SEED` (rng.hpp:303). -/
def rngInit (D : StdDists) (seed : BitVec 64) : RngGlobal D := ⟨seedSequence seed, []⟩

/-! ## Real numbers -/

/-- bit.hpp:31-35 `exponent_bits<T>`, for a type of `bits` bits with `digits` digits of precision. -/
def exponentBits (bits digits : Nat) : Nat := bits - (digits - 1) - 1

/-- rng.hpp:340-344 `randomReal<T>()`: `(prng() >> exponent_bits<T>) * (epsilon<T> / 2)`. `epsilon / 2` is `2^-digits`, so the value is a fraction with the
denominator `2^digits`; this is the numerator. `none`: the shift is not less than the width of the generator's output, which is undefined behaviour.
For `double` both factors and the product are exactly representable since the numerator is below `2^53`. -/
def randomReal (bits digits : Nat) (x : BitVec 64) : Option Nat :=
  if exponentBits bits digits < 64 then some (x >>> exponentBits bits digits).toNat else none

/-- rng.hpp:346-351 `randomReal(lbound, ubound)`, in exact arithmetic; `x` is the generator's output. -/
def randomRealIn {K : Type} [Field K] (lbound ubound : K) (x : BitVec 64) : Option K :=
  (randomReal 64 53 x).map (fun n => lbound + (ubound - lbound) * ((n : K) / 2 ^ 53))

/-! ## Binomially distributed numbers -/

variable {K : Type} [Field K] [LinearOrder K] [FloorRing K]

/-- rng.hpp:392: `std::round`: halfway cases away from zero. -/
def stdRound (x : K) : Int := if 0 ≤ x then ⌊x + 1 / 2⌋ else -⌊-x + 1 / 2⌋

/-- rng.hpp:375-395 `randomBinomialApproxNormal`; `z` are the draws from the standard normal distribution and `stdDev` the value
of the square root. `none`: the loop is still going on after the given draws. -/
def binomialApproxNormal (n : Nat) (p stdDev : K) (z : List K) : Option Int :=
  (z.map (fun z => stdDev * z + n * p)).find? (fun x : K => decide (-(1 / 2) < x ∧ x < (n : K) + 1 / 2)) |>.map stdRound

/-- rng.hpp:397-412 `randomBinomialApproxPoisson`; `draws` are the draws from the Poisson distribution. -/
def binomialApproxPoisson (n : Nat) (p : K) (draws : List Nat) : Option Int :=
  if p = 0 then some 0 else if p = 1 then some n else (draws.find? (fun x => decide (¬ x > n))).map Int.ofNat

/-- rng.hpp:414-423 `randomBinomialExact`; `draws` are the results of `randomReal()`. -/
def binomialExact : Nat → K → List K → Option Int
  | 0, _, _ => some 0
  | _ + 1, _, [] => none
  | n + 1, p, r :: draws => (binomialExact n p draws).map (· + (if r ≤ p then 1 else 0))

/-- rng.hpp:425-437 `randomBinomial`. -/
def randomBinomial (n : Nat) (p stdDev : K) (z : List K) (poisson : List Nat) (reals : List K) : Option Int :=
  let usePoisson := decide ((n > 50 ∧ p * n < 10) ∨ ((5 < n ∧ n ≤ 50) ∧ p < 1 / 5))
  if usePoisson then binomialApproxPoisson n p poisson
  else if n > 5 then binomialApproxNormal n p stdDev z
  else binomialExact n p reals

end Gapp.Model
