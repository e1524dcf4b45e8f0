# Design of the formal model of KRM7/gapp

This file is written before the proofs and updated as the model grows.
The property list is `properties.jsonl`; `MANIFEST.json` maps each property to theorems.

## Layout

* `lean/Verif/Model/*.lean`  – the model. Every definition cites the file and lines of `/repo` it models
  and says where it simplifies.
* `lean/Verif/Spec/*.lean`   – small specifications, written without reference to the model
  (plain lists, sets, relations). A reader needs only these and `Props` to understand a theorem.
* `lean/Verif/Proofs/*.lean` – helper lemmas, invariants.
* `lean/Verif/Props/*.lean`  – the property theorems `Cxx_…` and the non-vacuity `example`s beside them.
  Violated properties have a theorem `Cxx_…_violated` (or `…_false`) with a concrete witness, and a theorem
  `Cxx_…_partial` for the part that does hold.

## Modelling conventions

* C++ loops become folds or structural recursion; mutation through references becomes a returned value.
* `std::vector`, `small_vector`, `span` are `List`/`Array`; indices are `Nat`. Machine integers are unbounded `Nat`/`Int`
  unless the property is about wrap-around or bits (bitset blocks, PRNG, latch/lock counters), where `BitVec 64`/`UInt64` is used.
* Undefined behaviour, failed assertions and out-of-range accesses are a distinct outcome (`none`), never a default value.
* Doubles are elements of an ordered field (`ℚ`, or `ℝ` where measure theory is needed). Rounding, NaN and infinities are
  not modelled unless a definition says so; `Model/Double` models binary64 for C61, C36 and C29. Tolerances are explicit parameters.
* Random numbers are an explicit list/stream of draws or a universally quantified value with its range contract.
* Parallelism: a state machine with one atomic step per shared access, all interleavings, sequential consistency.
  Weak memory effects are not modelled.
* User supplied callables (fitness function, operators, stop conditions) are arbitrary functions.

## Trusted base

* The Lean 4.33.0 kernel; axioms `propext`, `Classical.choice`, `Quot.sound` only.
* Mathlib definitions used in specifications (e.g. `List.Perm`, `MeasureTheory.volume`).
* The faithfulness of the model to the cited source lines (read by hand; the code is not executed here).

## Plan per property

| id | what is modelled | how it is proved |
|----|------------------|------------------|
| C01 | `circular_buffer` as (array, first, size) with modular positions | refinement to a bounded `List` deque, induction over operations |
| C02 | `set_capacity` | same abstraction map |
| C03 | `fifo_cache` as map + circular buffer of keys | refinement to an association list ordered by first insertion |
| C04 | blocks `List (BitVec 64)` + size | each query equals the query on the abstract `List Bool` |
| C05 | `resize` | violated: witness by evaluation; `_partial` for the sizes where it holds |
| C06 | comparison functions over an ordered field | algebra (`linarith`/case analysis) |
| C07 | `paretoCompare*` loops | equivalence with the pointwise definition; non-transitivity witness |
| C08 | the four front algorithms | loop invariants; result set = specification set |
| C09 | merge as interleaving of row tasks on shared flags | invariant over all schedules |
| C10 | the three sorting procedures | invariants; ranks = iterated-removal ranks |
| C11 | front bookkeeping functions | list induction |
| C12 | point-wise crossovers | list induction; n-point crossover is compared with repeated single-point crossovers (`Props/CrossoverRepeat.lean`) |
| C13–C17 | permutation crossovers, generic and integer overloads | loop invariants, permutation reasoning, termination |
| C18, C21 | operator wrappers with arbitrary user function | case analysis |
| C19, C20 | mutations with explicit draws | list/permutation lemmas; violation witness for Shift |
| C22–C25, C55 | GA loop state machine | invariant by induction over generations; the `_any_genes` theorems repeat C24, C25, C55 and C83 for every comparison of the genes, where the fitness of a candidate is that of a chromosome linked to its own by comparisons (C22) |
| C26–C28 | stop condition trees with state | induction on trees/histories; witnesses for the violations |
| C29 | cdf construction and sampling, tournament | induction, order reasoning |
| C30 | replacement index lists | partial sort specification as oracle; induction over generations |
| C31, C32 | NSGA-II/III replacement | list/permutation invariants; witnesses for misalignment |
| C33, C34 | WFG recursion over reals | measure theory (inclusion of boxes); counterexample for ≥ 3 objectives |
| C35, C36 | sampling with explicit draws, bit arithmetic | invariant (Floyd); witnesses |
| C37 | bit-vector state, GF(2)-linear algebra | kernel-computed matrix powers lifted by linearity |
| C38 | registration/seed state machine | invariant over histories |
| C39–C41 | thread pool as interleaving state machine | invariants; start-time ordering for deadlock freedom; witness schedule for the exception defect |
| C42–C44 | queue, locks, RCU state machines | inductive invariants |
| C45 | `small_vector` storage model with slot states | refinement to `List`; witnesses for `insert`/`pop_back` |
| C46 | row-major matrix | arithmetic on indices |
| C47 | cone tree | Cauchy–Schwarz bound; induction over the tree |
| C48 | algorithm helpers | list induction |
| C49 | qrng and simplex maps | real arithmetic |
| C50 | scope guards | induction over nested programs |
| C51 | generatePopulation, generateCandidate | list lemmas |
| C52 | population statistics | big-sum algebra |
| C53 | bool distribution | bit-vector induction |
| C54 | binary decoding, StringFinder, TSP | arithmetic on bit lists; list induction |
| C60 | the benchmark functions over the reals | bounds on each term; sums of squares for DTLZ |
| C61 | binary64 rounding, the real-coded operators over it | error-free bounds by monotonicity of rounding; witnesses for overflow |
| C62 | the iterators with `size_t` and `ptrdiff_t` arithmetic | refinement to positions of a list; witnesses for negative differences |
| C63 | the bounded value types over binary64 and `size_t` | case analysis; witness for NaN |
| C64 | the loop of C24 with operators that may return whatever the models of the library's operators return for some draws | induction over the generations for an arbitrary domain, then C12–C20, C51 and C61 for the operators |
| C65 | the loop of C24 with two schedules | the evaluation and the merge have one possible result each (C25, C09), then induction over the generations |
| C66 | the loop of C24, started in a state left by any history; the initializations of the stop conditions and of NSGA-III | resetting a cache gives exactly a new cache; all other members are overwritten before they are read |
| C67 | the documented ideal and nadir points of the benchmark functions | bounds of each objective for all variables; the corner points of the fronts; for the wrong points: compactness of the box gives a Pareto-optimal point beyond them |
| C68 | `operator==` and the hasher of candidates; the hash of a gene is arbitrary | case analysis; for real genes a chain of steps of the size of the tolerance shows that no hash function fits |
| C69 | the list of metrics with their types, `track`, `get`, `initialize`, `update` | induction over histories |
| C70 | the loop of C24, with the sequence of calls of the fitness function | induction over the generations with the pools of C22; C23 and C30; runs with NSGA-II and Elitism as witnesses |
| C71 | the loop of C24 with a fitness function that is a different one in every generation | induction over the generations, with what one generation does for any algorithm; a run with `KeepBest` as a witness |
| C72 | the master and the workers of the pool as a transition system: submissions, `execution_threads(n)`, the destructor; starting a thread may fail | invariants over all schedules, a weight that every step makes smaller for the fair schedules; states without a way on as witnesses |
| C73 | the functions of `math.cpp` over the reals | calculation; orthogonal projection; induction over the loop for the integral |
| C74 | the comparisons, the Pareto front, the non-dominated sort, the merge and whole runs with any tolerances | invariants over the loops for a relation that is not transitive: chains of candidates; one objective: order of the values; NSGA-II as an instance; witnesses with the default tolerances |
| C75 | the seven travelling salesman problems with their coordinates and documented values | lower bound of all tours (Held and Karp): prices per city and a tree of clusters, soundness by induction over the tree, the data checked by the kernel; a tour for the upper bound |
| C76 | `sampleUnique` with both of its methods and the mutations `Flip`, `Swap2` and `Shift` as functions of the random integers | counting: the number of the sequences of draws with a given result, by induction over the draws (Floyd's algorithm), times the number of the results is the number of all sequences |
| C77 | the selection methods as functions of their random numbers (the models of C29, C31 and C32) | counting: injections between the sequences of random indices that select two candidates (exchange of the two), disjoint unions; Lebesgue measure of the intervals of C29 |
| C78 | the thread pool and the per-thread generators together (`Model/SeededRun.lean`): `solve` as a program that draws numbers and runs parallel loops, executed under any schedule; generators are registered at the first draw | simulation: the rest of every state of a run is evaluated sequentially, and no step changes its value; the evaluation depends on the order of the registrations only; a measure-free argument that every state can be run to its end |
| C79 | the selection operators with their parameters (`Model/SelectionParams.lean`), probabilities as Lebesgue measures of the random numbers, or counts of the draws of tournaments | closed forms of the probabilities (C77), then monotonicity in the parameters over the real numbers with `Real.exp` and `Real.sqrt`; the scaling parameter of sigma scaling and the documented formula of Boltzmann selection are refuted |
| C80 | `randomBinomial` (C36), `sampleUnique` (C76) and the comparisons with the rates (`Model/Rates.lean`); draws are independent: an output of the generator, or a draw from a uniform, Poisson or standard normal distribution of Mathlib (`Spec/Draws.lean`) | counting of the outputs of the generator below a rate; the law of the number of the mutated genes under rejection sampling as an iterated integral (`Proofs/Draws.lean`), then the expected share of the genes: binomial sums, tails of the Poisson series, symmetry and second moments of the normal distribution |
| C81 | the new values of mutated genes with `Real.rpow` (`Model/MutationParams.lean`, `Model/Mutation.lean`); a draw is a number of `[0, 1)` with the Lebesgue measure, a standard normal one, or a uniform integer | coupling: with the same random numbers, every gene of every chromosome is changed less for the parameters that should change it less; closed forms of the distribution functions; rejection sampling for integers |
| C82 | BLX-α and the simulated binary crossover (`Model/RealCrossover.lean`) with `Real.rpow`; the random number of one gene varies, the others are arbitrary | coupling for alpha; for eta the closed form of the probability that a child is farther than a distance, and its monotonicity: derivative of its logarithm, an intermediate value where the case changes, and numeric bounds of exp and log (`Proofs/SbxShape.lean`) |
| C83 | a run with a callback (`Model/Callback.lean`): the loop of `Model/GaLoop.lean` with the state of an arbitrary callback, called where the code calls it | the generation with the callback is the one without it, followed by the call with the old counter; induction over the loop; partial: the number of the generation is wrong |
| C84 | one mutation of each operator as a step (`Spec/Reach.lean`: the model of the operator with some draws); reachability is the reflexive transitive closure | exchanges of neighbours generate all rearrangements; single genes can be set one after the other; the sign of the permutation is an invariant of Swap3; partial: Swap3 reaches only the even rearrangements, Boundary only the bounds |
| C85 | a run (`Model/GaLoop.lean`) in which the mutations use independent draws from a distribution, and everything else random is an arbitrary function of the state (`Spec/Convergence.lean`) | the draws of a generation are independent of the children before their mutation, so each generation misses the target with probability at most `(1 - ε)^k`, where `k` children survive (`Proofs/Convergence.lean`); induction on the generations; `ε > 0` for `Flip` from C76 and C80, for the integer `Uniform` by adding the values drawn for the genes (`Spec/ConvergenceInt.lean`), for the real `Uniform` on the grid of the values of `randomReal` (`Spec/ConvergenceReal.lean`, exact arithmetic), and for `Shuffle` of the whole chromosome (`Spec/ConvergencePerm.lean`); a local optimum that no single mutation leaves is an invariant of `KeepBest` |
| C86 | tournament and rank selection, NSGA-II and NSGA-III with fitness values of the type `double` (`Model/DoubleMulti`, `Model/DoubleSelect`) | numbers and infinities are ordered by a key in `ℚ` with two ends, which carries the theorems about the selections over; NSGA-II as for C31, with the invariant that a distance is infinite or a number that is not negative; NSGA-III by the invariants of C32 that do not depend on the values; the points and the lines of NSGA-III by bounds of the rounding errors of a difference, a quotient (also as a product with a reciprocal) and an inner product (`Proofs/DoubleNsga3`), for numbers up to 2^400, and its distances from the lines by those of the coefficient, the squares and their sum (`Proofs/DoubleNsga3Dist`), for up to 2^20 objectives. Whole runs by induction over the generations (`Spec/DoubleNsga3Run`): the ideal point is carried over exactly, the other points are candidates of the run. Concrete pools with infinite and large values violate the rest |
| C87 | the statistics of pop_stats.cpp with the operations of `double` (`Model/DoubleStats`) | a loop that adds terms with small relative errors keeps the error of the sum below a multiple of the sum of the magnitudes, by induction; a difference of two numbers has a relative error only; the sum of squares around the computed mean exceeds the one around the exact mean by the square of the error of the mean; infinities by cases |
| C88 | `move_only_function` and `function_ref`: variables, the free store, the pointers, virtual calls and the erased types (`Model/Functional`) | refinement: variables that hold a value or nothing (`Spec/Functional`); the relation says that the live objects and the pointers of live variables are in bijection, and that a reference stores the type of the object it refers to; induction over the program |
| C89 | the hypervolume of C33 with arbitrary tolerances | induction over the nesting: every point that is left out is within the tolerance of one that is kept, so a level loses at most its number of points times a slab; the sorted rows are unique; witnesses that the value is too small, too large and not monotone |
| C90 | `circular_buffer` variables with pointers to the blocks of a free store, calls that fail at any allocation or element | relation to ideal deques, kept by every call: each variable has its own block and each block that is not freed has a variable; induction over programs; witnesses for the three defects |
| C91 | `small_vector` variables with an inline buffer and pointers to the blocks of a free store, calls that fail at any allocation or copy of an element | each call only touches the blocks of its one or two variables and new blocks, and has the effect that the ideal vectors have (also when it throws); induction over programs; witness for the constructor from an input range |
| C92 | `fifo_cache` variables whose maps consist of numbered nodes and whose queues hold the numbers, calls that fail at any allocation, insertion or assignment | relation to ideal FIFO maps (C03) kept by every call, with nodes that belong to one variable; induction over programs; witnesses for `reset` and for maps without buckets |
| C93 | the quasi-random generator, the four mappings from the cube to the simplex, the sparse subset and the normalization of the reference lines in binary64 (rounding, signed zeros, infinities, conversions to `size_t`); `phi`, `sqrt`, `pow`, `log`, the sorting function, `std::reduce` and `std::transform_reduce` (any order of the operations) are arguments with contracts | the state of the generator stays in [0, 1) by induction; the mirror loop ends by a descent on the doubles, with an invariant for the sums of neighbours; error bounds per rounding added up; witnesses for large seeds and for coordinates below 0 |
| C94 | whole runs of `Model/GaLoop` with the FIFO cache of `Model/FifoCache`; the product of the number of generations and the population size is not reduced modulo 2^64 | an entry of the FIFO map has at most as many newer entries as there were insertions since (`Young`), by induction over the generations of the run; two concrete runs violate the rest |
| C95 | comparisons of rows with rows (with the shortcut for identical rows) and vectors, swap with a sequence (`Model/MatrixRows.lean`) | induction over the columns |
| C96 | the crossover methods of C12-C17, C57 and C61 with equal parents | the specifications of the children have the parent as their only solution; for edge crossover by induction over the child |
| C97 | the runs of C22-C25 | the bound of one generation from the evaluation of a list of candidates (C25), then induction over the generations |
| C57 | real-coded crossovers | clamping; interval arithmetic |
| C58 | `randomBinomial*` with explicit draws | case analysis; witness for p = 0 |
| C59 | constructors, setters and `solve` as a state machine over the two flags | induction over histories, against the user's last choice |
| C56 | `findNadirPoint` | composition with C08, fold of minima |

## Findings (properties the code violates)

Each has a theorem with a concrete witness; the part that holds is a `_partial` theorem.

* C04: `popcount`, `any_set`, `all_set` and `==` on an empty bitset read a block that does not exist.
* C05: growing a bitset from a partially filled block into new blocks leaves the rest of the old block unset.
* C07: `paretoCompareLess` uses only the magnitude of the right value as the scale of the relative tolerance. For negative
  values it disagrees with `paretoCompare`, and two vectors can each be "less" than the other.
* C07: dominance with tolerances is not transitive.
* C16: the edge crossover does not take a neighbour whenever an unused one exists (`C16_neighbour_may_be_skipped`).
* C18, C21: for real genes the operators compare chromosomes with tolerances; a slightly changed candidate keeps the fitness of
  the old chromosome (C18 mentions this, C21 does not).
* C19: `mutation::integer::Uniform` never returns if a gene has only one allowed value.
* C20: `mutation::perm::Shift` with `range_max = 1` can draw the whole chromosome as the range, and then asks `sampleUnique` for two
  values of a range of one.
* C22: the tolerances of the comparisons of real genes add up over the generations: a returned solution may have the fitness of a chromosome that is far from its own, if each of the mutations in between was small enough to compare equal (`C22_real_genes_drift`). The distance has no bound (`C22_real_genes_drift_unbounded`).
* C22: real genes are compared with tolerances, so a mutated candidate may keep its parent's fitness; candidates the user marks as evaluated
  are never evaluated; a dynamic fitness function with `cache_size() > 0` fails an assertion, although the documentation says the cache is then not used.
* C23: with `keep_all_optimal_solutions` and no generation after the initial one, equal solutions are returned several times.
* C25: the call of the fitness function that finds the number of objectives is not counted.
* C27: a stall condition with the largest `size_t` as the patience stops in every generation, the first one too: `patience_ + 1` wraps around to 0 (`C27_patience_max_violated`).
* C28: `FitnessValue` with several objectives stops on any fitness vector the threshold does not dominate, also on incomparable ones.
* C29: rank selection with a single candidate divides 0 by 0 (`C29_rank_single`, `C29_double_rank_single`).
* C29: if no weight is 0 or at least `2^-1022`, the distribution function of `weightsToCdf` overflows: it is infinite for the single weight `2^-1074`, and it is NaN for the
  weights 0 and `2^-1074`, so the assertion of `sampleCdf` fails (`C29_double_tiny_weights`, and `C29_double_tiny_fitness` with roulette selection).
* C30: with tolerances the best fitness of the population may decrease, by less than the tolerance, in each generation.
* C31: the crowding distances NSGA-II stores after a replacement are indexed by the position in parents+children, but are read by
  the position in the new population (`C31_selection_misaligned`); ranks are stored correctly.
* C35: for ranges of 65536 values or more `sampleUnique` does not remember the numbers it substitutes for repeated draws, and can
  return duplicates.
* C36: `randomReal<float>()` returns values up to `2^32`; `randomReal<long double>()` shifts by 64 bits on x86 (undefined).
* C59: `GA(size, nullptr)` and `GA(size, crossover, mutation, stop)` (operators by value) always use the single-objective algorithm, although they are
  documented to deduce it. The default mutation rate is deduced in the first run only, later runs with other chromosome lengths keep it.
* C41: an exception thrown in the block that the caller of `parallel_for` runs itself leaves `execute_loop` at once; tasks of the loop that are still in
  the queues run later and use the destroyed latch, closure and exception slot.
* C44: `rcu_domain` keeps one epoch per thread. If the read sections of one thread overlap (for example for two objects), leaving one of them ends the
  protection of the other, and the object can be freed while it is read. Also, nothing orders the store of the epoch in `read_lock` before the load of
  the pointer: with store buffers (x86 and weaker) a writer can miss the reader, and frees the object the reader holds.
* C58: `randomBinomial(n, 0)` with `n <= 5` is not always 0, because `randomReal() <= 0` holds for the draw 0.
* C45: `pop_back` destroys the slot after the last element, not the last element. `insert(pos, count, value)` and `insert(pos, first, last)` into spare
  capacity put the values at `max(size - count, pos)`, so they are in the wrong place whenever more than `count` elements follow `pos`.
  `resize(count, v[i])` reads freed memory if it reallocates, `insert(pos, count, v[i])` inserts moved-from values. Construction and assignment from
  a contiguous range of a smaller, trivially convertible type (`int` to `double`) copy bytes past the end of the range.
* C46: `Matrix(r, 0)` has no rows, `resize` to another number of columns moves elements to other rows, `pop_back` of an empty matrix terminates.
* C95: a row of a matrix of `double`s that contains a NaN is equal to itself (the identity of the rows is tested first), but not to a vector with its elements or the same row of a copy.
* C96: the comment in crossover_base.impl.hpp:28-33 is right for all methods except for the arithmetic crossover, whose children of equal parents may differ from them by rounding errors (and are zeros for the smallest positive number and weights of 1/2).
* C97: the bound `population_size * generations` of docs/fitness-functions.md holds for `num_fitness_evals()`, but the fitness function may be called once more, to find the number of objectives (`C97_calls_violated`).
  `append_row` of a row of the same matrix is undefined (`std::vector::insert` of its own range; not modelled).

* C60: the documented optimum of `DTLZ4` (all variables 0.5) has as its last objective `-sin(0.5^100·π/2)`, not the documented 0; the
  documented value belongs to another chromosome. The Rosenbrock function with one variable is constant. Schwefel's optimum and the constant in its
  formula are rounded decimals: the fitness of the documented optimum is about 6.6e-12 per variable, and there are chromosomes with 2.7e-10 per variable (`C60_schwefel_violated`).
* C54: with 0 bits per variable the decoding divides 0 by 0; the theorems need at least one bit.
- **C32 (NSGA-III).** `findClosestAssociated` searches the whole split front, including the members that earlier rounds have chosen. When the closest member of the line that is drawn is
  already chosen, it is found again, and the member at the position of the round takes a place in the population, whatever line it belongs to. The niche count of the line is incremented
  nevertheless. `C32_niching_violated` is a pool, reached from the initialization, where a member of a line with four members is kept and a member of a line with two is rejected.
- **C32 (NSGA-III).** With a population as large as the pool, `partialFront` returns default constructed iterators, and `nextPopulationImpl` compares them with iterators of the fronts:
  undefined behaviour. The library always passes at least `population_size()` children, so the pool is larger.
- **C47** (cone tree): `buildTree` keeps a reference to an element of `nodes_` while it appends two more. The constructor reserves `n/2` nodes for `n` points, but a tree whose
  partitions are unbalanced needs up to `2(n-8)+1`. For 11 or more equal points the vector is always reallocated and the reference is used afterwards (`C47_build_violated`). The tree is
  always right when the capacity is sufficient (`C47_build_partial`, `C47_find_partial`).
- **C34** `AutoHypervolume` corrects the stored values by the growth of the box between the ideal point of the generation and the reference point. This is the growth of the dominated
  volume only with one or two objectives (or if the reference point does not change). With three objectives the stored value can be too large: after the generations
  `{(1,2,1), (1,1,2)}` and `{(0,1,1)}` the value of the first one is 1, and its hypervolume with respect to the reference point `(0,1,1)` is 0 (`C34_violated`). It is never too small
  (`C34_auto_hypervolume_partial`).
- **C61, C36 (binary64).** `randomReal(l, u)` computes `(u - l) * x + l`. If `u - l` overflows the result is an infinity or a NaN, so random candidates, `real::Uniform` and Wright's
  crossover produce genes that are not numbers within the bounds (`C36_double_overflow`, `C61_generate_overflow`, `C61_uniform_overflow`, `C61_wright_nan`). `randomReal(l, u)` is documented
  to be half-open, but rounding can make it return `u` (`C36_double_upper_bound`).
- **C61 (reciprocals).** The library is compiled with `-freciprocal-math` (CMakeLists.txt:88). The two divisions of the simulated binary crossover have the same divisor `gene_high - gene_low` (crossover/real.cpp:87-88). If they are compiled as products with its reciprocal and the tolerances are zero, parents that differ by less than about `2^-1024`, one of them on a bound, give `0 * inf` and a NaN gene (`C61_sbx_reciprocal_nan`). With tolerances from `2^-1022` on, and without the rewriting, this cannot happen (`C61_sbx_partial`).

- **C62 (iterators).** The difference `a - b` of two iterators of a circular buffer, of the rows of a matrix or of `stable_iterator`s is the absolute value of the distance: it is positive
  also if `a` is in front of `b`, so `b + (a - b)` is not `a` (`C62_negative_difference`). Also, `it += n` is meant to assert that the new position exists, but for an `n` above the size of the
  container the size minus `n` wraps around, and the assertion does not fail (`C62_move_past_end`).
- **C63 (bounded values).** `Probability`, `Positive`, `NonNegative`, `Negative` and `Normalized` accept a NaN: the test whether the interval contains it only looks for reasons to reject a value,
  and all comparisons with a NaN are false (`C63_nan`). A negative `int` is accepted where a `Positive<size_t>` is expected, after the conversion to `size_t` (`C63_negative_int`).
- **C65 (schedules).** With `keep_all_optimal_solutions` and a positive tolerance, the solutions that `solve` returns depend on the schedule of the parallel loop in `mergeParetoSets`: it skips
  a comparison if one of the candidates is already known to be dominated, and dominance with a tolerance is not transitive. With an absolute tolerance of 10, fitness vectors `(0,0)` and `(0,5)`
  in the first generation, and `(-20,9)` and `(20,-9)` in the second one, the run returns three solutions on one schedule and two on another one (`C65_violated`).

- **C67 (ideal and nadir points).** Several of the documented points are rounded or wrong. ZDT3: a Pareto-optimal point is worse than the nadir point in the first objective (-0.85), the second value of the
  ideal point (0.8) is not attained. ZDT6: a Pareto-optimal point is worse than the nadir point in the second objective (-0.92), the first value of the ideal point is not attained. DTLZ5 and DTLZ6: the nadir point is wrong for four
  or more objectives. DTLZ7: both points are bounds, but some of their values are rounded and not attained. Kursawe: with six or more variables the second objective can be better than the ideal point, and the first objective
  of a Pareto-optimal point can be worse than the nadir point.

- **C75 (travelling salesman).** The documented optimal values are those of TSPLIB, which rounds the distances to integers, but the fitness function does not round. No tour of `TSP52` reaches the documented
  -7542: the best fitness is between -7544.365927 and -7544.365883. A tour of `TSP439` is better than the documented optimum of -107217: its fitness is above -107215.403 (`C75_tsp52_violated`,
  `C75_tsp439_violated`).
- **C76 (order of the sampled numbers).** `sampleUnique` returns each set of numbers with the same probability, but not in a random order: its first number is never the largest of the range, and with the
  select-many method the numbers are sorted. `Shift` takes the first number as the source and the second one as the destination of the move, so the last gene of a chromosome is never moved by more than one place, while
  the first gene can be moved to every place (`C76_shift_violated`).
- **C78 (same seed, different results).** The documentation says that runs give the same results as long as the generator is seeded with the same value before each of them, regardless of the number of threads. This holds for runs in the same process (`C78_same_process_partial`), but not between processes: a worker gets its generator at its first draw, so the order of the generators depends on the schedule of the first run; with four threads the same program gives different results (`C78_processes_violated`). Within a process it fails if another thread that drew random numbers ends between the runs (`C78_thread_exit_violated`). It always holds if all threads had generators before (`C78_all_registered_partial`), or with one or two threads (`C78_few_threads_partial`).
- **C79 (parameters without the documented effect).** `Sigma` stores its scaling parameter, but never uses it (soga_selection.cpp:115-130): the probabilities are the same for all values of it (`C79_sigma_scale_violated`), and candidates that are one standard deviation or more below the mean are never selected, though a comment says this happens `scale` standard deviations below it (3 by default). Boltzmann selection divides the fitness values by their range before the temperature is applied: the probabilities are proportional to exp(f / (D T)), not to exp(f / T) as documented (`C79_boltzmann_formula_violated`), so they do not depend on the unit of the fitness function (`C79_boltzmann_units`).
- **C80 (mutation rates).** The documentation defines the mutation rate as the probability of changing a gene. For more than 5 genes `randomBinomial` (rng.hpp:375-437) draws the number of the mutated genes from an approximation that is truncated to the possible numbers, and this changes the mean: with the Poisson distribution every gene is mutated with a probability strictly below the rate (`C80_poisson_rate_partial`), with the normal distribution above it for rates below 1/2 and below it for rates above 1/2 (`C80_normal_rate_biased`, `C80_normal_rate_violated`: 10 genes, rate 0.2). The mutations of permutations, and `randomBinomialExact`, compare with `<=` instead of `<`, so that a rate of 0 does not switch them off: `C80_permutation_zero_violated`. The swap probability of `crossover::binary::Uniform` and `crossover::integer::Uniform` uses the same function.
- **C81 (non-uniform mutation).** The documentation says that with beta = 0 the distribution of the new values is uniform, and close to it in the early generations. But a fair coin decides first whether the gene is decreased or increased (real.cpp:45-47), so a gene with the value 1/4 between 0 and 1 is decreased with probability 1/2 instead of 1/4 (`C81_nonuniform_zero_violated`); the distribution is uniform on each side only (`C81_nonuniform_zero_partial`).
- **C82 (simulated binary crossover).** The operator does what is documented for eta (`C82_sbx_eta`), but its exponents differ from the published operator: `-(eta + 1)` in place of `1 / (eta + 1)`. As a consequence many children are outside the bounds before clamping. `C82_sbx_at_bounds` is the probability that a gene is equal to a bound: above 0.4 with the default eta for the genes 1 and 2 within the bounds 0 and 3.
- **C83 (generation callback).** `generation_cntr()` is documented as the number of the current generation, 0 being the initial one, but it is incremented after the callback is called (ga_base.impl.hpp:536-537). The callback therefore sees the numbers 0, 0, 1, 2, …, and the example of docs/introduction.md prints the values of generation 0 twice and never those of the last generation (`C83_generation_number_violated`, `C83_metrics_seen`). Metrics written by the user that read the counter are affected in the same way.
- **C84 (what mutation can reach).** `mutation::perm::Swap3` rotates three genes, which is an even permutation: repeated Swap3 mutations reach exactly the even rearrangements, i.e. half of the permutations (`C84_swap3_partial`, `C84_swap3_violated`); without crossover, a GA with this operator cannot find an optimum of the other parity. `mutation::real::Boundary` only produces bounds (`C84_boundary_violated`).
- **C85 (finding the best solution).** `Elitism(n)` accepts any number of elites. If it is not less than the size of the population, no child is ever kept (soga_replacement.cpp:25-39), so a run of any length returns the best candidates of the initial population (`C85_elitism_violated`). The mutations of permutations other than `Shuffle(range_max = 1)` cannot turn every permutation into every other one in a single step (default parameters, mutation/permutation.hpp:31, 109, 153), so a population with `KeepBest` can be caught in a local optimum for ever (`C85_permutation_violated`); `Shuffle` with `range_max = 1` always leaves it (`C85_shuffle`).
- **C94 (the cache and the last generations).** `docs/fitness-functions.md:220` says that `cache_size(2)` caches the last 2 generations. `updatePopulation` inserts the old population, so the current population is not in the cache when its children are evaluated: a mutated child that is equal to another candidate of the current population is evaluated again (`C94_latest_generation_violated`). Inserting a chromosome that is in the cache does not renew its entry, so a chromosome that stays in the population is evicted as the oldest one, and evaluated again (`C94_long_lived_violated`). A chromosome that is new in the population of generation `j` is spared in the generations `j + 2` up to `j + n + 1` (`C94_new_chromosome_partial`).
- **C86 (infinite fitness values).** `docs/fitness-functions.md:246-249` says that the default methods support infinite values. NSGA-III, the default of the multi-objective algorithms, does not: if a value of the pool is `+inf`, the ideal point is `+inf`, and every normalized value of that objective is `(inf - f) / inf`, which is NaN (nsga3.cpp:57-70). Each candidate is then associated with the first reference line at the distance NaN, the members of the split front that are kept are the first ones in the order of the sort, and because the ideal point is kept, this is so for the rest of the run (`C86_nsga3_infinite_violated`). The population stays legal (`C86_nsga3_legal`). NSGA-II computes `inf / inf` or `inf - inf` too, but it sorts by these distances, with a comparison that is then not a strict weak order (nsga2.cpp:44-55, 97-100): undefined behaviour (`C86_nsga2_infinite_violated`). Finite values whose differences overflow do the same (`C86_nsga2_large_violated`). Up to half of the largest `double` NSGA-II works (`C86_nsga2_partial`).
- **C87 (statistics).** The mean is a sum of terms `f * (1/n)` (pop_stats.cpp:54-63), so it may be outside the range of the values: ten candidates with the fitness 1 have the mean `1 - 2^-53` (`C87_mean_within_violated`), and then their variance is positive (`C87_variance_constant_violated`). An infinite fitness value makes the variance and the standard deviation of the objective NaN (`C87_variance`, `C87_stddev`), since the mean is infinite as well.
- **C88 (wrappers).** A wrapper made from a null pointer to a function is not empty (functional.hpp:273-278 stores every callable), so `operator bool` is true and the assertion of the call holds, but the call is undefined (`C88_null_pointer_violated`); `std::function` and `std::move_only_function` are empty in this case.
- **C89 (hypervolume and tolerances).** `uniqueSortedParetoFront` (pop_stats.cpp:124-137) finds the front with the tolerant comparison. A point that is better than another one in one objective by no more than the tolerance is left out if it is worse in another one, so that the volume only it dominates is missing (`C89_too_small`). In the nested calls the missing volume is subtracted too little, so that the result can also be larger than the dominated volume (`C89_too_large`), and adding a point to a set can lower the value (`C89_not_monotone`). The default tolerances show the same (`C89_default_tolerances`); the error is bounded by `C89_error`.
- **C90 (circular buffers and exceptions).** In `set_capacity` (circular_buffer.hpp:276-289) the guard deallocates `buffer_`, not `new_buffer`, and with the new capacity. If copying an element throws (elements without a `noexcept` move constructor), the old block is freed while its elements live and the buffer still uses it; the new block leaks (`C90_set_capacity_violated`). In `reset` (298-305) the old block is freed before the new one is allocated. If the allocation throws, `buffer_` dangles and the destructor frees the block again (`C90_reset_violated`). `push_front(const T&)` (204-209) copies its argument but its `noexcept` asks for the move constructor, so that a copy that throws ends the program (`C90_push_front_violated`). Everything else keeps ownership and values for every failure (`C90_circular_buffers_partial`, `C90_nothing_leaks`).
- **C91 (small vectors and exceptions).** The constructor from an input range (small_vector.hpp:407-415) calls `emplace_back` in its body without a guard. If an append throws, the destructor does not run: the elements that were appended are never destroyed, and the block that was allocated for them leaks (`C91_input_constructor_violated`). The other constructors have guards.
- **C92 (caches and exceptions).** `fifo_cache::reset` (cache.hpp:158-163) calls `circular_buffer::reset`, which frees its memory before it allocates (C90). If that throws, as it can at the start of every run with a cache (ga_base.impl.hpp:329), the cache is left with a pointer to memory that is gone: inserting into it or destroying it, and so destroying the GA, is undefined (`C92_reset_violated`). The assertions of the insertions (cache.hpp:106) need a free bucket even if the capacity is 0: with a standard library whose empty maps have no buckets (libc++), inserting into a default-constructed cache or one that was moved from fails (`C92_default_insert_violated`).
- **C93 (reference lines).** The constructor of `QuasiRandom` (qrng.hpp:63-75) accepts every seed that is not negative, but the first call converts a number from 2^64 on to an integer, which is undefined, if the seed is at least 2^64 (`C93_generator_seed_violated`). The mirror mapping may return coordinates below 0: for the point (2^-51, 3·2^-52, 2^-51, 1 - 2^-53) of the unit cube one coordinate is -2^-53 (`C93_map_mirror_violated`), since the mirrored neighbours are computed by additions and subtractions that round; they are never below -2^-50, and the lines are unit vectors up to rounding all the same (`C93_map_mirror`, `C93_reference_lines`).

- **C74 (tolerances).** With the default tolerances and several objectives, `findParetoFront` may list a candidate although another one is at least as good everywhere and better by twice the tolerance somewhere:
  the other one was itself discarded in favour of one that is slightly worse in some objective, and so on. The default non-dominated sort may put a dominated candidate into the first front, next to the one
  that dominates it. `mergeParetoSets` may keep a candidate and another one that dominates it, depending on the schedule. Three candidates may dominate each other in a cycle; `fastNonDominatedSort` then reads past the
  end of an empty front. What holds for all tolerances: nothing fails with the default sort, every candidate that is left out is beaten by another one, and leads through a chain of such candidates to a
  reported one.
- **C68 (hash values).** Candidates with real genes are compared with tolerances, but hashed exactly. With a positive absolute tolerance (the default) the only hash functions that fit the comparison
  are the constant ones (`C68_float_hash`), and the comparison is not transitive (`C68_float_not_transitive`). Such candidates do not meet the requirements on the keys of an unordered map; whether the
  fitness cache finds a candidate that compares equal to a stored one depends on the buckets.

- **C70 (the best evaluated candidate).** `solve` does not always return the best candidate that it evaluated. `Elitism(n)` drops the last `n` children of each generation without looking at their
  fitness (`C70_elitism_violated`: fitness 12 evaluated, 2 returned). With NSGA-II (the crowding distance decides if there are too many non-dominated candidates) a returned solution can be dominated by one that
  was found earlier, even with `keep_all_optimal_solutions`, which the documentation says keeps all the Pareto-optimal candidates found (`C70_nsga2_violated`). The candidate generated to find out the number of objectives is
  evaluated and thrown away (`C70_probe_lost`).
- **C71 (dynamic fitness functions).** The documentation says that a dynamic fitness function is evaluated "every time it's needed". Only the children are evaluated. A parent that survives keeps the fitness it got when it was
  made, and is compared with children that have current values (`C71_stale_violated`). All the candidates are up to date only if the replacement keeps nothing but children (`C71_current_partial`). The documented number of
  calls, `population_size * generations`, leaves out one call for the number of objectives (`C71_evaluations`).
- **C72 (number of threads).** A loop is cut into at most as many blocks as there are workers, and the caller takes one of them, so that one worker always idles: with `execution_threads(2)` every loop runs in the calling
  thread only, exactly as with `execution_threads(1)` (`C72_two_threads_violated`, `C72_one_thread_unused`). If the system can not start one of the new threads, the constructor of the vector destroys the workers that were
  started before it, which joins threads whose queues nobody closes: `execution_threads` never returns (`C72_failed_start_hangs`, `C72_failed_start_violated`). If it is the first thread that fails, then the exception
  leaves a pool whose workers have stopped, and later loops throw (`C72_failed_start_stops_pool`).

## What is modelled so far

| code | model |
|------|-------|
| `utility/circular_buffer.hpp`, `utility/cache.hpp` | `Model/CircularBuffer`, `Model/FifoCache`; memory, copies, moves and exceptions of several circular buffers in `Model/CircularOwnership` (assignments to elements and destructors do not throw, `std::allocator`); copies, moves, swaps and exceptions of several caches, with iterators that are node numbers, in `Model/CacheVars` (hashing and comparing keys does not throw) |
| `utility/dynamic_bitset.hpp` | `Model/Bitset` |
| `utility/math.hpp` comparisons, `math.cpp` Pareto comparisons | `Model/Float` |
| `core/population.*` | `Model/ParetoFront`, `Model/MergePareto` |
| `algorithm/nd_sort.cpp` | `Model/NdSort` |
| `crossover/crossover_impl.hpp`, `neighbour_list.hpp`, binary, integer and permutation crossovers | `Model/Crossover*`, `Model/EdgeCrossover` |
| `utility/rng.hpp`, `utility/distribution.hpp` | `Model/Rng`, `Model/Sample`; the distributions of the standard library are opaque parameters |
| `crossover/crossover_base.impl.hpp`, `mutation/mutation_base.impl.hpp`, `GA::repair` | `Model/Operators` |
| `mutation/*.cpp` | `Model/Mutation`; `std::pow` and the normal distribution are draws |
| `crossover/real.cpp` | `Model/RealCrossover`; exact arithmetic, `std::pow` is a parameter |
| `metrics/pop_stats.cpp:22-103` | `Model/Stats` |
| `utility/functional.hpp:212-325` `function_ref`, `move_only_function` | `Model/Functional`; a callable is a type number and a state, its behaviour is a parameter; wrappers inside callables and calls that use the wrappers themselves are not modelled |
| `stop_condition/*` | `Model/StopCondition` |
| `math.hpp` `ScopedTolerances`, `scope_exit.hpp` | `Model/Scope`: programs with nested scopes and exceptions |
| `utility/algorithm.hpp`, `std::lower_bound` | `Model/Algorithm`, `Model/Sorting`; `std::sort` is any function or result allowed by its contract |
| `algorithm/soga_selection.cpp`, `soga_replacement.cpp`, `rng::sampleCdf` | `Model/Selection`; `std::exp` is a parameter |
| `algorithm/nsga2.cpp` | `Model/Nsga2`; finite fitness values, exact arithmetic; the non-dominated sort is a value that meets the specification of C10 |
| `core/ga_base.impl.hpp:314-579`, `algorithm_base.impl.hpp`, metrics updates | `Model/GaLoop`; operators, algorithm, stop condition, repair, fitness are arbitrary functions; the parallel evaluation is an interleaving of steps; the generation callback is in `Model/Callback`; assertions about the lengths of user-supplied chromosomes are left out; a dynamic fitness function is a fixed function here, and one that changes between generations in `Model/GaDynamic` |
| `encoding/*.cpp` `generateCandidate` | `Model/Encoding`; `std::shuffle` is a sequence of swaps, `std::uniform_int_distribution` any value of the range |
| `core/ga_base.impl.hpp:33-267`, `core/ga_info.cpp` settings | `Model/Settings` |
| `utility/spinlock.hpp`, `shared_spinlock.hpp` | `Model/Locks`; interleavings of the atomic operations |
| `utility/concurrent_queue.hpp` | `Model/ConcurrentQueue`; critical sections are atomic, `notify_one` wakes any waiting thread, spurious wake-ups |
| `utility/rcu.hpp` | `Model/Rcu`; sequential consistency, or x86 store buffers for the epochs; no epoch overflow, readers are registered from the start |
| `utility/thread_pool.hpp:27-155`, `latch.hpp` | `Model/ThreadPool`; sequentially consistent interleavings at the accesses to shared state; loop bodies are programs that run further loops or throw and do not catch; the pool is not stopped while loops run |
| `thread_pool.hpp`, the generators of `rng.hpp` and the loops of `ga_base.impl.hpp` together | `Model/SeededRun`; loop bodies draw numbers and write their own element, they run no loops and throw nothing; the parts of the GA are functions that draw numbers; only the caller of `solve` submits tasks |
| the parameters of `soga_selection.hpp` | `Model/SelectionParams`; real numbers, no rounding |
| crossover and mutation rates: the comparison in `operator()` of the crossovers and in the mutations of permutations | `Model/Rates`; the output of the generator is a 64 bit number, the result of `randomReal` exact |
| parameters of the mutations of real genes: `std::pow` in `NonUniform` and `Polynomial` | `Model/MutationParams`; real numbers, `Real.rpow` |
| `utility/thread_pool.hpp:84-154, 182-196` | `Model/PoolLife`; sequentially consistent interleavings of the master and the workers, at the operations of the queues; a task is a number and running it ends; the master does not wait for the tasks of a loop before the next operation (more schedules than the code has) |
| `utility/math.cpp:57-139` | `Model/MathFns`, `Nsga3`, `ConeTree`, `Hypervolume`, `Selection`; real arithmetic |
| `utility/small_vector.hpp` | `Model/SmallVector`; memory as slots that are raw or hold an element; `std::allocator` only, no throwing element operations or failing allocations, returned iterators left out. Exceptions and the memory of several vectors in `Model/SmallVectorThrow` (without `pop_back` and `insert` of ranges) |
| `utility/matrix.hpp` | `Model/Matrix`; row references are row numbers, swaps of rows of different matrices are left out |
| `problems/benchmark_function.*`, `problems/integer.cpp`, `problems/travelling_salesman.*` | `Model/Problems`; exact arithmetic; the random chromosomes are arbitrary |
| `problems/single_objective.cpp`, `multi_objective.cpp`, `many_objective.cpp` | `Model/Benchmarks`; `Model/BenchmarkSchwefel`, `Model/BenchmarkPoints`; real arithmetic |
| `algorithm/nsga3.cpp` | `Model/Nsga3`; exact arithmetic, finite fitness values; the reference lines and the result of the sort are arguments; the parallel loop of the association stores to different elements and is sequential here |
| `utility/cone_tree.*` | `Model/ConeTree`; exact arithmetic with a square root that is exact or rounded up; `std::partition` is the algorithm of libstdc++; the capacity of the vector of nodes is an argument |
| `algorithm/reference_lines.cpp`, `utility/qrng.hpp`, `nsga3.cpp` `generateReferencePoints` | `Model/RefLines`; exact arithmetic (real for the root and logarithm mappings and `phi`, rational for the end of the mirroring); the sort is an argument; the loop of the mirroring has fuel and the theorems show that some amount of it is enough |
| `metrics/pop_stats.cpp` hypervolume, `metrics/distribution_metrics.cpp` `Hypervolume`, `AutoHypervolume` | `Model/Hypervolume`; exact arithmetic, finite fitness values; exact comparison in C33 and C34, any tolerances in C89; the sort and the order of the atomic additions are arguments |
| IEEE binary64 arithmetic of `encoding/real.hpp`, `crossover/real.cpp`, `mutation/real.cpp`, `randomReal` | `Model/Double`, `Model/DoubleOps`; values are NaN, ±∞ or a rational, operations round to nearest even with subnormals and overflow; one zero (`-fno-signed-zeros`); contraction to fused operations is a parameter (`-march=native`); `a / b` as `a * (1 / b)` (`-freciprocal-math`) is a parameter; division by zero is NaN; `std::pow` is any function that meets `PowContract` |
| `soga_selection.cpp` and `sampleCdf` in binary64 arithmetic | `Model/DoubleSelect`; sums in any order and with any grouping (`SumContract`), reciprocals and fused operations where the compiler may use them; `std::exp`, `std::lerp` and the standard deviation are parameters with contracts |
| `nsga2.cpp`, `nsga3.cpp` and the tournament in binary64 arithmetic | `Model/DoubleMulti`; the result of the non-dominated sort is an argument, the sum of `perpendicularDistanceSq` is a parameter |
| `utility/iterators.hpp`: `stable_iterator_base`, the operators derived by `random_access_iterator_interface`, `iota_iterator<size_t>`, element access of `container_interface` | `Model/Iterators`; `size_t` and `ptrdiff_t` with wrap-around; containers are `size()` and `operator[]`; `operator->`, `proxy_ptr` and the type aliases are not modelled |
| `utility/bounded_value.hpp` | `Model/BoundedValue`; `double` as binary64 with NaN and infinities, `size_t` as integers |
| `core/candidate.hpp` `operator==`, `CandidateHasher` | `Model/CandidateHash`; `std::hash` of a gene is a parameter |
| `metrics/metric_set.*`, `track` and `get_metric*` of `core/ga_info.hpp` | `Model/MetricSet`; type ids are numbers, a metric is a state with its `initialize` and `update` functions |

## What is not modelled

- `utility/functional.hpp:1-210` (`lambda_fn`, the small function objects), `utility/indestructible.hpp`, `utility/type_traits.hpp`, `utility/concepts.hpp`, `core/ga_traits.hpp`, `gapp.hpp`: type erasure, templates and includes; in the models a
  callable is a function.
- `crossover/lambda.hpp`, `mutation/lambda.hpp`, lambda stop conditions and metrics: user code; the theorems about the loop hold for arbitrary operators.
- `problems/tsp_data/*`: the coordinates of the cities are in `Model/TspData` for C75; the other theorems are for arbitrary coordinates.
- Memory: allocation, ownership by `unique_ptr`, copies and moves of values, except in `Model/SmallVector`, `Model/SmallVectorThrow`, `Model/CircularOwnership`, `Model/Functional`, `selectMove` and `Model/Rcu`.
- The memory model of C++: interleavings are sequentially consistent, with store buffers for the epochs of `rcu.hpp`.
- The quality of the random numbers: a draw is any value of its range. The only statements about probabilities are those of C76, C77, C79 to C82 and C85, which count the sequences of draws, measure the set of the random numbers, or take independent draws from the distributions of the standard library as exact.
- Rounding, where the table above says exact or real arithmetic.
