{"id": "C01", "title": "circular_buffer behaves as a bounded double-ended queue", "statement": "Starting from an empty circular_buffer, after any sequence of push_back, push_front, pop_back, pop_front, clear, reserve/set_capacity calls, the elements seen by operator[] / iteration are exactly those of an ideal bounded deque of the same capacity: push_back on a full buffer drops the oldest front element, push_front on a full buffer drops the back element, and size() never exceeds capacity().", "quantifier": "every capacity, every element type, every finite sequence of operations (with the documented preconditions for pop/front/back)", "why_tests_cant": "wrap-around positions, head/tail coincidence when full and capacity changes combine in unboundedly many histories; tests visit a handful of small ones", "anchors": ["src/utility/circular_buffer.hpp: circular_buffer::push_back/push_front/pop_back/pop_front/operator[]/clear"]}
{"id": "C02", "title": "circular_buffer::set_capacity keeps the oldest elements", "statement": "set_capacity(n) leaves a buffer of capacity n whose content is the first min(n, size()) elements (front to back order) of the previous content; with n >= size() nothing observable changes except the capacity.", "quantifier": "every buffer state reachable by any history, every new capacity n > 0", "why_tests_cant": "the internal layout (wrapped or not, full or not) at the moment of the call depends on the whole history", "anchors": ["src/utility/circular_buffer.hpp: circular_buffer::set_capacity, reserve"]}
{"id": "C03", "title": "fifo_cache is a bounded map with FIFO eviction", "statement": "For any history of insert/insert(range)/get/reset calls, get(k) returns the value most recently inserted for k if k has not been evicted, and nothing otherwise; size() <= capacity(); when a new key is inserted into a full cache exactly the key whose first insertion is the oldest among the resident ones is evicted; inserting a resident key overwrites the value without changing the eviction order; a cache of capacity 0 stores nothing.", "quantifier": "every capacity, every key/value type with decidable equality, every finite history", "why_tests_cant": "eviction order depends on the complete history; the bookkeeping (map + queue of positions) can drift apart only after long histories", "anchors": ["src/utility/cache.hpp: fifo_cache::insert, insert(range), get, reset"]}
{"id": "C04", "title": "dynamic_bitset operations act as on a list of booleans", "statement": "For a bitset whose unused high bits are unconstrained, operator[]/set, fill, clear, popcount, any_set/all_set style queries, find_first and equality return what the corresponding operation on the plain sequence of size() booleans returns, for every size including sizes that are not a multiple of the block width.", "quantifier": "all sizes, all contents, all operation sequences, all bit positions", "why_tests_cant": "errors hide in the partial last block and in sizes just around multiples of 64; the state space is exponential", "anchors": ["src/utility/dynamic_bitset.hpp: dynamic_bitset", "src/utility/bit.hpp: mask_right_n, block_of"]}
{"id": "C05", "title": "dynamic_bitset::resize keeps old bits and gives new bits the requested value", "statement": "After resize(n, v), the bits at positions below min(old size, n) are unchanged and every position in [old size, n) reads v.", "quantifier": "all old sizes, contents and new sizes n, both values v", "why_tests_cant": "the outcome depends on stale bits left in the last block by earlier operations; only particular size combinations expose it", "anchors": ["src/utility/dynamic_bitset.hpp: dynamic_bitset::resize"]}
{"id": "C06", "title": "Tolerant floating point comparison is a consistent three-way comparison", "statement": "For any non-negative tolerances, exactly one of floatIsLess(a,b), floatIsEqual(a,b), floatIsLess(b,a) holds (values include infinities, not NaN); floatIsEqual is reflexive and symmetric; floatCompare is antisymmetric and its sign agrees with floatIsLess/floatIsEqual; if floatIsLess(a,b) then a < b; floatIsLess is transitive for every tolerance and monotone for relative tolerance at most 1; with zero tolerances the comparisons are exactly <, =, >.", "quantifier": "all finite a, b, c and all non-negative absolute/relative tolerances", "why_tests_cant": "tolerance boundaries are measure-zero events that sampled tests do not hit, and the algebraic laws quantify over all triples", "anchors": ["src/utility/math.hpp: floatCompare, floatIsEqual, floatIsLess, floatIsLessAssumeNotGreater, Tolerances"]}
{"id": "C07", "title": "Pareto comparison is consistent and a strict partial order under exact comparison", "statement": "paretoCompare(a,b) < 0 iff b dominates a, > 0 iff a dominates b, 0 otherwise, for every tolerance setting, and dominance is irreflexive and asymmetric; with zero tolerances it is transitive (a strict partial order). paretoCompareLess(a,b) iff paretoCompare(a,b) < 0 (violated for negative values with a relative tolerance). Transitivity for every tolerance is false.", "quantifier": "all fitness vectors of equal length, all tolerance settings", "why_tests_cant": "order laws quantify over all triples of vectors; failures of transitivity need values at tolerance distance in several coordinates at once", "anchors": ["src/utility/math.cpp: paretoCompare, paretoCompareLess"]}
{"id": "C08", "title": "findParetoFront returns exactly the non-dominated rows", "statement": "For a fitness matrix with at least one row, findParetoFront returns, without repetition, exactly the indices of the rows that no other row dominates; the three implementations (sorting based, BEST, Kung's divide and conquer) return the same set.", "quantifier": "all matrices of any number of rows and objectives, with duplicates, under exact comparison (and for one objective, under any tolerance)", "why_tests_cant": "correctness must hold for every arrangement of dominated rows, ties and duplicates; the scan-and-swap algorithms mutate their candidate list while iterating", "anchors": ["src/core/population.cpp: findParetoFront, findParetoFront1D, findParetoFrontSort, findParetoFrontBest, findParetoFrontKung"]}
{"id": "C09", "title": "mergeParetoSets gives the Pareto front of the union on every schedule", "statement": "Merging two Pareto sets returns exactly the candidates of both sets that are not dominated by a candidate of the other set, each with the original multiplicity, and the result does not depend on how the parallel comparison tasks interleave.", "quantifier": "all pairs of mutually non-dominated sets (with duplicates, equal fitness across sets), all interleavings of the row tasks with per-element atomic flags", "why_tests_cant": "the early-exit reads of flags written by other threads make the executed comparisons schedule dependent; tests see one schedule", "anchors": ["src/core/population.hpp: mergeParetoSets"]}
{"id": "C10", "title": "Non-dominated sorting assigns the true ranks", "statement": "For every fitness matrix, each of the three non-dominated sorting procedures returns every row index exactly once, ordered by rank, where rank 0 are the non-dominated rows and rank k+1 are the rows that become non-dominated after removing ranks 0..k; hence all three agree on the ranks.", "quantifier": "all matrices (any size, duplicates, ties), all schedules of the per-objective parallel phase of dominance-degree sorting, exact comparison", "why_tests_cant": "rank is a recursively defined global property of the point set; tests only compare on few small fixed inputs", "anchors": ["src/algorithm/nd_sort.cpp: fastNonDominatedSort, dominanceDegreeSort, efficientNonDominatedSort"]}
{"id": "C11", "title": "Front bookkeeping of a sorted list of fronts is exact", "statement": "For a list of (index, rank) elements sorted by rank: ranks() gives each index its rank; fronts() yields consecutive non-empty ranges that concatenate to the whole list, one per distinct rank, each constant in rank; partialFront(n) is the maximal equal-rank range that straddles position n and is empty iff the first n elements are a union of complete fronts; resize(n) keeps the first n elements.", "quantifier": "all rank-sorted lists and all cut positions 0 < n <= length", "why_tests_cant": "boundary positions (cut exactly between two fronts, cut at the end, single front) need to be right for all list shapes", "anchors": ["src/algorithm/nd_sort.cpp: ParetoFronts::ranks, fronts, partialFront, resize"]}
{"id": "C12", "title": "Point-wise crossovers exchange genes locus by locus", "statement": "n-point, single-point, two-point and uniform crossover of two equal-length parents return children of the same length in which, at every locus, the pair of child genes is the pair of parent genes, possibly exchanged; for n-point crossover the exchanged loci are exactly those with an odd number of crossover points at or before them (single- and two-point agree with n = 1, 2, up to the order in which two-point returns the two children).", "quantifier": "all parents of all lengths, all gene types, all crossover points / random bits", "why_tests_cant": "quantifies over all parents and random outcomes; tests run a few seeds", "anchors": ["src/crossover/crossover_impl.hpp: nPointCrossoverImpl, singlePointCrossoverImpl, twoPointCrossoverImpl", "src/crossover/binary.cpp: Uniform", "src/crossover/integer.cpp: Uniform"]}
{"id": "C13", "title": "Order crossovers produce permutations that keep the chosen segment", "statement": "For parents that are permutations of the same set, order1 and order2 crossover produce a permutation of that set; the genes in the selected range are those of the first parent at the same positions, and the remaining genes appear in the order in which they occur in the second parent (starting after the range, cyclically, for order1; from the beginning for order2). The generic and the integer-specialised implementations return the same child.", "quantifier": "all pairs of permutations of any length, every range [first,last)", "why_tests_cant": "must hold for all n! x n! parents and all ranges including empty, full and wrapping ones", "anchors": ["src/crossover/crossover_impl.hpp: order1CrossoverImpl (both overloads), order2CrossoverImpl (both overloads)"]}
{"id": "C14", "title": "Position crossover produces permutations that keep the chosen positions", "statement": "For permutation parents, position crossover returns a permutation whose genes at the selected indices are the first parent's genes at those positions and whose other genes appear in the second parent's order; both overloads agree.", "quantifier": "all pairs of permutations, all index sets", "why_tests_cant": "all parents and all subsets of positions", "anchors": ["src/crossover/crossover_impl.hpp: positionCrossoverImpl (both overloads)"]}
{"id": "C15", "title": "Cycle crossover produces permutations inheriting every gene from the same locus of a parent", "statement": "For permutation parents, cycle crossover terminates and returns two permutations; at each locus one child has the first parent's gene and the other child the second parent's gene; the loci exchanged are a union of whole cycles of the position permutation, alternating cycles in order of their first locus.", "quantifier": "all pairs of permutations of any length", "why_tests_cant": "the cycle structure is arbitrary; termination and completeness of the cycle walk is an all-inputs property", "anchors": ["src/crossover/crossover_impl.hpp: findOddCycleIndices (both overloads), cycleCrossoverImpl"]}
{"id": "C16", "title": "Edge crossover produces permutations", "statement": "For permutation parents of length at least 2 (each gene occurring once), edge recombination terminates and returns a permutation of the same genes; the first gene is the first parent's first gene, and each following gene is a neighbour of its predecessor in one of the parents whenever an unused neighbour exists.", "quantifier": "all pairs of permutations of length >= 2, both overloads", "why_tests_cant": "the greedy walk uses shrinking neighbour lists; validity must hold for all graphs formed by two Hamiltonian cycles", "anchors": ["src/crossover/crossover_impl.hpp: edgeCrossoverImpl (both overloads)", "src/crossover/neighbour_list.hpp: NeighbourList, makeNeighbourLists"]}
{"id": "C17", "title": "Partially mapped crossover produces permutations that keep the segment", "statement": "For permutation parents, PMX terminates and returns a permutation; the genes in the range are the first parent's; every gene of the second parent outside the range whose value is not in the first parent's segment keeps its position.", "quantifier": "all pairs of permutations, every range", "why_tests_cant": "the displacement chain can have any length below the range size; termination of the chain walk is an all-inputs property", "anchors": ["src/crossover/crossover_impl.hpp: pmxCrossoverImpl (both overloads)"]}
{"id": "C18", "title": "Crossover operator never lets a child carry a stale fitness", "statement": "Calling a crossover operator on two evaluated parents yields children such that each child marked as evaluated has a chromosome equal to a parent's chromosome and carries exactly this parent's fitness; children whose chromosome differs from both parents are unevaluated; with probability outcome 'no crossover' the children are copies of the parents. For real genes equality is tolerant, so exact validity of the fitness is not guaranteed there.", "quantifier": "all parents, all crossover implementations, all random outcomes, all crossover rates", "why_tests_cant": "an arbitrary user-supplied crossover function and all equality patterns between parents and children", "anchors": ["src/crossover/crossover_base.impl.hpp: Crossover::operator()"]}
{"id": "C19", "title": "Mutations keep chromosomes in their domain", "statement": "Permutation mutations (inversion, swap2, swap3, shuffle, shift) return a permutation of the input; binary flip and real/integer mutations return chromosomes of the same length with every gene inside its bounds if the input was within bounds; flip/uniform change exactly the sampled loci and leave the others untouched.", "quantifier": "all chromosomes, all bounds, all mutation rates, all random outcomes", "why_tests_cant": "index arithmetic of ranges and rotations must be right for all lengths and draws", "anchors": ["src/mutation/permutation.cpp: Inversion, Swap2, Swap3, Shuffle, Shift", "src/mutation/binary.cpp: Flip", "src/mutation/integer.cpp: Uniform", "src/mutation/real.cpp: Boundary, Gauss, NonUniform, Polynomial, Uniform"]}
{"id": "C20", "title": "Shift mutation is well defined for every legal parameter", "statement": "For every range_max in the documented interval [0,1] and every chromosome of length >= 2 the shift mutation selects a source range and a destination inside the chromosome and moves the range.", "quantifier": "all chromosome lengths, all range_max in [0,1], all random draws", "why_tests_cant": "the failing combination (selected range = whole chromosome) needs range_max = 1 and a specific random draw", "anchors": ["src/mutation/permutation.cpp: Shift::mutate", "src/utility/rng.hpp: sampleUnique"]}
{"id": "C21", "title": "Mutation operator keeps the evaluated flag truthful", "statement": "Applying a mutation operator to an evaluated candidate leaves it marked as evaluated only if its chromosome is unchanged; whenever it is marked as evaluated its fitness is the fitness of its chromosome. The same holds for the repair step.", "quantifier": "all candidates, all user supplied mutation/repair functions, all random outcomes", "why_tests_cant": "quantifies over arbitrary user functions", "anchors": ["src/mutation/mutation_base.impl.hpp: Mutation::operator()", "src/core/ga_base.impl.hpp: GA::repair"]}
{"id": "C22", "title": "Every generation has an evaluated population of the configured size", "statement": "At the end of initialization and after every generation of solve(), the population has exactly population_size() candidates, every candidate is evaluated and carries the value the fitness function returns for its chromosome (deterministic fitness function), and the fitness matrix equals the rows of the population's fitness vectors, whether or not the fitness cache is enabled.", "quantifier": "all fitness functions, operators, random outcomes, cache sizes (including 0 and changes of the number of cached generations), even and odd population sizes, any number of generations", "why_tests_cant": "an invariant over all histories of the generational loop with arbitrary operators", "anchors": ["src/core/ga_base.impl.hpp: initializeAlgorithm, generatePopulation, evaluate, advance, updatePopulation, solve", "src/algorithm/algorithm_base.impl.hpp: nextPopulation"]}
{"id": "C23", "title": "solve() returns mutually non-dominated, distinct solutions found during the run", "statement": "The solutions returned are candidates that occurred in some population of the run, each with its true fitness, no two are equal, and none dominates another; with keep_all_optimal_solutions enabled, no candidate of any generation dominates a returned solution and every non-dominated fitness vector seen in a generation is represented.", "quantifier": "all runs (all operators, random outcomes, generation counts) under exact comparison", "why_tests_cant": "requires reasoning about all generations and their accumulated merge", "anchors": ["src/core/ga_base.impl.hpp: updateOptimalSolutions, solve", "src/core/population.hpp: mergeParetoSets, findParetoFront"]}
{"id": "C24", "title": "solve() always stops after at most max_gen generations and restores the setting", "statement": "solve(f, g) evaluates generation 0 and then runs exactly until the first generation whose stop condition holds, never beyond generation index g-1 (for g >= 1), and generation_cntr() counts the performed advances; max_gen() has its previous value afterwards even when an exception leaves solve().", "quantifier": "all early-stop conditions (including stateful and composite ones), all g, all exception points", "why_tests_cant": "quantifies over arbitrary user stop conditions and crash points", "anchors": ["src/core/ga_base.impl.hpp: solve", "src/stop_condition/stop_condition_base.cpp: StopCondition::operator()", "src/utility/scope_exit.hpp: restore_on_exit"]}
{"id": "C25", "title": "num_fitness_evals counts the fitness function calls", "statement": "num_fitness_evals() equals the number of times the fitness function was invoked in the run; an invocation happens only for candidates that are unevaluated and not found in the cache; every such candidate is evaluated exactly once per generation regardless of scheduling.", "quantifier": "all schedules of the parallel evaluation, all cache contents, all populations", "why_tests_cant": "depends on concurrent increments and cache hits over whole histories", "anchors": ["src/core/ga_base.impl.hpp: evaluate, advance", "src/metrics/misc_metrics.cpp: FitnessEvaluations"]}
{"id": "C26", "title": "Composite stop conditions respect max_gen and compute the boolean combination", "statement": "For any tree of &&, || and ! over stop conditions, the tree stops whenever generation_cntr + 1 >= max_gen; for state-free leaves it otherwise stops exactly when the boolean formula over the leaves' early-stop verdicts holds. The claim that a leaf inside a composite behaves as if used alone (its stall counter advancing every generation) is false for the right operand of a nested ||, which is skipped when the left operand holds.", "quantifier": "all trees, all leaf conditions, all histories of generations", "why_tests_cant": "unbounded trees and stateful leaves with histories", "anchors": ["src/stop_condition/composite.hpp: OR, AND, NOT", "src/stop_condition/stop_condition_base.cpp"]}
{"id": "C27", "title": "Stall conditions stop exactly after the documented number of stalled generations", "statement": "FitnessMeanStall / FitnessBestStall with a given patience stop in exactly the first generation that ends a run of patience+1 consecutive generations without improvement by at least delta over the record (the metric value of the last improvement) (in at least one objective), and initialize() makes the behaviour independent of earlier runs. Setting the patience between two generations restarts the count, and keeps the records.", "quantifier": "all sequences of population fitness matrices, all patience and delta values, all generations in which the patience is set", "why_tests_cant": "an exact characterisation over arbitrary unbounded histories", "anchors": ["src/stop_condition/stop_condition.cpp: metricImproved, FitnessMeanStall, FitnessBestStall", "src/stop_condition/stop_condition.hpp: reset"]}
{"id": "C28", "title": "FitnessValue stops when a solution reaches the threshold", "statement": "FitnessValue(threshold) stops iff some candidate's fitness vector is equal to or better than the threshold (component-wise not worse).", "quantifier": "all fitness matrices and thresholds, any number of objectives", "why_tests_cant": "incomparable vectors only occur with several objectives and are untested", "anchors": ["src/stop_condition/stop_condition.cpp: FitnessValue::stop_condition"]}
{"id": "C29", "title": "Selection always returns a member of the population and honours weights", "statement": "Roulette, rank, sigma and Boltzmann selection return an index inside the population for every random draw; an index is returned exactly for the draws in its half-open share of the cumulative weights, so candidates with zero weight are selected only for the single draw 0; with all weights zero the distribution is uniform. Tournament selection returns the best of the drawn candidates.", "quantifier": "all non-empty fitness matrices, all parameters, all random draws (exact arithmetic)", "why_tests_cant": "all draws and weight vectors, including degenerate ones (zero variance, zero total weight)", "anchors": ["src/algorithm/soga_selection.cpp: weightsToCdf, Roulette, Tournament, Rank, Sigma, Boltzmann", "src/utility/rng.hpp: sampleCdf"]}
{"id": "C30", "title": "Replacement strategies return a legal selection and preserve the best", "statement": "KeepChildren, Elitism(n) and KeepBest return population_size() pairwise distinct indices into parents+children; KeepBest returns a selection such that no rejected candidate is better than a selected one; Elitism keeps the n best parents and the first children; with n >= 1 (or KeepBest) the best fitness of the population never decreases from one generation to the next.", "quantifier": "all parent/children fitness matrices, all n <= population size, any number of generations", "why_tests_cant": "monotonicity over entire runs and ties in the ordering", "anchors": ["src/algorithm/soga_replacement.cpp: KeepChildren, Elitism, KeepBest", "src/algorithm/single_objective.cpp: nextPopulationImpl"]}
{"id": "C31", "title": "NSGA-II keeps whole fronts first and pairs ranks and crowding distances with the right candidates", "statement": "The next population consists of population_size() distinct members of parents+children; a member is kept only if all members of strictly better fronts are kept; within the split front no rejected candidate has a larger crowding distance than a kept one; afterwards selection uses for candidate i the rank and the crowding distance that were computed for candidate i.", "quantifier": "all fitness matrices of parents and children, all random outcomes", "why_tests_cant": "index bookkeeping across a permutation of the population; a misaligned array still gives plausible runs", "anchors": ["src/algorithm/nsga2.cpp: crowdingDistances, nextPopulationImpl, selectImpl, initializeImpl"]}
{"id": "C32", "title": "NSGA-III keeps whole fronts first and fills the split front by niche counts", "statement": "The next population consists of population_size() distinct members of parents+children containing all members of better fronts; every niching round draws from a reference direction with the smallest niche count that still has an associated, not yet chosen member of the split front, and selects such a member.", "quantifier": "all fitness matrices, reference sets and random outcomes", "why_tests_cant": "the association/niche counters are updated in place over a loop whose length and order depends on the data", "anchors": ["src/algorithm/nsga3.cpp: nextPopulationImpl, associatePopWithRefs, incrementNicheCount, referenceSetOf, findClosestAssociated, createPopulation"]}
{"id": "C33", "title": "hypervolume returns the exact dominated volume", "statement": "hypervolume(front, ref) is the Lebesgue measure of the union of the boxes spanned by the reference point and each point; it is therefore unaffected by the order of points, by duplicates and dominated points, and the parallel and sequential versions agree on every schedule.", "quantifier": "all finite point sets in any dimension dominating the reference point (exact arithmetic)", "why_tests_cant": "a measure-theoretic identity over all point sets and dimensions", "anchors": ["src/metrics/pop_stats.cpp: hypervolume (both), exclusiveHypervolume, inclusiveHypervolume, limitSet, uniqueSortedParetoFront"]}
{"id": "C34", "title": "AutoHypervolume's retroactive correction equals recomputation with the final reference point", "statement": "After every update, each stored value of AutoHypervolume equals the hypervolume of that generation's front with respect to the current (worst seen) reference point.", "quantifier": "all sequences of generations, any number of objectives", "why_tests_cant": "requires an identity over all point sets in every dimension and all histories of reference point changes", "anchors": ["src/metrics/distribution_metrics.cpp: AutoHypervolume::initialize, update"]}
{"id": "C35", "title": "sampleUnique returns distinct values in range", "statement": "sampleUnique(l, u, count) returns count pairwise distinct integers in [l, u), for every admissible argument; every subset can occur.", "quantifier": "all l <= u, all count <= u-l, all random draws, ranges below and above 65536", "why_tests_cant": "the failing draws have tiny probability and need huge ranges", "anchors": ["src/utility/rng.hpp: sampleUnique, sampleUniqueSet"]}
{"id": "C36", "title": "randomReal returns values in [0,1)", "statement": "randomReal<T>() is in [0,1) for every generator output and every supported floating point type T; randomReal(l,u) is in [l,u].", "quantifier": "all 2^64 generator outputs, all supported T", "why_tests_cant": "2^64 outputs cannot be enumerated; nobody tests the less used types", "anchors": ["src/utility/rng.hpp: randomReal", "src/utility/bit.hpp: exponent_bits"]}
{"id": "C37", "title": "Per-thread random streams do not overlap", "statement": "jump() advances the generator by exactly 2^96 steps; the state sequence of a generator never becomes all-zero for any seed and has period 2^128 - 1; consequently the streams given to different threads are disjoint for 2^96 draws per thread as long as fewer than 2^32 generators are created.", "quantifier": "all 2^64 seeds / all non-zero 128-bit states, any number of threads up to 2^32", "why_tests_cant": "2^96 steps cannot be executed; the jump constants could be wrong by one bit without any test noticing", "anchors": ["src/utility/rng.hpp: Splitmix64, Xoroshiro128p::operator(), jump, ConcurrentXoroshiro128p::seed, RegisteredGenerator"]}
{"id": "C38", "title": "Seeding makes the per-thread streams reproducible", "statement": "If the set of registered threads is unchanged, seed(s) puts every thread's generator and cached distribution state into a state that depends only on s and the thread's position in registration order, so each thread's subsequent outputs are equal for equal s; threads that register for the first time after seed(s) get the state they would get if they had been registered before.", "quantifier": "all histories of registrations, deregistrations, draws and reseeds, all seeds", "why_tests_cant": "depends on arbitrary histories of thread creation and draws", "anchors": ["src/utility/rng.hpp: ConcurrentXoroshiro128p::seed, RegisteredGenerator", "src/utility/distribution.hpp: uniform_bool_distribution"]}
{"id": "C39", "title": "Parallel loops run the body exactly once per element", "statement": "parallel_for over n elements invokes the body exactly once for each element, for every number of worker threads and every block size; when it returns normally all invocations have finished; the assignment of elements to worker queues is a function of the loop sizes only (given a reset scheduler).", "quantifier": "all n, thread counts, block sizes >= 1, all interleavings of workers", "why_tests_cant": "schedules cannot be enumerated by tests", "anchors": ["src/utility/thread_pool.hpp: thread_pool::execute_loop, scheduled_worker_queue, worker_t::worker_main"]}
{"id": "C40", "title": "Nested parallel loops never deadlock", "statement": "In every reachable state of the pool in which some parallel_for call has not returned, some thread can make progress, even when loop bodies call parallel_for themselves to any depth and all loops share the same workers.", "quantifier": "all nesting structures, thread counts, interleavings", "why_tests_cant": "deadlocks depend on rare interleavings of queues and nested waits", "anchors": ["src/utility/thread_pool.hpp: thread_pool::execute_loop, local_worker_queue", "src/utility/latch.hpp: latch", "src/utility/concurrent_queue.hpp"]}
{"id": "C41", "title": "Exceptions thrown by loop bodies reach the caller after all tasks ended", "statement": "If some invocation of the body throws, parallel_for throws one of the thrown exceptions to the caller, and it does so only after no task of this loop can run any more (so the loop's local state is not used after its destruction).", "quantifier": "all subsets of throwing iterations, all schedules", "why_tests_cant": "needs specific schedules where workers lag behind the caller", "anchors": ["src/utility/thread_pool.hpp: thread_pool::execute_loop"]}
{"id": "C42", "title": "concurrent_queue is a linearizable closable FIFO without lost wake-ups", "statement": "Elements are taken in insertion order, each exactly once; after close() no element is accepted, remaining elements are still delivered and then take() returns nothing; a consumer is never left waiting while an element is available or the queue is closed and nobody has been signalled.", "quantifier": "any number of producers and consumers, all interleavings, spurious wake-ups included", "why_tests_cant": "lost wake-ups appear only on specific schedules", "anchors": ["src/utility/concurrent_queue.hpp: concurrent_queue::emplace, take, close"]}
{"id": "C43", "title": "Spinlocks provide mutual exclusion", "statement": "At most one thread holds a spinlock; a shared_spinlock has either one writer and no readers, or any number of readers; try_lock/try_lock_shared never succeed when the lock is held incompatibly, and a released lock can be acquired.", "quantifier": "any number of threads (below the writer constant for the shared lock), all interleavings (sequentially consistent)", "why_tests_cant": "races need specific interleavings of the optimistic counter increments", "anchors": ["src/utility/spinlock.hpp: spinlock", "src/utility/shared_spinlock.hpp: shared_spinlock"]}
{"id": "C44", "title": "RCU-protected objects are never freed while being read", "statement": "A reader between lock_shared/unlock_shared (read section) never observes the object it loaded being destroyed by a concurrent assignment; synchronize() returns only after all read sections that began before it have ended.", "quantifier": "any number of readers and writers, all interleavings (sequentially consistent)", "why_tests_cant": "use-after-free windows appear on rare schedules only", "anchors": ["src/utility/rcu.hpp: rcu_domain::read_lock, read_unlock, synchronize, rcu_obj::operator="]}
{"id": "C45", "title": "small_vector behaves as std::vector", "statement": "For any sequence of push_back, pop_back, emplace, insert, erase, resize, assign, reserve, shrink_to_fit, clear, copy, move and swap, small_vector holds the same element sequence as std::vector would, each element being constructed and destroyed exactly once.", "quantifier": "all element sequences, inline capacities, positions and histories", "why_tests_cant": "state combinations of inline/heap storage, spare capacity and insertion position are unbounded", "anchors": ["src/utility/small_vector.hpp: small_vector"]}
{"id": "C46", "title": "Matrix rows and columns address the same elements", "statement": "Matrix(r,c) stores r*c elements; row(i)[j], operator()(i,j) and column access refer to the same element; writing one element changes no other; append_row adds one row and keeps the others; pop_back removes the last row; row swap exchanges exactly two rows.", "quantifier": "all programs that build matrices with at least one column, contents, indices", "why_tests_cant": "index arithmetic for all dimensions", "anchors": ["src/utility/matrix.hpp: Matrix, MatrixRowBase"]}
{"id": "C47", "title": "Cone tree returns the point with the largest inner product", "statement": "ConeTree(points) can be constructed for any points of the same dimension, and ConeTree(points).findBestMatch(q) returns a point whose inner product with q is maximal among all the points, together with this inner product.", "quantifier": "all point sets of any size/dimension, all query vectors (exact arithmetic)", "why_tests_cant": "branch-and-bound pruning can silently skip the best match for unusual geometries, and the storage of the nodes depends on how unbalanced the tree becomes", "anchors": ["src/utility/cone_tree.cpp: ConeTree::ConeTree, buildTree, findBestMatch, innerProductUpperBound, partitionPoints, findCenter, findRadius"]}
{"id": "C48", "title": "Sorting and searching helpers meet their specification", "statement": "argsort returns a permutation of 0..n-1 listing the elements in order; partial_argsort's first part lists the smallest elements in order; argmax/argmin/max_element return a first extremal position; find_indices returns exactly the matching indices in order; lower_bound on a partitioned range returns the partition point; partial_shuffle/select/erase_duplicates/index_of/elementwise_min/max meet their specification.", "quantifier": "all ranges, all strict weak orders, all predicates", "why_tests_cant": "all inputs incl. ties and empty ranges", "anchors": ["src/utility/algorithm.hpp: argsort, partial_argsort, lower_bound, argmax, argmin, find_indices, elementwise_min, elementwise_max, select, erase_duplicates, index_of"]}
{"id": "C49", "title": "Generated reference directions are on the unit simplex", "statement": "For every dimension and count, quasi-random sequences stay in [0,1), the simplex mappings return non-negative vectors summing to 1, and pickSparseSubset returns exactly the requested number of the given points.", "quantifier": "all dimensions, all sequence lengths, all input points (exact arithmetic)", "why_tests_cant": "arithmetic invariants over unboundedly long recurrences", "anchors": ["src/algorithm/reference_lines.cpp: simplexMappingLog/Sort/Root/Mirror, quasirandomSimplexPoints, pickSparseSubset", "src/utility/qrng.hpp: QuasiRandom"]}
{"id": "C50", "title": "Scoped settings are restored on every exit path", "statement": "ScopedTolerances and restore_on_exit restore the value that was current at construction when the scope ends, for arbitrarily nested scopes and for exits by exception.", "quantifier": "all nestings, all exception points", "why_tests_cant": "all dynamic nestings and crash points", "anchors": ["src/utility/math.hpp: ScopedTolerances", "src/utility/scope_exit.hpp: restore_on_exit, scope_exit"]}
{"id": "C51", "title": "Initial populations are valid", "statement": "generatePopulation returns exactly population_size candidates; the first min(population_size, n) are the user supplied ones in order, the rest are generated; generated candidates are valid chromosomes (bits; integers/reals within bounds; permutations of 0..n-1) for every random outcome.", "quantifier": "all sizes, bounds, initial populations, random outcomes", "why_tests_cant": "all random outcomes and size combinations", "anchors": ["src/core/ga_base.impl.hpp: generatePopulation", "src/encoding/*.cpp: generateCandidate"]}
{"id": "C52", "title": "Population statistics are the textbook ones", "statement": "minFitness/maxFitness/fitnessMean/fitnessVariance return per objective the minimum, maximum, arithmetic mean and variance (non-negative, zero iff all equal) of the population's fitness values; min <= mean <= max component-wise.", "quantifier": "all non-empty fitness matrices (exact arithmetic)", "why_tests_cant": "identities over all matrices", "anchors": ["src/metrics/pop_stats.cpp: minFitness, maxFitness, fitnessMean, fitnessVariance, fitnessStdDev"]}
{"id": "C53", "title": "uniform_bool_distribution uses each generator bit once", "statement": "The booleans returned by consecutive calls are the low 63 bits, least significant first, of consecutive generator outputs; a new output is drawn exactly every 63 calls, so every finite bit pattern of the 63-bit words is equally represented.", "quantifier": "all generator outputs, all numbers of calls", "why_tests_cant": "state machine over unbounded call sequences", "anchors": ["src/utility/distribution.hpp: uniform_bool_distribution::operator()"]}
{"id": "C54", "title": "Binary decoding of benchmark variables covers exactly the bounds", "statement": "Converting a binary chromosome to real variables gives values within [lower, upper] for every bit pattern, all-zero bits give lower, all-one bits give upper, the map is strictly monotone in the encoded integer when lower < upper; StringFinder's fitness is at most the string length, reached exactly on matching chromosomes; the TSP fitness is the negative length of the closed tour.", "quantifier": "all bit strings, bounds, targets, city sets", "why_tests_cant": "all 2^n chromosomes", "anchors": ["src/problems/benchmark_function.cpp: BenchmarkFunction<RealGene>::convert", "src/problems/integer.cpp: StringFinder", "src/problems/travelling_salesman.cpp: TSP"]}
{"id": "C55", "title": "Every metric has one value per generation", "statement": "After solve() finishes, each tracked metric holds exactly one entry per generation performed (including the initial one), entry i being computed from the population of generation i, and data from earlier runs is discarded.", "quantifier": "all runs, all sets of tracked metrics", "why_tests_cant": "history property over arbitrary runs", "anchors": ["src/metrics/metric_set.hpp", "src/core/ga_base.impl.hpp: initializeAlgorithm, advance, solve", "src/metrics/fitness_metrics.cpp"]}
{"id": "C56", "title": "The nadir point is the worst value per objective over the Pareto front", "statement": "findNadirPoint(M) returns a point whose every coordinate is the minimum of that coordinate over the non-dominated rows of M.", "quantifier": "all non-empty fitness matrices with any number of rows and objectives", "why_tests_cant": "the non-dominated rows depend on all the pairs of rows; tests check a few matrices", "anchors": ["src/core/population.cpp: findNadirPoint, findFrontNadirPoint"]}
{"id": "C58", "title": "randomBinomial returns a value in [0, n]", "statement": "randomBinomial(n, p) returns a number in [0, n] whatever the underlying distributions produce, n when p = 1 and 0 when p = 0; it returns as soon as its distributions produce acceptable draws. The mutations rely on this when they sample that many distinct gene positions.", "quantifier": "all n, all p in [0,1], all draws, on each of the three code paths", "why_tests_cant": "the rejected draws at the edges of the approximations are too rare to be seen, and the space of draws is unbounded", "anchors": ["src/utility/rng.hpp: randomBinomial, randomBinomialExact, randomBinomialApproxNormal, randomBinomialApproxPoisson"]}
{"id": "C57", "title": "Real-coded crossovers produce legal children by their documented formulas", "statement": "For parents whose genes are within the bounds, the children of every real-coded crossover have as many genes as the parents and every gene within its bounds. Arithmetic crossover returns the two weighted means; BLX-alpha genes are in the parents' interval extended by alpha times its length; SBX inherits equal genes unchanged and puts the children on the two sides of the parents' mean; Wright's children are p + w(p - q), clamped, where p is the better parent.", "quantifier": "all legal parents, bounds, parameters and random outcomes", "why_tests_cant": "quantifies over all real genes, bounds and random numbers; tests sample a few", "anchors": ["src/crossover/real.cpp: Arithmetic::crossover, BLXa::crossover, SimulatedBinary::crossover, Wright::crossover"]}
{"id": "C59", "title": "The algorithm and the mutation rate of a run are the chosen ones, or deduced for this run", "statement": "In every solve() the algorithm used is the last one the user chose (constructor or algorithm()), or, if the choice was left to the library, SingleObjective for one objective and NSGA3 for several; the mutation rate is the last one chosen, or the default for this run's chromosome length.", "quantifier": "all constructors, all sequences of setter calls and earlier runs", "why_tests_cant": "quantifies over all call histories of one GA object", "anchors": ["src/core/ga_base.impl.hpp: constructors, mutation_method, mutation_rate, initializeAlgorithm", "src/core/ga_info.cpp: GaInfo, algorithm"]}
{"id": "C60", "title": "Documented optima of the benchmark problems", "statement": "For every benchmark problem that documents an optimum, evaluating the documented optimum gives the documented optimal value, the optimum lies within the problem's bounds, and no solution within the bounds is better than (Pareto-dominates) the documented optimal value; for the single-objective problems no other solution reaches the optimal value.", "quantifier": "for all numbers of variables and objectives the problem accepts, and all candidate solutions within the bounds", "why_tests_cant": "The claim ranges over a continuum of candidate solutions in any dimension; a test can only sample points.", "anchors": ["src/problems/single_objective.cpp: Sphere, Rastrigin, Rosenbrock, Schwefel, Griewank, Ackley, Levy", "src/problems/multi_objective.cpp: Kursawe, ZDT1, ZDT2, ZDT3, ZDT4, ZDT5, ZDT6", "src/problems/many_objective.cpp: DTLZ1, DTLZ2, DTLZ3, DTLZ4, DTLZ5, DTLZ6, DTLZ7"]}
{"id": "C61", "title": "Real genes stay numbers within their bounds in floating-point arithmetic", "statement": "In IEEE double arithmetic (with or without fused multiply-add), every gene of a randomly generated real-coded candidate, and every gene of the children of every real-coded crossover and of the candidates changed by every real-coded mutation, is a finite number within the bounds of that gene; it is never a NaN or an infinity and never leaves the bounds by rounding.", "quantifier": "all bounds, legal parents, operator parameters, random draws, and contraction choices of the compiler", "why_tests_cant": "rounding errors show up only for particular combinations of 64-bit numbers; tests sample a few of them", "anchors": ["src/core/candidate.hpp: Bounds", "src/encoding/real.hpp: RCGA::generateCandidate", "src/crossover/real.cpp", "src/mutation/real.cpp", "src/utility/rng.hpp: randomReal"]}
{"id": "C62", "title": "Iterators behave as positions in their container", "statement": "The iterators of the library's containers (circular buffer, matrix rows, stable iterators, counting iterators) behave as positions: dereferencing gives the element at the position, ++, --, += and + move by exactly that many places or are rejected if there is no such place, comparisons compare positions, b - a is the signed number of steps so that a + (b - a) = b, a loop from begin to end (or in reverse) visits every element once in order and terminates, and the iterators keep referring to the same position when the container grows.", "quantifier": "all containers and their histories, all positions, all distances of the difference type", "why_tests_cant": "the laws hold for all pairs of positions and all 64-bit distances; tests check a few positions of a small container (and only differences with one sign)", "anchors": ["src/utility/iterators.hpp: stable_iterator_base, random_access_iterator_interface, iota_iterator, container_interface", "src/utility/circular_buffer.hpp: begin, end, rbegin, rend", "src/utility/matrix.hpp: begin, end"]}
{"id": "C63", "title": "Bounded value types only hold values in their interval", "statement": "A Probability or Normalized value is a number in [0, 1], a Positive value is positive, a NonNegative one is not negative and a Negative one is negative: constructing such an object from a value in the interval is accepted and reading it gives back the same value, and constructing it from any other value is rejected (assertion in debug builds).", "quantifier": "all values of the underlying type, including infinities and NaN", "why_tests_cant": "the claim is about every one of the 2^64 values, in particular the special ones that tests do not list", "anchors": ["src/utility/bounded_value.hpp: Interval::contains, BoundedValue, Probability, Positive, NonNegative, Negative, Normalized"]}
{"id": "C64", "title": "A whole run stays within the domain of the encoding", "statement": "With any of the library's crossover and mutation methods, every chromosome that solve() passes to the fitness function, every chromosome of the population after any generation, and every chromosome of the returned solutions is a permutation (PermutationGA), a string of bits of the right length (BinaryGA), within the bounds gene by gene (IntegerGA), or a number within the bounds gene by gene (RCGA), provided that the chromosomes of the user's initial population are and the user's repair function keeps it so.", "quantifier": "all chromosome lengths, bounds, population sizes, numbers of generations, algorithms, stop conditions, fitness functions, random draws, operator settings that change from call to call, and schedules of the parallel loops", "why_tests_cant": "the claim is about every chromosome of runs of any length under every sequence of random draws; one chromosome outside of the domain in one generation is enough to break it", "anchors": ["src/core/ga_base.impl.hpp: initializeAlgorithm, generatePopulation, advance, updateOptimalSolutions, solve", "src/crossover/*.cpp", "src/mutation/*.cpp", "src/encoding/*.cpp: generateCandidate"]}
{"id": "C65", "title": "The outcome of a run does not depend on thread scheduling", "statement": "With the same settings and the same outcomes of the random draws, a run of solve() has the same outcome on every schedule of the parallel loops: the same population after every generation, the same returned solutions in the same order, the same values of the counters, the metrics and the cache, and calls of the fitness function with the same chromosomes (the order of the calls within a generation may differ).", "quantifier": "all schedules of the parallel evaluation and of the parallel merge of the optimal solutions, all settings, operators, algorithms, stop conditions, fitness functions and random outcomes, any number of generations", "why_tests_cant": "the number of interleavings is exponential, and the schedules that differ in their result are rare and can't be chosen by a test", "anchors": ["src/core/ga_base.impl.hpp: initializeAlgorithm, evaluate, advance, updateOptimalSolutions, solve", "src/core/population.hpp: mergeParetoSets"]}
{"id": "C66", "title": "A run does not depend on earlier runs", "statement": "Calling solve() on a GA that has been used before does the same as calling it on a new GA with the same settings and tracked metrics: nothing of the population, the solutions, the fitness cache, the counters, the recorded metrics, the stop condition and the state of the algorithm is left from the earlier runs, also if these had other settings or were left early by an exception.", "quantifier": "all histories of earlier complete, partial and interrupted runs, all settings and initial populations", "why_tests_cant": "the claim is about every history of uses of an object; stale entries of a cache only show for particular combinations of chromosomes", "anchors": ["src/core/ga_base.impl.hpp: initializeAlgorithm, solve", "src/utility/cache.hpp: fifo_cache::reset", "src/algorithm/nsga3.cpp: initializeImpl", "src/stop_condition/stop_condition.cpp: FitnessMeanStall::initialize, FitnessBestStall::initialize", "src/stop_condition/composite.hpp: initialize"]}
{"id": "C68", "title": "Candidates can be the keys of hash maps", "statement": "Comparing two candidates with == is an equivalence relation, and candidates that compare equal have equal hash values, so a candidate stored in an unordered container (such as the fitness cache) is found again with any candidate that compares equal to it.", "quantifier": "all pairs and triples of candidates of all encodings, all hash functions of the genes, all tolerances", "why_tests_cant": "a violation needs two candidates that compare equal without being identical, which random tests do not produce", "anchors": ["src/core/candidate.hpp: operator==, CandidateHasher, std::hash<Candidate>", "src/utility/math.hpp: floatIsEq", "src/core/ga_base.decl.hpp: fitness_cache_"]}
{"id": "C69", "title": "Tracked metrics are found by their type", "statement": "After track(M1, M2, ...), get_metric_if<M>() gives the first tracked metric of type M in the state in which the runs since then have left it, whatever other metrics are tracked, and a null pointer exactly if no metric of this type is tracked; get_metric<M>() is defined exactly if one is. A metric that records one value per generation holds exactly the values of the last run.", "quantifier": "all sets of metrics, all histories of track() calls and runs", "why_tests_cant": "the histories of calls and the sets of user-defined metric types are unbounded", "anchors": ["src/metrics/metric_set.hpp: MetricSet, get", "src/metrics/metric_set.cpp: initialize, update", "src/core/ga_info.hpp: track, get_metric, get_metric_if", "src/utility/type_id.hpp: type_id"]}
{"id": "C70", "title": "No evaluated candidate is better than the returned solutions", "statement": "solve() returns at least one solution; the fitness of each is the true one; and no chromosome that was passed to the fitness function during the run has a fitness vector that dominates (for one objective: exceeds) that of a returned solution. With keep_all_optimal_solutions every Pareto-optimal candidate found during the run is returned.", "quantifier": "all runs: fitness functions, operators, random outcomes, schedules, initial populations, numbers of generations", "why_tests_cant": "whether the best candidate is lost depends on its position among the children in some generation of a run", "anchors": ["src/core/ga_base.impl.hpp: solve, advance, updatePopulation, updateOptimalSolutions, findNumberOfObjectives", "src/algorithm/soga_replacement.cpp: KeepChildren, Elitism, KeepBest", "src/algorithm/nsga2.cpp: nextPopulationImpl", "src/core/ga_info.hpp: keep_all_optimal_solutions"]}
{"id": "C67", "title": "Documented ideal and nadir points are right", "statement": "For each benchmark problem, no chromosome is better than ideal_point() in any objective and each of its values is attained on the Pareto front; no Pareto-optimal chromosome is worse than nadir_point() in any objective and each of its values is attained on the Pareto front.", "quantifier": "all benchmark problems, all numbers of variables and objectives, all chromosomes of the domain", "why_tests_cant": "the domain and the Pareto front are uncountable; finding the worst value on the front is an optimization problem", "anchors": ["src/problems/single_objective.cpp", "src/problems/multi_objective.cpp: Kursawe, ZDT1-ZDT6", "src/problems/many_objective.cpp: DTLZ1-DTLZ7", "src/problems/benchmark_function.hpp: ideal_point, nadir_point"]}
{"id": "C71", "title": "Dynamic fitness functions are evaluated again every time", "statement": "With a dynamic fitness function (one that may return different values for the same chromosome) and no cache, a run of n generations counts exactly population_size evaluations for the initial population and for each generation; every child gets the value the function has at that time, even if it is a copy of an evaluated parent; the fitness of every candidate and of every returned solution is a value the function had for its chromosome during the run, and in each generation it is the current value.", "quantifier": "all fitness functions that change between generations, all operators, algorithms and initial populations, all schedules of the parallel evaluation, all numbers of generations", "why_tests_cant": "a test sees a few schedules and a function that changes in one way; whether a stale value survives depends on the replacement and on the whole history", "anchors": ["src/core/ga_base.impl.hpp: evaluate, advance, initializeAlgorithm", "src/core/fitness_function.hpp: Type::Dynamic, is_dynamic", "docs/fitness-functions.md: Dynamic fitness functions, The number of objective function evaluations"]}
{"id": "C72", "title": "Changing the number of threads", "statement": "execution_threads(n) may be called between runs any number of times. Afterwards execution_threads() is max(n, 1), and all the workers run and accept tasks. No task is lost or run twice by a change, the call and the destruction of the pool wait until every task that was submitted before has been run, the library never deadlocks and every call returns if the threads are scheduled fairly. The number of threads used is the number that was asked for.", "quantifier": "all initial numbers of threads, all sequences of submissions, changes of the number of threads and the final destruction, all schedules, all fair infinite schedules", "why_tests_cant": "whether a worker exits with tasks left in its queue, or never exits, depends on the interleaving of close, take and join; a test sees a few schedules", "anchors": ["src/utility/thread_pool.hpp: execution_threads, thread_count, stop, ~thread_pool, worker_t", "src/utility/concurrent_queue.hpp: close, take, emplace", "docs/miscellaneous.md: Execution"]}
{"id": "C73", "title": "The helper functions of math.hpp are the mathematical ones", "statement": "For all vectors: euclideanNorm is the length, euclideanDistanceSq the squared distance, normalizeVector gives the vector of length 1 with the same direction (except for the zero vector), perpendicularDistanceSq is the squared distance from the point to the line through the origin, volumeBetween the volume of the box with two opposite corners in any order, mean and stdDev the mean and the standard deviation; integralSinPow(n, x) is an antiderivative of sin(x)^n for every n.", "quantifier": "all vectors of all dimensions, all exponents, all arguments", "why_tests_cant": "tests compare a few values with two digits; a wrong coefficient of a high power or in high dimensions is not seen", "anchors": ["src/utility/math.cpp: euclideanNorm, normalizeVector, euclideanDistanceSq, perpendicularDistanceSq, volumeBetween, mean, stdDev, integralSinPow", "src/utility/math.hpp"]}
{"id": "C74", "title": "Pareto fronts and solutions with the default tolerances", "statement": "With any tolerances, in particular the default ones: findParetoFront, the non-dominated sort, the merge of the solutions of the generations and solve() complete without an error; a candidate is left out of a front or of the solutions only if another candidate is better than it by more than the tolerances in some objective and nowhere definitely worse, and following such candidates always leads to a reported one, so there is at least one solution and every candidate that is not beaten is reported; and no reported candidate is dominated, within the tolerances, by another candidate. With one objective the exactly best candidate is among the solutions.", "quantifier": "all tolerances with a relative tolerance of at most one, all numbers of objectives, all fitness matrices, all schedules, all runs with any algorithm, operators and number of generations", "why_tests_cant": "dominance with tolerances is not transitive, so which candidates get lost depends on long chains of almost equal candidates over many generations, on their order and on the schedule", "anchors": ["src/utility/math.hpp: paretoCompareLess, paretoCompare, floatIsLess", "src/core/population.cpp: findParetoFront, findParetoFrontBest", "src/core/population.hpp: mergeParetoSets", "src/algorithm/nd_sort.cpp: efficientNonDominatedSort, fastNonDominatedSort", "src/algorithm/nsga2.cpp: nextPopulationImpl, optimalSolutionsImpl", "src/core/ga_base.impl.hpp: updateOptimalSolutions, solve"]}
{"id": "C75", "title": "Documented optima of the travelling salesman problems", "statement": "For each of the problems TSP52, TSP76, TSP124, TSP152, TSP226, TSP299 and TSP439, no permutation has a better fitness than optimal_value(), and some permutation has this fitness.", "quantifier": "all permutations of the cities of each of the seven problems (up to 438! of them)", "why_tests_cant": "the number of tours is far beyond enumeration, and a run of the genetic algorithm only finds some tours: that no tour is better needs a proof", "anchors": ["src/problems/travelling_salesman.hpp: TSP52, TSP76, TSP124, TSP152, TSP226, TSP299, TSP439", "src/problems/travelling_salesman.cpp: TSP::TSP, TSP::invoke", "src/problems/tsp_data/tsp_data.hpp"]}
{"id": "C76", "title": "Random choices without replacement are uniform", "statement": "When rng::sampleUnique chooses count different integers of a range, every set of count of them is equally likely; so a bit flip mutation that flips k genes gives each of the chromosomes at distance k with the same probability, a two gene swap exchanges each pair of genes with the same probability, and the range that a shift mutation moves is a random one that is moved to a random place.", "quantifier": "all ranges and counts, both sampling methods, all chromosomes, counted over all sequences of the random integers", "why_tests_cant": "tests only look at single samples: that they are in the range and without duplicates; a bias that excludes or prefers some sets is not visible in any single result", "anchors": ["src/utility/rng.hpp: sampleUnique, sampleUniqueSet", "src/mutation/binary.cpp: Flip::mutate", "src/mutation/permutation.cpp: Swap2::mutate, Shift::mutate"]}
{"id": "C77", "title": "Better candidates are never less likely to be selected", "statement": "For every population, the probability that a candidate is selected as a parent is the documented one: with roulette selection and non-negative fitness values the share of its fitness, with tournaments of t candidates ((number not better)^t - (number worse)^t) / n^t, shared equally among candidates with the same fitness; with NSGA-II and NSGA-III it grows with the number of candidates it is better than. With every built-in method a candidate is never less likely to be selected than a worse one (NSGA-III: of the same reference line), and strictly more likely with tournaments of two or more, NSGA-II and NSGA-III.", "quantifier": "all populations and fitness values, all tournament sizes, temperatures and weights, all ranks and crowding distances (rank selection: populations of two or more); probabilities over all the random outcomes", "why_tests_cant": "a single selection shows nothing about its probability; a bias in ties or at the borders of the cumulative distribution needs all random outcomes of all populations", "anchors": ["src/algorithm/soga_selection.cpp: Roulette, Tournament::selectImpl, Rank, Sigma, Boltzmann, weightsToCdf", "src/utility/rng.hpp: sampleCdf, randomIndex", "src/algorithm/nsga2.cpp: selectImpl", "src/algorithm/nsga3.cpp: selectImpl, nichedCompare"]}
{"id": "C78", "title": "Seeded runs are reproducible with any number of threads", "statement": "If the generator is seeded with the same value before each run, and the number of threads is not changed, the runs of the same GA give the same results, regardless of the number of threads and of how the threads are scheduled.", "quantifier": "all GAs, genetic operators and fitness functions (as functions that draw random numbers), all seeds, numbers of threads, pasts of the process, and schedules of the threads in the two runs, including threads that draw their first numbers during a run", "why_tests_cant": "a test sees a few schedules of one machine; the order in which the threads draw their first numbers, take their tasks and finish them varies between executions", "anchors": ["docs/miscellaneous.md: Determinism and reproducibility", "src/utility/thread_pool.hpp: execute_loop, scheduled_worker_queue, reset_scheduler", "src/utility/rng.hpp: ConcurrentXoroshiro128p::seed, RegisteredGenerator", "src/core/ga_base.impl.hpp: initializeAlgorithm, advance, solve"]}
{"id": "C79", "title": "The parameters of the selection methods control the selection pressure as documented", "statement": "Rank selection gives the worst and the best candidate the minimum and the maximum weight, and the others weights evenly spaced between these. Larger tournaments make it more likely that good candidates are selected. Smaller scaling parameters of sigma scaling emphasize the differences of the candidates, larger ones make their probabilities more equal. Lower temperatures of Boltzmann selection emphasize the differences; the probability of a candidate is proportional to exp(f / T), and the default temperature decreases from generation to generation. Roulette selection also works for negative fitness values.", "quantifier": "all populations and fitness values within the range of the type, all values of the parameters, all generations and maximum numbers of generations", "why_tests_cant": "the claims are about probabilities, for all populations and all pairs of parameter values; a test can only estimate some of them from samples", "anchors": ["src/algorithm/soga_selection.hpp: Roulette, Tournament, Rank, Sigma, Boltzmann", "src/algorithm/soga_selection.cpp: prepareSelectionsImpl, boltzmannDefaultTemp"]}
{"id": "C80", "title": "Crossovers and mutations are performed with the specified rates", "statement": "A crossover is performed with a probability equal to the crossover rate. Permutations are mutated with a probability equal to the mutation rate. In the other encodings the mutation rate is the probability of changing a gene, for each gene of a chromosome.", "quantifier": "all rates between 0 and 1, all lengths of chromosomes below 65536 and all genes of them, all outputs of the random number generator", "why_tests_cant": "the claims are about probabilities, for all rates and lengths; a test can only estimate some of them from samples, and the differences that exist are too small for this", "anchors": ["src/mutation/mutation_base.hpp: mutation_rate", "src/crossover/crossover_base.impl.hpp: operator()", "src/mutation/permutation.cpp: mutate", "src/mutation/binary.cpp: Flip", "src/mutation/real.cpp: mutate", "src/mutation/integer.cpp: Uniform", "src/utility/rng.hpp: randomReal, randomBinomial, sampleUnique"]}
{"id": "C81", "title": "The values of mutated genes have the documented distributions", "statement": "Uniform mutations of real genes choose values uniformly within the bounds, and those of integers uniformly from all other values. Boundary mutations choose both bounds with equal probability. Gauss mutations choose from a normal distribution around the old value with the documented standard deviation. Non-uniform mutations with beta 0 choose uniformly. Larger values of sigma (Gauss), eta (polynomial) and beta (non-uniform), and later generations (non-uniform), give values closer to the old ones.", "quantifier": "all bounds, chromosomes within them, parameters, generations, numbers and sets of mutated genes, and all random numbers or their distribution", "why_tests_cant": "the claims are about distributions for all parameters and bounds; tests only see samples for some of them", "anchors": ["src/mutation/real.hpp: Uniform, NonUniform, Gauss, Polynomial, Boundary", "src/mutation/real.cpp: mutate", "src/mutation/integer.hpp: Uniform", "src/mutation/integer.cpp: mutate"]}
{"id": "C82", "title": "The parameters of the real-coded crossovers have the documented effects", "statement": "The genes of the children of BLX-alpha are uniform on the documented interval, as far as the bounds allow, and larger alphas give children farther from the middle of the parents. Larger values of eta make it more likely that the children of the simulated binary crossover are far from their parents, for every distance.", "quantifier": "all parents and bounds, both children, all genes, all alphas and etas that are allowed, all distances, all random numbers of the other genes", "why_tests_cant": "the claim is a comparison of probability distributions for all parameters, parents, bounds and distances; tests only see samples for some of them", "anchors": ["src/crossover/real.hpp: BLXa, SimulatedBinary", "src/crossover/real.cpp: crossover"]}
{"id": "C83", "title": "The generation callback is called exactly once at the end of each generation and sees that generation", "statement": "A function set with on_generation_end is called exactly once for each generation of a run, in order, beginning with the initial generation, and has no influence on the run. The population, solutions, metrics and evaluation counts it sees are those at the end of this generation, and generation_cntr() is the number of this generation.", "quantifier": "all callbacks and their states, all runs of any length with any operators, algorithm, stop condition and parallel schedule", "why_tests_cant": "the claim is about every run and every callback; the code before the call and after it spans the whole generation, and a test only sees one callback and one run", "anchors": ["src/core/ga_info.hpp: on_generation_end, generation_cntr", "src/core/ga_base.impl.hpp: initializeAlgorithm, advance, solve", "docs/introduction.md: Metrics"]}
{"id": "C84", "title": "Repeated mutations can reach every chromosome of the encoding", "statement": "From every chromosome of the encoding, every other chromosome of the encoding (the same genes in another order for the permutation encoding; any genes within the bounds for the others) can be reached by repeated applications of one mutation operator, with a suitable outcome of its random draws. No mutation operator restricts the search to a part of the search space.", "quantifier": "all pairs of chromosomes of any length (below 65536 for the operators that sample positions), all mutation operators of the library with a mutation probability above 0, all valid parameters", "why_tests_cant": "reachability quantifies over all pairs of chromosomes and over all sequences of mutations of any length; a random test cannot distinguish an unreachable chromosome from an unlikely one", "anchors": ["src/mutation/permutation.cpp: Inversion, Swap2, Swap3, Shuffle, Shift", "src/mutation/binary.cpp: Flip", "src/mutation/integer.cpp: Uniform", "src/mutation/real.cpp: Uniform, NonUniform, Gauss, Polynomial, Boundary"]}
{"id": "C85", "title": "A run that is long enough finds the best solution", "statement": "For a problem with one objective and a binary, integer or permutation encoding, a default kind of mutation (Flip for bits, Uniform for integers whose bounds allow at least two values, any of the permutation mutations) with a mutation rate strictly between 0 and 1, and a replacement policy that keeps the best candidates found (KeepBest, or Elitism), the probability that all the solutions returned by solve() are global optima of the fitness function tends to one as the maximum number of generations grows, whatever the initial population, the selection and the crossover operators and their random numbers are. For real genes and the Uniform mutation, for every point within the bounds the probability of finding a solution at least as good as some point next to it, at the resolution of the random numbers, tends to one. With several objectives the same holds for finding a solution at least as good as any given one, if every child is kept for a generation and keep_all_optimal_solutions is set.", "quantifier": "all fitness functions over chromosomes of any length below 65536, all population sizes, initial populations, selections, crossovers, schedules and random outcomes of these; all mutation rates between 0 and 1; the probability is over the draws of the mutations", "why_tests_cant": "a statement about the limit of probabilities over runs of unbounded length; a finite number of runs that find or miss the optimum neither confirm nor refute it", "anchors": ["src/core/ga_base.impl.hpp: solve, advance", "src/mutation/binary.cpp: Flip", "src/mutation/integer.cpp: Uniform", "src/mutation/permutation.cpp: Inversion, Swap2, Swap3, Shuffle, Shift", "src/mutation/real.cpp: Uniform", "src/utility/rng.hpp: randomBinomial, sampleUnique", "src/algorithm/soga_replacement.cpp: KeepChildren, Elitism, KeepBest"]}
{"id": "C86", "title": "Infinite and negative fitness values", "statement": "The default selection methods support every fitness value other than NaN, negative and infinite ones too: the tournament of the single-objective algorithm returns the best of the drawn candidates, rank selection weights the candidates by their ranks, and the multi-objective algorithms NSGA-II and NSGA-III choose a legal next population, by whole fronts, by the same criteria as for moderate finite values, and without undefined behaviour. For finite values that are not huge NSGA-III keeps the ideal point, the extreme points and the nadir point of the pool, associates each candidate with the closest reference line and stores its squared distance from that line, all up to rounding errors, and its selection compares the ranks and the distances of the candidates of a line. This holds after every generation of a run: the ideal point is exactly the best value of each objective among all the candidates of the run, and the rounding errors of the generations do not add up.", "quantifier": "all fitness vectors and matrices of binary64 values without NaN, all population sizes, all draws, all results of the unstable sorts, all choices of the compiler in evaluating divisions, sums and products", "why_tests_cant": "the tests use small finite values; rounding, overflow and infinities change the arithmetic for a few of the 2^64 values of each element of a matrix of any size", "anchors": ["docs/fitness-functions.md: Numeric issues", "src/algorithm/soga_selection.cpp: Tournament::selectImpl, Rank", "src/algorithm/nsga2.cpp: crowdingDistances, nextPopulationImpl", "src/algorithm/nsga3.cpp: normalizeFitnessVec, associatePopWithRefs, nextPopulationImpl", "src/utility/math.cpp: perpendicularDistanceSq"]}
{"id": "C87", "title": "Population statistics in floating-point arithmetic", "statement": "The fitness metrics are what their names say for the values of the type double: the minimum and the maximum are the least and the greatest value of each objective, infinities included; the mean is within rounding errors (about 2n units in the last place of the mean magnitude) of the exact mean and between the least and the greatest value; the variance is never negative, is zero for one candidate and for equal values, and is within rounding errors of the exact sample variance; the standard deviation is its square root.", "quantifier": "all populations of up to 2^46 candidates with any number of objectives and any binary64 fitness values without NaN, both ways of evaluating a product followed by a sum, every square root function that rounds correctly", "why_tests_cant": "the tests compare a few small integer values with a tolerance; the rounding errors depend on every value, on their order and on the size of the population", "anchors": ["src/metrics/pop_stats.cpp: minFitness, maxFitness, fitnessMean, fitnessVariance, fitnessStdDev", "src/utility/algorithm.hpp: elementwise_min, elementwise_max", "src/metrics/fitness_metrics.cpp: FitnessMin, FitnessMax, FitnessMean, FitnessStdDev"]}
{"id": "C88", "title": "Function wrappers", "statement": "A move-only function variable behaves as a variable that holds a callable or nothing: a call runs the callable that was stored last, with the state that the earlier calls left and the same result or exception; a moved-from or default variable is empty, tests false and may not be called; a failed construction or assignment leaves the variable as it was; every callable given to a wrapper is destroyed exactly once and nothing is leaked. A call of a function reference is a call of the object it refers to.", "quantifier": "all programs of declarations, conversions (failing or not), moves (self-moves included), swaps, tests, calls (throwing or not) and destructions of any number of wrappers, all callables", "why_tests_cant": "ownership must be right for every order of moves, assignments, failures and destructions; the tests call a few wrappers once", "anchors": ["src/utility/functional.hpp: move_only_function, function_ref"]}
{"id": "C89", "title": "The hypervolume is the dominated volume in spite of the tolerances of comparisons", "statement": "With the tolerances of the library (also the default ones) the hypervolume of a set of points is the volume that they dominate, up to an error that vanishes with the tolerance: it does not depend on the schedule or on the order of equal points, it is exact if the values of the points are further apart than the tolerance, and a better set of points does not have a lower hypervolume.", "quantifier": "all tolerances, all finite point sets in any dimension above the reference point, all schedules and results of the unstable sort (exact arithmetic)", "why_tests_cant": "the error comes from comparisons within the tolerance at any depth of the recursion; a test samples a few point sets, most of which are far apart", "anchors": ["src/metrics/pop_stats.cpp: hypervolume (both), exclusiveHypervolume, limitSet, uniqueSortedParetoFront", "src/core/population.cpp: findParetoFrontSort", "src/utility/math.cpp: paretoCompareLess", "src/utility/math.hpp: Tolerances"]}
{"id": "C90", "title": "Circular buffers own their memory, also when calls throw", "statement": "Circular buffers can be constructed, copied, moved, assigned (to themselves too), swapped, modified and destroyed in any order, and any of these calls may run out of memory or fail to copy an element. Each variable then holds what an ideal bounded deque holds, a call that throws changes nothing, two variables never share memory, all memory and all elements are freed exactly once, and the program is not terminated.", "quantifier": "all programs over any number of buffers, all capacities and elements, all points of failure in each call, elements that can and cannot be moved without exceptions", "why_tests_cant": "the failure can be at any allocation or element of any call, and its damage may show only when a buffer is destroyed later; the tests never make a call fail", "anchors": ["src/utility/circular_buffer.hpp: circular_buffer (constructors, operator=, swap, push_front, set_capacity, reset, destroy)", "src/utility/small_vector.hpp: allocate, deallocate, construct_range, destroy_range", "src/utility/scope_exit.hpp: scope_exit"]}
{"id": "C91", "title": "Small vectors own their memory, also when calls throw", "statement": "Small vectors can be constructed (from copies, ranges, input ranges, other vectors), appended to, reserved, shrunk, resized, assigned, move assigned, swapped, inserted into, erased from, cleared and destroyed in any order, and any of these calls may run out of memory or fail to copy an element. If push_back, reserve, shrink_to_fit or a constructor throws, an insertion at the end or into a full vector, or a swap with a vector that is not in its inline buffer, nothing has changed; if resize throws, the elements have not changed; if an assignment throws, the vector holds a prefix of the new elements and the rest of the old ones. If moving an element never throws, neither do moves, swap and erase. No memory and no element is shared, leaked or freed twice.", "quantifier": "all programs over any number of vectors, all inline capacities and elements, all points of failure in each call, elements that can and cannot be moved without exceptions", "why_tests_cant": "the failure can be at any allocation or element of any call, inline or allocated, and its damage may show only later; the tests never make a call fail", "anchors": ["src/utility/small_vector.hpp: small_vector (constructors, destructor, assign, operator=, reserve, shrink_to_fit, clear, reset, push_back, resize, emplace, erase, swap)", "src/utility/small_vector.hpp: construct_range, relocate_range_strong, relocate_range_weak, reallocate_n, reallocate_append, reallocate_emplace", "src/utility/scope_exit.hpp: scope_exit"]}
{"id": "C92", "title": "Fitness caches are independent values, also when calls throw", "statement": "Caches can be constructed, copied, moved, assigned, swapped, filled, cleared, reset and destroyed in any order, and any of these calls may run out of memory or fail to copy a key or value. Each cache behaves like a FIFO map of its own: a copy has the same elements, capacity and order of eviction and does not depend on the original afterwards. If a constructor, a copy, an assignment or the insertion of a new key throws, nothing has changed; if the insertion of a range throws, a part of it is inserted; after any exception the cache can still be used and destroyed. Two caches are equal if they have the same elements in the same order.", "quantifier": "all programs over any number of caches, all keys, values and capacities, all points of failure in each call, all numbers of buckets the standard library may choose", "why_tests_cant": "the cache keeps iterators into a hash table, which dangle silently if a copy, a rehash or a failed call leaves them behind; the tests make no call fail and cannot see a dangling iterator", "anchors": ["src/utility/cache.hpp: fifo_cache (constructors, operator=, swap, insert, try_insert, clear, reset, operator==)", "src/utility/circular_buffer.hpp: circular_buffer::reset, push_back", "src/core/ga_base.impl.hpp: GA::initializeAlgorithm"]}
{"id": "C93", "title": "The reference lines of NSGA-III are accurate in floating-point arithmetic", "statement": "In binary64 arithmetic, every point of the quasi-random sequence has coordinates that are at least 0 and less than 1, however many points are drawn, and the point number k differs from the ideal sequence (seed plus k times the step size, modulo 1) by at most k times 2^-52; the step sizes are the inverse powers of the base up to rounding. The mappings from the cube to the simplex end for every point, also if rounding disturbs the comparisons, and return points with nonnegative coordinates whose sum is 1 up to rounding. The sparse subset has the requested number of the candidates, and each of them was one of the furthest from those picked before it, up to rounding. The reference lines are unit vectors up to rounding, in the requested number and dimension, and are good enough for every solution to be assigned to a line that is closest up to rounding.", "quantifier": "all dimensions up to 2^40, all seeds, all numbers of points, all points of the unit cube that doubles can represent, all square roots and powers with the accuracy the standard requires, all orders in which the parallel sums may be added, with and without fused multiply-add and reciprocals", "why_tests_cant": "the mirror mapping exchanges coordinates until they are in order and its termination depends on how every sum is rounded; errors add up along the sequence, and coordinates slightly below 0 appear only for a few points among 2^53 per coordinate", "anchors": ["src/utility/qrng.hpp: QuasiRandom (constructor, operator(), phi)", "src/algorithm/reference_lines.cpp: simplexMappingSort, simplexMappingMirror, simplexMappingRoot, simplexMappingLog, quasirandomSimplexPoints, pickSparseSubset", "src/algorithm/nsga3.cpp: generateReferencePoints, initializeImpl", "src/utility/math.cpp: normalizeVector, euclideanDistanceSq"]}
{"id": "C94", "title": "The fitness cache spares the chromosomes of the last generations", "statement": "With cache_size(n), n > 0, and a fitness function that is not dynamic, a chromosome that was in the population of one of the last n generations is not passed to the fitness function again.", "quantifier": "all runs: fitness functions, operators, algorithms, population sizes, cache sizes, random outcomes, schedules, numbers of generations", "why_tests_cant": "which entries the cache still has depends on the populations of all the earlier generations and on the order of their candidates", "anchors": ["src/core/ga_base.impl.hpp: initializeAlgorithm, updatePopulation, evaluate, advance", "src/core/ga_base.decl.hpp: cache_size", "src/utility/cache.hpp: fifo_cache::insert, fifo_cache::get", "docs/fitness-functions.md: cache_size"]}
{"id": "C95", "title": "Rows of matrices are compared and swapped as sequences", "statement": "Two rows, of the same matrix or of different ones, compare equal exactly if they have the same length and equal elements; a row compares equal to a vector exactly if the vector has the same length and equal elements; swapping a row with another sequence of the same length exchanges all of their elements and leaves the other rows alone.", "quantifier": "all matrices built by programs with at least one column, element types with their ==, rows, vectors", "why_tests_cant": "loops over all columns with a shortcut for identical rows, for every content including values that are not equal to themselves", "anchors": ["src/utility/matrix.hpp: MatrixRowBase::operator==, MatrixRowRef::swap"]}
{"id": "C96", "title": "Crossovers of equal parents return the parents", "statement": "The crossover is skipped if both parents have the same chromosome, which cannot be noticed: for every crossover method of the library and every random draw, the children of two equal parents would be equal to the parents.", "quantifier": "all crossover methods of all encodings, chromosomes of any length, parameters and random draws", "why_tests_cant": "the claim ranges over all chromosomes, all draws and all floating-point values; the exceptions are rounding errors that random tests hardly ever hit", "anchors": ["src/crossover/crossover_base.impl.hpp: Crossover::operator()", "src/crossover/crossover_impl.hpp", "src/crossover/real.cpp"]}
{"id": "C97", "title": "The number of fitness evaluations is bounded by the population size and the generations", "statement": "As the documentation of the fitness functions says, a run calls the fitness function at most population_size * generations times: num_fitness_evals() is at most the population size times the number of generations performed, the initial one included, and hence at most the population size times max_gen; each generation adds at most the population size.", "quantifier": "all runs: fitness functions, operators, algorithms, cache sizes, comparisons of genes, random outcomes, schedules, numbers of generations", "why_tests_cant": "the counter is incremented concurrently over histories of any length, with any schedule and cache contents", "anchors": ["docs/fitness-functions.md", "src/core/ga_base.impl.hpp: evaluate, advance, solve", "src/core/ga_info.hpp: num_fitness_evals"]}
