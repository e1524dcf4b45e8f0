{
 "claims": [
  {
   "property": "C01",
   "status": "proved",
   "theorems": [
    "Gapp.Props.C01_circular_buffer_is_bounded_deque",
    "Gapp.Props.C01_of_range_keeps_last"
   ],
   "note": ""
  },
  {
   "property": "C02",
   "status": "proved",
   "theorems": [
    "Gapp.Props.C02_set_capacity_keeps_oldest"
   ],
   "note": ""
  },
  {
   "property": "C03",
   "status": "proved",
   "theorems": [
    "Gapp.Props.C03_fifo_cache_is_bounded_fifo_map",
    "Gapp.Props.C03_copy_is_equal",
    "Gapp.Props.C03_get_returns_latest",
    "Gapp.Props.C03_fresh_key_survives"
   ],
   "note": ""
  },
  {
   "property": "C04",
   "status": "partial",
   "theorems": [
    "Gapp.Props.C04_bitset_is_bit_sequence_partial",
    "Gapp.Props.C04_bitset_queries",
    "Gapp.Props.C04_bitset_equality",
    "Gapp.Props.C04_empty_bitset_queries_undefined"
   ],
   "note": "Every history of constructions, assignments, flips, complements and safe resizes refines a bit sequence. Missing because the code violates it: growing from a partially filled block into new blocks (C05), and popcount/any/all/== on an empty bitset, which read out of range."
  },
  {
   "property": "C05",
   "status": "partial",
   "theorems": [
    "Gapp.Props.C05_resize_violated",
    "Gapp.Props.C05_resize_partial",
    "Gapp.Props.C05_resize_general"
   ],
   "note": "The full statement is false of the code: C05_resize_violated is the witness. C05_resize_partial covers the resizes that do work, C05_resize_general says exactly which bits can be wrong."
  },
  {
   "property": "C06",
   "status": "proved",
   "theorems": [
    "Gapp.Props.C06_float_comparison_trichotomy",
    "Gapp.Props.C06_float_comparison_laws",
    "Gapp.Props.C06_zero_tolerance_is_exact"
   ],
   "note": ""
  },
  {
   "property": "C07",
   "status": "partial",
   "theorems": [
    "Gapp.Props.C07_pareto_compare",
    "Gapp.Props.C07_less_is_dominance_partial",
    "Gapp.Props.C07_dominance_implies_less",
    "Gapp.Props.C07_less_disagrees",
    "Gapp.Props.C07_exact_dominance_is_strict_partial_order",
    "Gapp.Props.C07_tolerant_dominance_not_transitive"
   ],
   "note": "Everything but the agreement of paretoCompareLess with paretoCompare for negative values and a relative tolerance, which is false of the code (witness C07_less_disagrees)."
  },
  {
   "property": "C08",
   "status": "proved",
   "theorems": [
    "Gapp.Props.C08_pareto_front_exact",
    "Gapp.Props.C08_pareto_front_implementations_agree",
    "Gapp.Props.C08_pareto_front_single_objective"
   ],
   "note": "For the exact comparison (zero tolerances), where dominance is a partial order; the single objective front is proved for tolerances with rel <= 1."
  },
  {
   "property": "C09",
   "status": "proved",
   "theorems": [
    "Gapp.Props.C09_merge_pareto_sets",
    "Gapp.Props.C09_merged_set_is_pareto",
    "Gapp.Props.C09_merge_completes"
   ],
   "note": "Exact comparison, every interleaving of the parallel loop with atomic accesses."
  },
  {
   "property": "C10",
   "status": "proved",
   "theorems": [
    "Gapp.Props.C10_nd_sort_exact",
    "Gapp.Props.C10_nd_sorts_agree"
   ],
   "note": "Exact comparison; every result of the unstable sorts and every order of the stores of the parallel phase."
  },
  {
   "property": "C11",
   "status": "proved",
   "theorems": [
    "Gapp.Props.C11_front_bookkeeping",
    "Gapp.Props.C11_partial_front"
   ],
   "note": ""
  },
  {
   "property": "C12",
   "status": "proved",
   "theorems": [
    "Gapp.Props.C12_npoint",
    "Gapp.Props.C12_single_point",
    "Gapp.Props.C12_two_point",
    "Gapp.Props.C12_uniform",
    "Gapp.Props.C12_operators",
    "Gapp.Props.C12_npoint_repeated",
    "Gapp.Props.C12_two_point_repeated"
   ],
   "note": "All gene types, lengths, points and draws. The order of the two children differs between n-point and two-point. Crossovers with several points are shown to be repeated single-point crossovers, as documented."
  },
  {
   "property": "C13",
   "status": "proved",
   "theorems": [
    "Gapp.Props.C13_order1",
    "Gapp.Props.C13_order2",
    "Gapp.Props.C13_overloads_agree",
    "Gapp.Props.C13_operators"
   ],
   "note": ""
  },
  {
   "property": "C14",
   "status": "proved",
   "theorems": [
    "Gapp.Props.C14_position",
    "Gapp.Props.C14_overloads_and_operator"
   ],
   "note": ""
  },
  {
   "property": "C15",
   "status": "proved",
   "theorems": [
    "Gapp.Props.C15_cycle",
    "Gapp.Props.C15_overloads_and_operator"
   ],
   "note": ""
  },
  {
   "property": "C16",
   "status": "partial",
   "theorems": [
    "Gapp.Props.C16_edge_partial",
    "Gapp.Props.C16_edge_unsigned_partial",
    "Gapp.Props.C16_operator_partial",
    "Gapp.Props.C16_neighbour_may_be_skipped"
   ],
   "note": "Permutation, first gene and the exact choice rule are proved for both overloads; the claim that a neighbour is taken whenever an unused one exists is false of the code (counterexample proved)."
  },
  {
   "property": "C17",
   "status": "proved",
   "theorems": [
    "Gapp.Props.C17_pmx",
    "Gapp.Props.C17_overloads_and_operator"
   ],
   "note": ""
  },
  {
   "property": "C18",
   "status": "proved",
   "theorems": [
    "Gapp.Props.C18_no_crossover",
    "Gapp.Props.C18_children_flags",
    "Gapp.Props.C18_children_chromosomes",
    "Gapp.Props.C18_children_truthful",
    "Gapp.Props.C18_real_genes_approximate"
   ],
   "note": "Arbitrary crossover methods. For real genes the comparison is tolerant, as the property says; C18_real_genes_approximate shows the effect."
  },
  {
   "property": "C19",
   "status": "partial",
   "theorems": [
    "Gapp.Props.C19_inversion",
    "Gapp.Props.C19_swap2",
    "Gapp.Props.C19_swap3",
    "Gapp.Props.C19_shuffle",
    "Gapp.Props.C20_shift_partial",
    "Gapp.Props.C19_flip",
    "Gapp.Props.C19_int_uniform_partial",
    "Gapp.Props.C19_int_uniform_returns_partial",
    "Gapp.Props.C19_int_uniform_never_returns",
    "Gapp.Props.C19_int_uniform_hangs",
    "Gapp.Props.C19_real_uniform",
    "Gapp.Props.C19_real_nonuniform",
    "Gapp.Props.C19_real_gauss",
    "Gapp.Props.C19_real_polynomial",
    "Gapp.Props.C19_real_boundary",
    "Gapp.Props.C19_real_gene_rules"
   ],
   "note": "All built-in mutations. The integer uniform mutation never returns for a gene with only one allowed value (C19_int_uniform_hangs); otherwise proved. Values of the power function are arbitrary. C61 proves the bounds in binary64 arithmetic."
  },
  {
   "property": "C20",
   "status": "partial",
   "theorems": [
    "Gapp.Props.C20_shift_partial",
    "Gapp.Props.C20_shift_violated"
   ],
   "note": "Holds when the range is shorter than the chromosome; violated for range_max = 1."
  },
  {
   "property": "C21",
   "status": "partial",
   "theorems": [
    "Gapp.Props.C21_mutation_flags",
    "Gapp.Props.C21_mutation_truthful_partial",
    "Gapp.Props.C21_mutation_changed_partial",
    "Gapp.Props.C21_real_genes_approximate",
    "Gapp.Props.C21_repair",
    "Gapp.Props.C21_no_repair",
    "Gapp.Props.C21_repair_truthful"
   ],
   "note": "Full for discrete genes and for the repair step. False for real genes with nonzero tolerances: a slightly changed chromosome keeps the old fitness (C21_real_genes_approximate)."
  },
  {
   "property": "C22",
   "status": "partial",
   "theorems": [
    "Gapp.Props.C22_population_invariant_partial",
    "Gapp.Props.C22_population_invariant_approximate",
    "Gapp.Props.C22_progress",
    "Gapp.Props.C22_initial_flags_trusted",
    "Gapp.Props.C22_real_genes_stale",
    "Gapp.Props.C22_dynamic_with_cache_fails",
    "Gapp.Props.C22_progress_any_genes",
    "Gapp.Props.C22_real_genes_drift",
    "Gapp.Props.C22_real_genes_drift_unbounded"
   ],
   "note": "Proved for exactly compared genes (bits, integers, permutations), for all operators, algorithms meeting the contract, schedules, cache sizes and generations; false for real genes (approximate comparison), for user-supplied candidates with wrong evaluated flags, and for dynamic fitness functions with a cache size > 0 (assertion). The model's cache compares keys exactly. The tolerances of successive mutations add up (C22_real_genes_drift), without any bound (C22_real_genes_drift_unbounded)."
  },
  {
   "property": "C23",
   "status": "partial",
   "theorems": [
    "Gapp.Props.C23_solutions_last_population",
    "Gapp.Props.C23_solutions_all_populations_partial",
    "Gapp.Props.C23_solutions_mutually_nondominated",
    "Gapp.Props.C23_duplicates_without_generations",
    "Gapp.Props.C23_solutions_any_genes_partial"
   ],
   "note": "Proved for exact comparison; with keep_all_optimal_solutions a run of only the initial generation can return duplicates (witness). C23_solutions_any_genes_partial is what remains for genes compared with tolerances, in terms of the stored fitness."
  },
  {
   "property": "C24",
   "status": "proved",
   "theorems": [
    "Gapp.Props.C24_stops",
    "Gapp.Props.C24_ends",
    "Gapp.Props.C24_max_gen_restored",
    "Gapp.Props.C24_stops_any_genes",
    "Gapp.Props.C24_ends_any_genes"
   ],
   "note": "C24_ends has the loop end for every stop condition; the restore of max_gen is proved for arbitrary rest of the body including exceptions. The _any_genes theorems hold for every comparison of the genes, also the one with tolerances of the real encoding."
  },
  {
   "property": "C25",
   "status": "partial",
   "theorems": [
    "Gapp.Props.C25_evaluation_count_partial",
    "Gapp.Props.C25_evaluated_once",
    "Gapp.Props.C25_evaluation_completes",
    "Gapp.Props.C25_probe_not_counted",
    "Gapp.Props.C25_evaluation_count_any_genes_partial"
   ],
   "note": "The call that finds the number of objectives is not counted (witness); all other calls are, for all schedules. Also for every comparison of the genes."
  },
  {
   "property": "C26",
   "status": "proved",
   "theorems": [
    "Gapp.Props.C26_stops_at_max_gen",
    "Gapp.Props.C26_formula",
    "Gapp.Props.C26_formula_stateful",
    "Gapp.Props.C26_every_leaf_evaluated_partial",
    "Gapp.Props.C26_leaf_skipped",
    "Gapp.Props.C26_initialize",
    "Gapp.Props.C26_fitness_evals"
   ],
   "note": "C26_leaf_skipped is the negative part of the property; C26_every_leaf_evaluated_partial says for which trees it does not happen."
  },
  {
   "property": "C27",
   "status": "partial",
   "theorems": [
    "Gapp.Props.C27_stall_partial",
    "Gapp.Props.C27_best_stall_partial",
    "Gapp.Props.C27_mean_stall_partial",
    "Gapp.Props.C27_set_patience_partial",
    "Gapp.Props.C27_patience_max_violated",
    "Gapp.Props.C27_initialize_forgets",
    "Gapp.Props.C27_first_generation",
    "Gapp.Props.C27_delta_not_positive"
   ],
   "note": "The full claim for every patience except the largest size_t, for which the counter wraps around and the condition stops in every generation. Mean: finite fitness values, exact arithmetic."
  },
  {
   "property": "C28",
   "status": "partial",
   "theorems": [
    "Gapp.Props.C28_stops_iff_not_dominated",
    "Gapp.Props.C28_stops_when_reached",
    "Gapp.Props.C28_one_objective_partial",
    "Gapp.Props.C28_violated"
   ],
   "note": "Holds for one objective; with several objectives the condition also stops on incomparable vectors. Exact comparison."
  },
  {
   "property": "C29",
   "status": "partial",
   "theorems": [
    "Gapp.Props.C29_roulette",
    "Gapp.Props.C29_sigma",
    "Gapp.Props.C29_sigma_weights",
    "Gapp.Props.C29_boltzmann",
    "Gapp.Props.C29_tournament",
    "Gapp.Props.C29_rank_partial",
    "Gapp.Props.C29_rank_single",
    "Gapp.Props.C29_zero_weight",
    "Gapp.Props.C29_sampled_index_in_range",
    "Gapp.Props.C29_double_weights_partial",
    "Gapp.Props.C29_double_roulette_partial",
    "Gapp.Props.C29_double_rank_partial",
    "Gapp.Props.C29_double_sigma_partial",
    "Gapp.Props.C29_double_boltzmann_partial",
    "Gapp.Props.C29_double_tiny_weights",
    "Gapp.Props.C29_double_tiny_fitness",
    "Gapp.Props.C29_double_rank_single",
    "Gapp.Props.C29_random_real"
   ],
   "note": "In exact arithmetic, and in binary64 arithmetic with an explicit bound of the error of the probabilities. Rank selection with one candidate computes 0/0 (C29_rank_single), the rest is proved for two or more candidates. The binary64 theorems require that some weight is at least 2^-1022 or all are 0; C29_double_tiny_weights shows that it fails otherwise. Sigma and Boltzmann selection always meet it (Boltzmann: unless the normalization is contracted to a fused operation)."
  },
  {
   "property": "C30",
   "status": "partial",
   "theorems": [
    "Gapp.Props.C30_keep_children",
    "Gapp.Props.C30_elitism_legal",
    "Gapp.Props.C30_elitism_keeps_best",
    "Gapp.Props.C30_keep_best_legal",
    "Gapp.Props.C30_keep_best",
    "Gapp.Props.C30_elitism_best_never_decreases_partial",
    "Gapp.Props.C30_keep_best_never_decreases_partial",
    "Gapp.Props.C30_best_within_tolerance",
    "Gapp.Props.C30_tolerance_may_lose_best",
    "Gapp.Props.C30_run_best_never_decreases_partial"
   ],
   "note": "With tolerances the best fitness may decrease by up to the tolerance in a generation (witness); with exact comparison it never decreases."
  },
  {
   "property": "C31",
   "status": "partial",
   "theorems": [
    "Gapp.Props.C31_replacement",
    "Gapp.Props.C31_initialize",
    "Gapp.Props.C31_selection",
    "Gapp.Props.C31_initial_selection_partial",
    "Gapp.Props.C31_selection_rank",
    "Gapp.Props.C31_optimal_solutions",
    "Gapp.Props.C31_selection_misaligned",
    "Gapp.Props.C31_run"
   ],
   "note": "Replacement (whole fronts first, crowding distance in the split front) and ranks are proved. Pairing of the stored distances with candidates holds after initialization only; after a replacement it is violated (witness C31_selection_misaligned)."
  },
  {
   "property": "C32",
   "status": "partial",
   "theorems": [
    "Gapp.Props.C32_replacement",
    "Gapp.Props.C32_ideal_point",
    "Gapp.Props.C32_association",
    "Gapp.Props.C32_niching_partial",
    "Gapp.Props.C32_niching_violated",
    "Gapp.Props.C32_optimal_solutions",
    "Gapp.Props.C32_initialize",
    "Gapp.Props.C32_selection",
    "Gapp.Props.C32_run"
   ],
   "note": "The replacement, the association and the selection are proved for every pool, set of reference lines and random outcome. The niching is partial: a round can choose a member of another line than the one it draws (C32_niching_violated)."
  },
  {
   "property": "C33",
   "status": "proved",
   "theorems": [
    "Gapp.Props.C33_hypervolume",
    "Gapp.Props.C33_seq_par",
    "Gapp.Props.C33_same_front",
    "Gapp.Props.C33_monotone",
    "Gapp.Props.C33_metric"
   ],
   "note": "Exact arithmetic and comparison, finite values."
  },
  {
   "property": "C34",
   "status": "partial",
   "theorems": [
    "Gapp.Props.C34_auto_hypervolume_partial",
    "Gapp.Props.C34_violated",
    "Gapp.Props.C34_violated_model"
   ],
   "note": "False with three or more objectives (C34_violated). Proved: exact with at most two objectives and for the generations since the last change of the reference point; never too small."
  },
  {
   "property": "C35",
   "status": "partial",
   "theorems": [
    "Gapp.Props.C35_sample_unique_partial",
    "Gapp.Props.C35_every_subset_occurs_partial",
    "Gapp.Props.C35_huge_range_duplicates",
    "Gapp.Props.C35_huge_range_in_bounds_partial"
   ],
   "note": "Proved for ranges below 65536 values. For larger ranges the statement is false of the code (C35_huge_range_duplicates); count and bounds still hold there."
  },
  {
   "property": "C36",
   "status": "partial",
   "theorems": [
    "Gapp.Props.C36_random_real_double_partial",
    "Gapp.Props.C36_random_real_double_onto",
    "Gapp.Props.C36_random_real_float_violated",
    "Gapp.Props.C36_random_real_long_double_undefined",
    "Gapp.Props.C36_random_real_in_range_partial",
    "Gapp.Props.C36_double_range_partial",
    "Gapp.Props.C36_double_upper_bound",
    "Gapp.Props.C36_double_overflow"
   ],
   "note": "randomReal() proved for double, exactly; false for float and undefined for x86 long double (witnesses). randomReal(l,u) is in [l,u] in binary64 arithmetic if u-l does not overflow (C36_double_range_partial); it can return u, although documented as half-open (C36_double_upper_bound), and an infinity or NaN if u-l overflows (C36_double_overflow)."
  },
  {
   "property": "C37",
   "status": "proved",
   "theorems": [
    "Gapp.Props.C37_jump_is_2_pow_96_steps",
    "Gapp.Props.C37_never_zero",
    "Gapp.Props.C37_period",
    "Gapp.Props.C37_full_period",
    "Gapp.Props.C37_thread_streams_disjoint"
   ],
   "note": "For all states, seeds and histories of registrations, ends of threads and draws."
  },
  {
   "property": "C38",
   "status": "proved",
   "theorems": [
    "Gapp.Props.C38_seed_determines_outputs",
    "Gapp.Props.C38_seed_keeps_threads",
    "Gapp.Props.C38_runs_reproducible",
    "Gapp.Props.C38_late_registration"
   ],
   "note": "The normal and Poisson distributions of the standard library are opaque; reset() is assumed to be equivalent to a fresh distribution with the same parameters, as the standard requires."
  },
  {
   "property": "C39",
   "status": "proved",
   "theorems": [
    "Gapp.Props.C39_blocks",
    "Gapp.Props.C39_at_most_once",
    "Gapp.Props.C39_exactly_once",
    "Gapp.Props.C39_queues",
    "Gapp.Props.C39_assignment",
    "Gapp.Props.C39_total"
   ],
   "note": "the queue assignment as a function of the loop sizes is stated for one submitting thread without nesting; in general each task goes to the queue of its turn"
  },
  {
   "property": "C40",
   "status": "proved",
   "theorems": [
    "Gapp.Props.C40_fair_runs_finish",
    "Gapp.Props.C40_no_deadlock",
    "Gapp.Props.C40_all_return"
   ],
   "note": "all nestings, thread counts, block sizes and schedules; the pool is not stopped while loops run"
  },
  {
   "property": "C41",
   "status": "partial",
   "theorems": [
    "Gapp.Props.C41_exception_reaches_caller",
    "Gapp.Props.C41_only_thrown_exceptions",
    "Gapp.Props.C41_no_task_after_return_partial",
    "Gapp.Props.C41_no_use_after_free_partial",
    "Gapp.Props.C41_safe_without_exceptions",
    "Gapp.Props.C41_caller_exception_leaves_tasks"
   ],
   "note": "false when the body throws in the block of the caller: parallel_for then leaves without waiting for the submitted tasks (C41_caller_exception_leaves_tasks)"
  },
  {
   "property": "C42",
   "status": "proved",
   "theorems": [
    "Gapp.Props.C42_fifo",
    "Gapp.Props.C42_exactly_once",
    "Gapp.Props.C42_no_lost_wakeup",
    "Gapp.Props.C42_take_served",
    "Gapp.Props.C42_waits_only_when_empty"
   ],
   "note": "critical sections are atomic steps; any number of threads, spurious wake-ups included"
  },
  {
   "property": "C43",
   "status": "proved",
   "theorems": [
    "Gapp.Props.C43_spinlock_mutual_exclusion",
    "Gapp.Props.C43_spinlock_acquired_when_free",
    "Gapp.Props.C43_spinlock_free_is_acquired",
    "Gapp.Props.C43_spinlock_try_lock_fails",
    "Gapp.Props.C43_shared_mutual_exclusion",
    "Gapp.Props.C43_shared_acquired_when_free",
    "Gapp.Props.C43_shared_readers_acquire",
    "Gapp.Props.C43_shared_writer_acquires"
   ],
   "note": "all interleavings of the atomic operations; 32-bit counter"
  },
  {
   "property": "C44",
   "status": "partial",
   "theorems": [
    "Gapp.Props.C44_no_use_after_free_partial",
    "Gapp.Props.C44_grace_period_partial",
    "Gapp.Props.C44_times",
    "Gapp.Props.C44_freed_once_partial",
    "Gapp.Props.C44_new_readers_do_not_block",
    "Gapp.Props.C44_synchronize_returns",
    "Gapp.Props.C44_nested_sections_use_after_free",
    "Gapp.Props.C44_store_buffer_use_after_free",
    "Gapp.Props.C44_not_reading",
    "Gapp.Props.C44_read_lock_announces",
    "Gapp.Props.C44_flush_keeps_last"
   ],
   "note": "proved under sequential consistency when the read sections of a thread do not overlap; refuted for overlapping sections of one thread and with store buffers"
  },
  {
   "property": "C45",
   "status": "partial",
   "theorems": [
    "Gapp.Props.C45_refines_vector_partial",
    "Gapp.Props.C45_elements",
    "Gapp.Props.C45_destructor",
    "Gapp.Props.C45_equality",
    "Gapp.Props.C45_reserve",
    "Gapp.Props.C45_pop_back_undefined",
    "Gapp.Props.C45_insert_range_position",
    "Gapp.Props.C45_insert_copies_position",
    "Gapp.Props.C45_insert_is_not_vector_insert",
    "Gapp.Props.C45_resize_own_element_undefined",
    "Gapp.Props.C45_insert_own_element_wrong",
    "Gapp.Props.C45_range_of_smaller_elements_undefined"
   ],
   "note": "Refinement to std::vector with exactly-once construction and destruction for all programs that avoid pop_back of non-trivial elements, multi-element inserts with a longer tail, own elements as arguments of resize and insert with count; each of these is shown to fail."
  },
  {
   "property": "C46",
   "status": "proved",
   "theorems": [
    "Gapp.Props.C46_refines_table",
    "Gapp.Props.C46_write_changes_one_element",
    "Gapp.Props.C46_equality",
    "Gapp.Props.C46_zero_columns_lose_rows",
    "Gapp.Props.C46_resize_columns_moves_elements",
    "Gapp.Props.C46_resize_keeps_order"
   ],
   "note": "Programs of matrix operations refine tables with rows of at least one element; rows of zero columns and resize to other column counts are shown apart."
  },
  {
   "property": "C47",
   "status": "partial",
   "theorems": [
    "Gapp.Props.C47_build_partial",
    "Gapp.Props.C47_build_reserved",
    "Gapp.Props.C47_build_violated",
    "Gapp.Props.C47_find_partial",
    "Gapp.Props.C47_find_empty"
   ],
   "note": "The search is right for every tree that is built. The construction is proved for a capacity of the vector of nodes of at least 2(n-8)+1 and so always for up to 10 points; with the reserved capacity it has undefined behaviour for 11 or more equal points (C47_build_violated)."
  },
  {
   "property": "C48",
   "status": "proved",
   "theorems": [
    "Gapp.Props.C48_argsort",
    "Gapp.Props.C48_argsort_total",
    "Gapp.Props.C48_partial_argsort",
    "Gapp.Props.C48_lower_bound",
    "Gapp.Props.C48_lower_bound_in_range",
    "Gapp.Props.C48_max_element",
    "Gapp.Props.C48_min_element",
    "Gapp.Props.C48_argmax",
    "Gapp.Props.C48_argmin",
    "Gapp.Props.C48_partial_shuffle_perm",
    "Gapp.Props.C48_partial_shuffle_uniform",
    "Gapp.Props.C48_find_all",
    "Gapp.Props.C48_find_indices",
    "Gapp.Props.C48_find_index",
    "Gapp.Props.C48_contains",
    "Gapp.Props.C48_erase_first_stable",
    "Gapp.Props.C48_select_copy",
    "Gapp.Props.C48_select_move",
    "Gapp.Props.C48_select_move_repeated",
    "Gapp.Props.C48_erase_duplicates"
   ],
   "note": "std::sort and std::partial_sort by their contracts; elementwise_min/max are covered by C52_min and C52_max"
  },
  {
   "property": "C49",
   "status": "proved",
   "theorems": [
    "Gapp.Props.C49_qrng_sequence",
    "Gapp.Props.C49_qrng_history",
    "Gapp.Props.C49_phi",
    "Gapp.Props.C49_map_sort",
    "Gapp.Props.C49_map_mirror_result",
    "Gapp.Props.C49_map_mirror",
    "Gapp.Props.C49_map_root",
    "Gapp.Props.C49_map_log",
    "Gapp.Props.C49_points_sort",
    "Gapp.Props.C49_points_root",
    "Gapp.Props.C49_points_log",
    "Gapp.Props.C49_points_mirror",
    "Gapp.Props.C49_sparse",
    "Gapp.Props.C49_sparse_empty",
    "Gapp.Props.C49_sparse_simplex",
    "Gapp.Props.C49_reference_lines"
   ],
   "note": "Exact arithmetic. The logarithm mapping needs a coordinate below 1, which every point of the sequence has. The mirroring ends for all rational points."
  },
  {
   "property": "C50",
   "status": "proved",
   "theorems": [
    "Gapp.Props.C50_scoped_tolerances",
    "Gapp.Props.C50_restore_on_exit",
    "Gapp.Props.C50_nested"
   ],
   "note": "That destructors run on every exit from a scope is a rule of the language and part of the model."
  },
  {
   "property": "C51",
   "status": "partial",
   "theorems": [
    "Gapp.Props.C51_initial_population",
    "Gapp.Props.C51_integer",
    "Gapp.Props.C51_integer_onto",
    "Gapp.Props.C51_real_partial",
    "Gapp.Props.C51_binary",
    "Gapp.Props.C51_permutation"
   ],
   "note": "Real genes are proved within bounds in exact arithmetic; C61_generate_partial proves it in binary64 arithmetic."
  },
  {
   "property": "C52",
   "status": "proved",
   "theorems": [
    "Gapp.Props.C52_min",
    "Gapp.Props.C52_max",
    "Gapp.Props.C52_mean",
    "Gapp.Props.C52_variance",
    "Gapp.Props.C52_min_le_mean_le_max",
    "Gapp.Props.C52_variance_zero",
    "Gapp.Props.C52_std_dev"
   ],
   "note": "Exact arithmetic; the square root is a parameter with its defining property."
  },
  {
   "property": "C53",
   "status": "proved",
   "theorems": [
    "Gapp.Props.C53_bool_bits",
    "Gapp.Props.C53_bool_patterns_equally_represented",
    "Gapp.Props.C53_thread_bools"
   ],
   "note": ""
  },
  {
   "property": "C54",
   "status": "proved",
   "theorems": [
    "Gapp.Props.C54_decode_formula",
    "Gapp.Props.C54_decode_within_bounds",
    "Gapp.Props.C54_decode_strictly_monotone",
    "Gapp.Props.C54_decode_bits_per_variable",
    "Gapp.Props.C54_string_finder_counts",
    "Gapp.Props.C54_string_finder_optimum",
    "Gapp.Props.C54_string_finder_reachable",
    "Gapp.Props.C54_tsp_tour_length",
    "Gapp.Props.C54_tsp_reversal"
   ],
   "note": "Exact arithmetic; rounding of the decoded value is not modelled."
  },
  {
   "property": "C55",
   "status": "proved",
   "theorems": [
    "Gapp.Props.C55_metrics",
    "Gapp.Props.C55_metrics_any_genes"
   ],
   "note": "Metrics computed from the fitness matrix, and FitnessEvaluations; AutoHypervolume is C34. Also for every comparison of the genes."
  },
  {
   "property": "C56",
   "status": "proved",
   "theorems": [
    "Gapp.Props.C56_nadir_point",
    "Gapp.Props.C56_front_nadir_point"
   ],
   "note": ""
  },
  {
   "property": "C57",
   "status": "proved",
   "theorems": [
    "Gapp.Props.C57_arithmetic",
    "Gapp.Props.C57_blx",
    "Gapp.Props.C57_sbx",
    "Gapp.Props.C57_sbx_sides",
    "Gapp.Props.C57_wright"
   ],
   "note": "Exact arithmetic; the power function of SBX is an arbitrary function. C61 proves the bounds in binary64 arithmetic."
  },
  {
   "property": "C58",
   "status": "partial",
   "theorems": [
    "Gapp.Props.C58_binomial_range",
    "Gapp.Props.C58_binomial_returns",
    "Gapp.Props.C58_binomial_certain",
    "Gapp.Props.C58_binomial_impossible_partial",
    "Gapp.Props.C58_binomial_impossible_violated"
   ],
   "note": "Everything but p = 0 with n <= 5, where the result is not always 0 (witness)."
  },
  {
   "property": "C59",
   "status": "partial",
   "theorems": [
    "Gapp.Props.C59_algorithm_partial",
    "Gapp.Props.C59_null_algorithm_not_deduced",
    "Gapp.Props.C59_operators_ctor_not_deduced",
    "Gapp.Props.C59_mutation_rate_partial",
    "Gapp.Props.C59_chosen_rate_used",
    "Gapp.Props.C59_mutation_rate_not_deduced_again"
   ],
   "note": "Two constructors never deduce the algorithm; the default mutation rate is deduced only in the first run."
  },
  {
   "property": "C60",
   "status": "partial",
   "theorems": [
    "Gapp.Props.C60_sphere",
    "Gapp.Props.C60_rastrigin",
    "Gapp.Props.C60_rosenbrock",
    "Gapp.Props.C60_rosenbrock_one_variable",
    "Gapp.Props.C60_griewank",
    "Gapp.Props.C60_ackley",
    "Gapp.Props.C60_levy",
    "Gapp.Props.C60_kursawe",
    "Gapp.Props.C60_zdt1",
    "Gapp.Props.C60_zdt2",
    "Gapp.Props.C60_zdt3",
    "Gapp.Props.C60_zdt4",
    "Gapp.Props.C60_zdt5",
    "Gapp.Props.C60_zdt6",
    "Gapp.Props.C60_dtlz1",
    "Gapp.Props.C60_dtlz2",
    "Gapp.Props.C60_dtlz3",
    "Gapp.Props.C60_dtlz4_optimum_wrong",
    "Gapp.Props.C60_dtlz4_partial",
    "Gapp.Props.C60_dtlz5",
    "Gapp.Props.C60_dtlz6",
    "Gapp.Props.C60_dtlz7",
    "Gapp.Props.C60_schwefel_partial",
    "Gapp.Props.C60_schwefel_violated"
   ],
   "note": "The documented optimum of DTLZ4 does not have the documented value in exact arithmetic (C60_dtlz4_optimum_wrong); Rosenbrock with one variable is constant. Schwefel's constants are rounded: the claim is false by at most 2.8e-10 per variable (C60_schwefel_partial, C60_schwefel_violated). Exact real arithmetic."
  },
  {
   "property": "C61",
   "status": "partial",
   "theorems": [
    "Gapp.Props.C61_rounding",
    "Gapp.Props.C61_rounding_even",
    "Gapp.Props.C61_overflow",
    "Gapp.Props.C61_generate_partial",
    "Gapp.Props.C61_generate_overflow",
    "Gapp.Props.C61_arithmetic_partial",
    "Gapp.Props.C61_wright_partial",
    "Gapp.Props.C61_wright_nan",
    "Gapp.Props.C61_blx_partial",
    "Gapp.Props.C61_sbx_partial",
    "Gapp.Props.C61_sbx_reciprocal_nan",
    "Gapp.Props.C61_uniform_partial",
    "Gapp.Props.C61_uniform_overflow",
    "Gapp.Props.C61_boundary",
    "Gapp.Props.C61_gauss_partial",
    "Gapp.Props.C61_nonuniform_partial",
    "Gapp.Props.C61_polynomial_partial"
   ],
   "note": "IEEE binary64 with round-to-nearest-even, subnormals, overflow and optional fused operations. False when upper - lower overflows (C61_generate_overflow, C61_wright_nan, C61_uniform_overflow); proved for bounds up to 2^1022 (BLX: also alpha times the bounds up to 2^1019; Gauss: finite standard deviation). pow is any function that meets PowContract. Divisions compiled as products with the reciprocal (-freciprocal-math) are covered; SBX can then return NaN if the tolerances are zero (C61_sbx_reciprocal_nan)."
  },
  {
   "property": "C62",
   "status": "partial",
   "theorems": [
    "Gapp.Props.C62_read",
    "Gapp.Props.C62_increment",
    "Gapp.Props.C62_decrement",
    "Gapp.Props.C62_compare",
    "Gapp.Props.C62_compare_different",
    "Gapp.Props.C62_move_partial",
    "Gapp.Props.C62_move_past_end",
    "Gapp.Props.C62_move_back",
    "Gapp.Props.C62_difference_partial",
    "Gapp.Props.C62_negative_difference",
    "Gapp.Props.C62_loop",
    "Gapp.Props.C62_loop_back",
    "Gapp.Props.C62_stable",
    "Gapp.Props.C62_circular_buffer",
    "Gapp.Props.C62_matrix_rows",
    "Gapp.Props.C62_iota_loop",
    "Gapp.Props.C62_iota_move",
    "Gapp.Props.C62_iota_difference",
    "Gapp.Props.C62_segment"
   ],
   "note": "Partial because the code violates two clauses: differences of stable iterators are never negative (C62_negative_difference), and moving by more than the container size is not rejected (C62_move_past_end). Everything else is proved for all containers, positions and distances."
  },
  {
   "property": "C63",
   "status": "partial",
   "theorems": [
    "Gapp.Props.C63_probability_partial",
    "Gapp.Props.C63_nonnegative_partial",
    "Gapp.Props.C63_positive_partial",
    "Gapp.Props.C63_negative_partial",
    "Gapp.Props.C63_nan",
    "Gapp.Props.C63_positive_size",
    "Gapp.Props.C63_negative_int"
   ],
   "note": "Partial because the code accepts NaN (C63_nan); exact for all numbers and infinities."
  },
  {
   "property": "C64",
   "status": "partial",
   "theorems": [
    "Gapp.Props.C64_run",
    "Gapp.Props.C64_permutation",
    "Gapp.Props.C64_binary",
    "Gapp.Props.C64_integer",
    "Gapp.Props.C64_real_partial"
   ],
   "note": "C64_run is the step from the operators to whole runs, for any domain. Permutations, bit strings and integers in full. Real genes in binary64 arithmetic: partial because the bounds have to be at most 2^1022 in absolute value (and as in C61 for BLX-alpha and Gauss); C61 has counterexamples beyond that."
  },
  {
   "property": "C65",
   "status": "partial",
   "theorems": [
    "Gapp.Props.C65_schedule_independent_partial",
    "Gapp.Props.C65_every_generation_partial",
    "Gapp.Props.C65_keep_all_partial",
    "Gapp.Props.C65_violated"
   ],
   "note": "Proved for runs that do not keep all optimal solutions (any tolerances), and for runs that do with tolerances of zero. False otherwise: with a positive tolerance the parallel merge of the solutions depends on the schedule (C65_violated). The random outcomes are given per call: that the generators are per thread, so that the assignment of the calls to threads changes the draws of a seeded run, is not part of the statement."
  },
  {
   "property": "C66",
   "status": "proved",
   "theorems": [
    "Gapp.Props.C66_independent_of_history",
    "Gapp.Props.C66_every_generation",
    "Gapp.Props.C66_composite_stop_conditions",
    "Gapp.Props.C66_stall_conditions",
    "Gapp.Props.C66_nsga3"
   ],
   "note": "solve() and every generation as equations between the used and the new object. The mutation rate that is deduced in the first run is a setting, see C59."
  },
  {
   "property": "C67",
   "status": "partial",
   "theorems": [
    "Gapp.Props.C67_single",
    "Gapp.Props.C67_zdt1",
    "Gapp.Props.C67_zdt2",
    "Gapp.Props.C67_zdt3_partial",
    "Gapp.Props.C67_zdt3_ideal_not_attained",
    "Gapp.Props.C67_zdt3_nadir_violated",
    "Gapp.Props.C67_zdt4",
    "Gapp.Props.C67_zdt5",
    "Gapp.Props.C67_zdt6_partial",
    "Gapp.Props.C67_zdt6_ideal_not_attained",
    "Gapp.Props.C67_zdt6_nadir_violated",
    "Gapp.Props.C67_dtlz1",
    "Gapp.Props.C67_dtlz2",
    "Gapp.Props.C67_dtlz3",
    "Gapp.Props.C67_dtlz4",
    "Gapp.Props.C67_dtlz5_partial",
    "Gapp.Props.C67_dtlz5_nadir_violated",
    "Gapp.Props.C67_dtlz6_partial",
    "Gapp.Props.C67_dtlz6_nadir_violated",
    "Gapp.Props.C67_dtlz7_partial",
    "Gapp.Props.C67_dtlz7_not_attained",
    "Gapp.Props.C67_kursawe_partial",
    "Gapp.Props.C67_kursawe_ideal_violated",
    "Gapp.Props.C67_kursawe_nadir_violated"
   ],
   "note": "Right for the single-objective problems, ZDT1, ZDT2, ZDT4, ZDT5 and DTLZ1-DTLZ4. For the others the values that are right are proved, and the wrong or rounded ones refuted: ZDT3, ZDT6, DTLZ5 and DTLZ6 (four or more objectives), DTLZ7, Kursawe. Exact real arithmetic; Schwefel is in C60."
  },
  {
   "property": "C68",
   "status": "partial",
   "theorems": [
    "Gapp.Props.C68_discrete",
    "Gapp.Props.C68_last_gene",
    "Gapp.Props.C68_float_exact",
    "Gapp.Props.C68_float_partial",
    "Gapp.Props.C68_float_hash",
    "Gapp.Props.C68_float_violated",
    "Gapp.Props.C68_float_not_transitive"
   ],
   "note": "Holds for bits, integers and permutations, and for real genes with zero tolerances. Violated for real genes with a positive absolute tolerance: the comparison is tolerant and not transitive, the hash is exact (witnesses); what holds then is C68_float_partial."
  },
  {
   "property": "C69",
   "status": "proved",
   "theorems": [
    "Gapp.Props.C69_get",
    "Gapp.Props.C69_untracked",
    "Gapp.Props.C69_get_ref",
    "Gapp.Props.C69_values"
   ],
   "note": "For all histories of track(), initialize and update; type ids of different types are assumed to be different."
  },
  {
   "property": "C70",
   "status": "partial",
   "theorems": [
    "Gapp.Props.C70_population",
    "Gapp.Props.C70_nonempty",
    "Gapp.Props.C70_solutions_partial",
    "Gapp.Props.C70_keep_best_partial",
    "Gapp.Props.C70_keep_children_partial",
    "Gapp.Props.C70_elitism_violated",
    "Gapp.Props.C70_probe_lost",
    "Gapp.Props.C70_nsga2_violated"
   ],
   "note": "Proved for exact comparisons: a solution always exists; for replacements that never lose the best candidate (KeepBest) nothing evaluated is better than the solutions; for KeepChildren with keep_all_optimal_solutions the solutions are exactly the optimal ones of everything evaluated. Violated, with witnesses, for Elitism, for NSGA-II even with keep_all_optimal_solutions, and for the candidate used to find out the number of objectives."
  },
  {
   "property": "C71",
   "status": "partial",
   "theorems": [
    "Gapp.Props.C71_evaluations",
    "Gapp.Props.C71_children_current",
    "Gapp.Props.C71_measured",
    "Gapp.Props.C71_solutions_measured",
    "Gapp.Props.C71_current_partial",
    "Gapp.Props.C71_stale_violated"
   ],
   "note": "The counts, the children and the origin of every value are proved for all replacements. That all candidates are up to date holds if the replacement only keeps children; it is violated when parents survive, because they are not evaluated again. The model lets the function change between generations, not within one."
  },
  {
   "property": "C72",
   "status": "partial",
   "theorems": [
    "Gapp.Props.C72_no_task_lost",
    "Gapp.Props.C72_resize_waits",
    "Gapp.Props.C72_thread_count",
    "Gapp.Props.C72_fair_runs_finish",
    "Gapp.Props.C72_no_deadlock",
    "Gapp.Props.C72_one_thread_unused",
    "Gapp.Props.C72_failed_start_hangs",
    "Gapp.Props.C72_failed_start_violated",
    "Gapp.Props.C72_failed_start_stops_pool",
    "Gapp.Props.C72_two_threads_violated"
   ],
   "note": "Everything but the number of threads that do work is proved, if the system can start the threads. One thread less than asked for is used: with 2 threads every loop is sequential (C72_two_threads_violated). If starting a thread fails, execution_threads never returns (C72_failed_start_violated)."
  },
  {
   "property": "C73",
   "status": "proved",
   "theorems": [
    "Gapp.Props.C73_norm",
    "Gapp.Props.C73_distance",
    "Gapp.Props.C73_normalize",
    "Gapp.Props.C73_perpendicular",
    "Gapp.Props.C73_volume",
    "Gapp.Props.C73_mean_deviation",
    "Gapp.Props.C73_integral_deriv",
    "Gapp.Props.C73_integral",
    "Gapp.Props.C73_integral_origin"
   ],
   "note": "In real arithmetic, against Mathlib's norm, distance, Lebesgue measure, derivative and integral."
  },
  {
   "property": "C74",
   "status": "partial",
   "theorems": [
    "Gapp.Props.C74_front_partial",
    "Gapp.Props.C74_front_single_objective",
    "Gapp.Props.C74_nd_sort_partial",
    "Gapp.Props.C74_merge_partial",
    "Gapp.Props.C74_merge_single_objective",
    "Gapp.Props.C74_progress",
    "Gapp.Props.C74_ends",
    "Gapp.Props.C74_solutions_partial",
    "Gapp.Props.C74_solutions_nonempty",
    "Gapp.Props.C74_solutions_single_objective",
    "Gapp.Props.C74_nsga2_run",
    "Gapp.Props.C74_dominance_cycle",
    "Gapp.Props.C74_dominated_row_ranked_first",
    "Gapp.Props.C74_front_clearly_dominated",
    "Gapp.Props.C74_merge_schedule"
   ],
   "note": "Proved for all tolerances with rel <= 1: no errors, every candidate left out is beaten and leads by a chain to a reported one, non-empty solutions; with one objective also that no candidate dominates a solution and that the best one is among them; for NSGA-II every other candidate of the last population is beaten by a solution directly and none clearly dominates a solution. Violated for several objectives: reported candidates may be dominated (witnesses with the default tolerances)."
  },
  {
   "property": "C75",
   "status": "partial",
   "theorems": [
    "Gapp.Props.C75_tsp52_bounds",
    "Gapp.Props.C75_tsp76_bounds",
    "Gapp.Props.C75_tsp124_bounds",
    "Gapp.Props.C75_tsp152_bounds",
    "Gapp.Props.C75_tsp226_bounds",
    "Gapp.Props.C75_tsp299_bounds",
    "Gapp.Props.C75_tsp439_bounds",
    "Gapp.Props.C75_tsp52_violated",
    "Gapp.Props.C75_tsp439_violated",
    "Gapp.Props.C75_documented_partial"
   ],
   "note": "Lower and upper bounds of the best fitness of all seven problems, in exact arithmetic. TSP52 is settled to 5e-8: the documented value is never reached. The documented value of TSP439 is exceeded by a tour. For the others a gap between 0.3 and 2.9 percent remains between the bounds."
  },
  {
   "property": "C76",
   "status": "partial",
   "theorems": [
    "Gapp.Props.C76_sample_uniform_partial",
    "Gapp.Props.C76_flip_partial",
    "Gapp.Props.C76_swap2_partial",
    "Gapp.Props.C76_shift_violated"
   ],
   "note": "Proved for ranges of less than 65536 values: the sets of numbers, the bit flip mutation and the swap of two genes are exactly uniform, counted over all equally likely sequences of random integers. For larger ranges the numbers are not distinct (C35). Violated for the shift mutation: the two numbers are not in a random order, so the last gene is never moved by more than one place, while the first one can be moved anywhere."
  },
  {
   "property": "C77",
   "status": "proved",
   "theorems": [
    "Gapp.Props.C77_tournament",
    "Gapp.Props.C77_tournament_order",
    "Gapp.Props.C77_nsga2",
    "Gapp.Props.C77_nsga3",
    "Gapp.Props.C77_share",
    "Gapp.Props.C77_favours_the_fitter",
    "Gapp.Props.C77_roulette"
   ],
   "note": "Counted over the equally likely random indices, and the Lebesgue measure of the random numbers in [0, 1) for the selection by weights. Exact arithmetic; C29 bounds the errors in binary64 arithmetic."
  },
  {
   "property": "C78",
   "status": "partial",
   "theorems": [
    "Gapp.Props.C78_same_process_partial",
    "Gapp.Props.C78_loops_partial",
    "Gapp.Props.C78_all_registered_partial",
    "Gapp.Props.C78_few_threads_partial",
    "Gapp.Props.C78_two_threads_idle",
    "Gapp.Props.C78_never_stuck",
    "Gapp.Props.C78_processes_violated",
    "Gapp.Props.C78_thread_exit_violated"
   ],
   "note": "Proved for runs in the same process as long as no thread with a generator ends in between, for runs whose threads all had generators before (in the same order), and for at most two threads. The documented claim fails between processes (the workers get their generators in the order of their first draws) and when another thread ends between the runs."
  },
  {
   "property": "C79",
   "status": "partial",
   "theorems": [
    "Gapp.Props.C79_roulette_negative",
    "Gapp.Props.C79_rank",
    "Gapp.Props.C79_tournament_size",
    "Gapp.Props.C79_tournament_larger",
    "Gapp.Props.C79_tournament_one",
    "Gapp.Props.C79_sigma_formula_partial",
    "Gapp.Props.C79_sigma_scale_violated",
    "Gapp.Props.C79_boltzmann_formula_partial",
    "Gapp.Props.C79_boltzmann_formula_violated",
    "Gapp.Props.C79_boltzmann_temperature",
    "Gapp.Props.C79_boltzmann_bounds",
    "Gapp.Props.C79_boltzmann_units",
    "Gapp.Props.C79_boltzmann_default",
    "Gapp.Props.C79_boltzmann_run"
   ],
   "note": "The scaling parameter of sigma scaling has no effect, and the formula of Boltzmann selection is not the documented one (both refuted); the probabilities these methods do have are proved. Rounding is not modelled, and temperatures whose exponential overflows are excluded."
  },
  {
   "property": "C80",
   "status": "partial",
   "theorems": [
    "Gapp.Props.C80_crossover_rate",
    "Gapp.Props.C80_permutation_rate_partial",
    "Gapp.Props.C80_permutation_zero_violated",
    "Gapp.Props.C80_small_rate",
    "Gapp.Props.C80_small_uniform",
    "Gapp.Props.C80_small_flip",
    "Gapp.Props.C80_poisson_rate_partial",
    "Gapp.Props.C80_normal_rate_partial",
    "Gapp.Props.C80_normal_rate_biased",
    "Gapp.Props.C80_normal_rate_violated"
   ],
   "note": "The crossover rate is exact up to 2^-53. Permutations are mutated with a probability that is larger by up to 2^-53, also at the rate 0. Each gene is mutated with the exact rate in chromosomes of up to 5 genes, independently of the others; with the Poisson approximation the probability is smaller than the rate by less than 0.2 percent, with the normal approximation it differs from it by less than 3/(2n), and it is different from the rate whenever 2 n pm is an integer and pm is not 1/2. Missing: the rate of the genes is not the documented one with the approximations."
  },
  {
   "property": "C81",
   "status": "partial",
   "theorems": [
    "Gapp.Props.C81_gauss_sigma",
    "Gapp.Props.C81_polynomial_eta",
    "Gapp.Props.C81_nonuniform_beta",
    "Gapp.Props.C81_nonuniform_generation",
    "Gapp.Props.C81_real_uniform",
    "Gapp.Props.C81_boundary",
    "Gapp.Props.C81_gauss",
    "Gapp.Props.C81_integer_uniform",
    "Gapp.Props.C81_integer_ends",
    "Gapp.Props.C81_nonuniform_sides",
    "Gapp.Props.C81_nonuniform_zero_partial",
    "Gapp.Props.C81_nonuniform_zero_violated"
   ],
   "note": "The claim that non-uniform mutations with beta 0 are uniform is false; everything else is proved, for chromosomes below 65536 genes. Exact arithmetic."
  },
  {
   "property": "C82",
   "status": "proved",
   "theorems": [
    "Gapp.Props.C82_blx_uniform",
    "Gapp.Props.C82_blx_alpha",
    "Gapp.Props.C82_sbx_eta",
    "Gapp.Props.C82_sbx_at_bounds"
   ],
   "note": "Exact arithmetic; the random numbers are uniform on [0, 1)."
  },
  {
   "property": "C83",
   "status": "partial",
   "theorems": [
    "Gapp.Props.C83_once_per_generation_partial",
    "Gapp.Props.C83_no_effect",
    "Gapp.Props.C83_unset",
    "Gapp.Props.C83_metrics_seen",
    "Gapp.Props.C83_generation_number_violated",
    "Gapp.Props.C83_once_per_generation_any_genes_partial",
    "Gapp.Props.C83_metrics_seen_any_genes"
   ],
   "note": "Everything but the number: generation_cntr() is incremented after the callback, so callbacks see 0, 0, 1, 2, ... (C83_generation_number_violated, with the example of the documentation). Also for every comparison of the genes."
  },
  {
   "property": "C84",
   "status": "partial",
   "theorems": [
    "Gapp.Props.C84_inversion",
    "Gapp.Props.C84_shuffle",
    "Gapp.Props.C84_swap2",
    "Gapp.Props.C84_shift",
    "Gapp.Props.C84_swap3_partial",
    "Gapp.Props.C84_swap3_violated",
    "Gapp.Props.C84_flip",
    "Gapp.Props.C84_int_uniform",
    "Gapp.Props.C84_real",
    "Gapp.Props.C84_boundary_violated"
   ],
   "note": "True of all operators but two: Swap3 reaches exactly the even rearrangements (C84_swap3_partial, C84_swap3_violated) and Boundary only bounds (C84_boundary_violated). Real operators in exact arithmetic."
  },
  {
   "property": "C85",
   "status": "partial",
   "theorems": [
    "Gapp.Props.C85_not_found",
    "Gapp.Props.C85_converges",
    "Gapp.Props.C85_binary_not_found",
    "Gapp.Props.C85_binary",
    "Gapp.Props.C85_binary_keep_all",
    "Gapp.Props.C85_integer",
    "Gapp.Props.C85_shuffle",
    "Gapp.Props.C85_real",
    "Gapp.Props.C85_real_near",
    "Gapp.Props.C85_elitism_violated",
    "Gapp.Props.C85_local_optimum_violated",
    "Gapp.Props.C85_permutation_violated"
   ],
   "note": "Proved for bits (Flip), integers (Uniform), reals (Uniform) and permutations (Shuffle with range_max = 1), with KeepBest or Elitism with fewer elites than candidates, and for bits with replacements that keep all the children together with keep_all_optimal_solutions. False for Elitism with at least as many elites as candidates (C85_elitism_violated), and for the mutations of permutations with their default parameters, which never leave some local optima (C85_permutation_violated). The draws of the mutations are independent; numbers of genes below 65536; real numbers are exact."
  },
  {
   "property": "C86",
   "status": "partial",
   "theorems": [
    "Gapp.Props.C86_tournament",
    "Gapp.Props.C86_rank",
    "Gapp.Props.C86_comparator",
    "Gapp.Props.C86_nsga3_legal",
    "Gapp.Props.C86_nsga3_points",
    "Gapp.Props.C86_nsga3_association",
    "Gapp.Props.C86_nsga3_initialize",
    "Gapp.Props.C86_nsga3_first_points",
    "Gapp.Props.C86_nsga3_distances",
    "Gapp.Props.C86_nsga3_first_distances",
    "Gapp.Props.C86_nsga3_run",
    "Gapp.Props.C86_nsga3_run_continues",
    "Gapp.Props.C86_nsga3_selection",
    "Gapp.Props.C86_nsga3_infinite_violated",
    "Gapp.Props.C86_nsga2_partial",
    "Gapp.Props.C86_nsga2_infinite_violated",
    "Gapp.Props.C86_nsga2_large_violated"
   ],
   "note": "Tournament and rank selection: every value other than NaN. NSGA-III: the next population is legal and made of whole fronts for every matrix; for numbers up to 2^400 the ideal, extreme and nadir points and the associated lines are those of the pool up to the rounding errors; with +inf the lines and the values have no effect on the split front. The stored distances are those from the lines up to the rounding errors, for lines of length 1 up to rounding and up to 2^20 objectives. All of this holds after any number of generations, with the errors of one generation only. NSGA-II: the full claim for finite values up to half of the largest double; with infinite or larger values the sort of the split front is undefined."
  },
  {
   "property": "C87",
   "status": "partial",
   "theorems": [
    "Gapp.Props.C87_min",
    "Gapp.Props.C87_max",
    "Gapp.Props.C87_mean",
    "Gapp.Props.C87_variance",
    "Gapp.Props.C87_stddev",
    "Gapp.Props.C87_mean_within_violated",
    "Gapp.Props.C87_variance_constant_violated"
   ],
   "note": "minimum and maximum for all values; mean, variance and standard deviation within explicit error bounds for numbers up to 2^1020 (mean, sign of the variance) or 2^400 (accuracy of the variance) and up to 2^46 candidates; infinite values give an infinite mean and a NaN variance; the mean is not always between the least and the greatest value, and the variance of equal values is not always zero (violated)"
  },
  {
   "property": "C88",
   "status": "partial",
   "theorems": [
    "Gapp.Props.C88_move_only_function",
    "Gapp.Props.C88_ownership",
    "Gapp.Props.C88_exactly_once",
    "Gapp.Props.C88_function_ref",
    "Gapp.Props.C88_null_pointer_violated"
   ],
   "note": "proved as stated for all programs; partial because a wrapper made from a null function pointer tests true and its call is undefined (C88_null_pointer_violated)"
  },
  {
   "property": "C89",
   "status": "partial",
   "theorems": [
    "Gapp.Props.C89_deterministic",
    "Gapp.Props.C89_exact",
    "Gapp.Props.C89_one_objective",
    "Gapp.Props.C89_error",
    "Gapp.Props.C89_too_small",
    "Gapp.Props.C89_too_large",
    "Gapp.Props.C89_not_monotone",
    "Gapp.Props.C89_default_tolerances"
   ],
   "note": "Exact if the values are further apart than the tolerance, and with one objective; otherwise false of the code: the value can be too small or too large and adding a point can lower it (witnesses, also with the default tolerances). The error is at most 2^n - 1 times the volume of the slabs with the thickness of the tolerance. Exact arithmetic, finite values."
  },
  {
   "property": "C90",
   "status": "partial",
   "theorems": [
    "Gapp.Props.C90_circular_buffers_partial",
    "Gapp.Props.C90_nothing_leaks",
    "Gapp.Props.C90_safe_programs",
    "Gapp.Props.C90_set_capacity_violated",
    "Gapp.Props.C90_reset_violated",
    "Gapp.Props.C90_push_front_violated"
   ],
   "note": "Proved for all programs in which no element throws during set_capacity, reset does not throw, and push_front does not throw for elements that move without exceptions. For these three the property is false in the code (witnesses)."
  },
  {
   "property": "C91",
   "status": "partial",
   "theorems": [
    "Gapp.Props.C91_small_vectors_partial",
    "Gapp.Props.C91_nothing_leaks",
    "Gapp.Props.C91_strong_guarantee",
    "Gapp.Props.C91_moves_do_not_throw",
    "Gapp.Props.C91_safe_programs",
    "Gapp.Props.C91_input_constructor_violated"
   ],
   "note": "Proved for all programs in which no constructor from an input range throws; for these it is false in the code (witness). pop_back and insert of a range (broken, C45) are not in the programs."
  },
  {
   "property": "C92",
   "status": "partial",
   "theorems": [
    "Gapp.Props.C92_caches_partial",
    "Gapp.Props.C92_equality",
    "Gapp.Props.C92_strong_guarantee",
    "Gapp.Props.C92_reset_violated",
    "Gapp.Props.C92_default_insert_violated"
   ],
   "note": "Proved for all programs in which no reset fails in its second allocation, and for standard libraries whose empty maps have a bucket; otherwise false in the code (witnesses)."
  },
  {
   "property": "C93",
   "status": "partial",
   "theorems": [
    "Gapp.Props.C93_generator",
    "Gapp.Props.C93_phi",
    "Gapp.Props.C93_generator_error",
    "Gapp.Props.C93_step_sizes",
    "Gapp.Props.C93_generator_seed_violated",
    "Gapp.Props.C93_map_sort",
    "Gapp.Props.C93_map_sort_differences",
    "Gapp.Props.C93_map_mirror",
    "Gapp.Props.C93_map_mirror_sorted",
    "Gapp.Props.C93_map_mirror_violated",
    "Gapp.Props.C93_map_root",
    "Gapp.Props.C93_map_root_values",
    "Gapp.Props.C93_map_log",
    "Gapp.Props.C93_neg_log",
    "Gapp.Props.C93_map_log_violated",
    "Gapp.Props.C93_points_sort",
    "Gapp.Props.C93_points_mirror",
    "Gapp.Props.C93_points_root",
    "Gapp.Props.C93_points_log",
    "Gapp.Props.C93_points_sequence",
    "Gapp.Props.C93_sparse",
    "Gapp.Props.C93_sparse_mirror",
    "Gapp.Props.C93_lines_of_points",
    "Gapp.Props.C93_reference_lines",
    "Gapp.Props.C93_initialize",
    "Gapp.Props.C93_sparse_empty"
   ],
   "note": "Partial: seeds from 2^64 on make the first call undefined, the mirror mapping may return coordinates below 0, though not below -2^-50, and the log mapping is not a number for the corner of the cube (all proved, with witnesses; the points of the sequence never are that corner). For the root mapping, the accuracy of std::pow is not modelled, only that its results are between 0 and 1."
  },
  {
   "property": "C94",
   "status": "partial",
   "theorems": [
    "Gapp.Props.C94_new_chromosome_partial",
    "Gapp.Props.C94_latest_generation_violated",
    "Gapp.Props.C94_long_lived_violated"
   ],
   "note": "Chromosomes that are new in the population of a generation are spared in the n generations after the next one. The current population is not in the cache when its children are evaluated, and the entries of chromosomes that stay in the population are not renewed; concrete runs evaluate such chromosomes again."
  },
  {
   "property": "C95",
   "status": "partial",
   "theorems": [
    "Gapp.Props.C95_row_equality_partial",
    "Gapp.Props.C95_row_equals_vector",
    "Gapp.Props.C95_row_equality_nan_violated",
    "Gapp.Props.C95_swap_with_sequence"
   ],
   "note": "Rows compare as sequences if == of the elements is equality; a row with a NaN is equal to itself although its elements are not, and not equal to a copy (violated)."
  },
  {
   "property": "C96",
   "status": "partial",
   "theorems": [
    "Gapp.Props.C96_pointwise",
    "Gapp.Props.C96_permutation",
    "Gapp.Props.C96_real_partial",
    "Gapp.Props.C96_double_partial",
    "Gapp.Props.C96_arithmetic_rounding_violated"
   ],
   "note": "Proved for all methods of the binary, integer and permutation encodings, for the real encoding in exact arithmetic, and for BLX-alpha, simulated binary and Wright crossovers in binary64; the arithmetic crossover may return a gene with a rounding error (violated)."
  },
  {
   "property": "C97",
   "status": "partial",
   "theorems": [
    "Gapp.Props.C97_evaluations_bounded",
    "Gapp.Props.C97_solve_bounded_partial",
    "Gapp.Props.C97_calls_violated",
    "Gapp.Props.C97_solve_bounded_any_genes_partial"
   ],
   "note": "The counter is within the bound for all runs; the calls themselves may be one more, for the call that finds the number of objectives (witness)."
  }
 ]
}