{
 "claims": [
  {
   "property": "C01",
   "status": "proved",
   "theorems": [
    "Fplll.C01_row_operations"
   ],
   "note": "all legal call histories, every float type"
  },
  {
   "property": "C02",
   "status": "proved",
   "theorems": [
    "Fplll.C02_lll_lattice",
    "Fplll.C02_size_reduction_lattice"
   ],
   "note": "any floats, any outcome; kappa_start>0 needs the rows before it known and a non-zero first row"
  },
  {
   "property": "C03",
   "status": "proved",
   "theorems": [
    "Fplll.C03_lll_reduced"
   ],
   "note": "exact arithmetic, the first e rows of any basis (kappa_min = 0, kappa_end = e, size_reduction_start = 0), any rank"
  },
  {
   "property": "C04",
   "status": "partial",
   "theorems": [
    "Fplll.C04_is_lll_reduced",
    "Fplll.C04_dependent_rows_violation"
   ],
   "note": "equivalence proved for linearly independent rows; for dependent rows the function reads coefficients that were never computed and the claim is false (witness proved)"
  },
  {
   "property": "C05",
   "status": "proved",
   "theorems": [
    "Fplll.C05_lll_terminates",
    "Fplll.C05_lll_exact_outcome"
   ],
   "note": "termination for arbitrary floats; outcome in exact arithmetic"
  },
  {
   "property": "C06",
   "status": "proved",
   "theorems": [
    "Fplll.C06_int_gram"
   ],
   "note": "all legal call histories, every float type"
  },
  {
   "property": "C07",
   "status": "proved",
   "theorems": [
    "Fplll.C07_update_gso_row",
    "Fplll.C07_update_gso"
   ],
   "note": "Exact arithmetic; every disciplined session (row_op_begin/end windows, moves, locks, updates)."
  },
  {
   "property": "C08",
   "status": "partial",
   "theorems": [
    "Fplll.C08_gram_history_partial",
    "Fplll.C08_gram_transform_partial",
    "Fplll.C08_move_violated",
    "Fplll.C08_lll_partial",
    "Fplll.C08_lll_gram_reduced_partial",
    "Fplll.C08_lll_dependent_violated",
    "Fplll.C08_lll_leading_zero_violated",
    "Fplll.C08_sqnorm_partial",
    "Fplll.C08_lll_sqnorm_partial",
    "Fplll.C08_sqnorm_violated",
    "Fplll.C08_negate_row"
   ],
   "note": "proved for all histories that move rows only among the known ones, and for LLL on linearly independent vectors (any floats for the simulation, exact arithmetic for reducedness); false when move_row goes beyond the known rows, hence for LLL on dependent vectors (proved with witnesses)"
  },
  {
   "property": "C09",
   "status": "partial",
   "theorems": [
    "Fplll.C09_violated",
    "Fplll.C09_negate_lattice_partial"
   ],
   "note": "the claim is false for negate_row_of_b; counterexample proved, lattice and Gram parts proved"
  },
  {
   "property": "C10",
   "status": "proved",
   "theorems": [
    "Fplll.C10_reverse",
    "Fplll.C10_rotate",
    "Fplll.C10_rotate_left",
    "Fplll.C10_rotate_right",
    "Fplll.C10_rotate_gram"
   ],
   "note": ""
  },
  {
   "property": "C100",
   "status": "partial",
   "theorems": [
    "Fplll.JsonRead.C100_reads",
    "Fplll.JsonRead.C100_accepts",
    "Fplll.JsonRead.C100_only",
    "Fplll.JsonRead.C100_terminates",
    "Fplll.JsonRead.C100_rejects",
    "Fplll.JsonRead.C100_load",
    "Fplll.JsonRead.C100_load_only",
    "Fplll.JsonRead.C100_trailing_violated",
    "Fplll.JsonRead.C100_short_violated",
    "Fplll.JsonRead.C100_missing_violated"
   ],
   "note": "Proved for texts of code points. Violated: text after the value is ignored, incomplete pruning parameters are read behind the end, an entry without block size fails an assertion instead of throwing."
  },
  {
   "property": "C101",
   "status": "proved",
   "theorems": [
    "Fplll.JsonRead.C101_bytes",
    "Fplll.JsonRead.C101_accepts",
    "Fplll.JsonRead.C101_only",
    "Fplll.JsonRead.C101_terminates",
    "Fplll.JsonRead.C101_rejects",
    "Fplll.JsonRead.C101_load"
   ],
   "note": "For all byte sequences. What follows the value is ignored, see C100."
  },
  {
   "property": "C102",
   "status": "partial",
   "theorems": [
    "Fplll.StratUse.C102_safe",
    "Fplll.StratUse.C102_default",
    "Fplll.StratUse.C102_file",
    "Fplll.StratUse.C102_short_violated",
    "Fplll.StratUse.C102_cycle_violated",
    "Fplll.StratUse.C102_empty_violated"
   ],
   "note": "Proved for vectors that serve the block size, including the default vector and files that reach it. Violated otherwise: short vectors are read behind their end and preprocessing with sizes that are not smaller recurses without end."
  },
  {
   "property": "C103",
   "status": "partial",
   "theorems": [
    "Fplll.PruneFit.C103_start",
    "Fplll.PruneFit.C103_run",
    "Fplll.PruneFit.C103_default",
    "Fplll.PruneFit.C103_file",
    "Fplll.PruneFit.C103_bytes",
    "Fplll.PruneFit.C103_long",
    "Fplll.PruneFit.C103_abort",
    "Fplll.PruneFit.C103_short_violated",
    "Fplll.PruneFit.C103_run_violated"
   ],
   "note": "Proved for vectors that are empty or have the size of the block, from the bytes of the strategies file on (C103_bytes). Violated for shorter vectors, which are read behind their end when there is no external enumerator; loading does not check them."
  },
  {
   "property": "C104",
   "status": "partial",
   "theorems": [
    "Fplll.DualOrder.C104_solutions",
    "Fplll.DualOrder.C104_distance",
    "Fplll.DualOrder.C104_primal",
    "Fplll.DualOrder.C104_twice_violated",
    "Fplll.DualOrder.C104_sub_violated",
    "Fplll.DualOrder.C104_reset_violated"
   ],
   "note": "Proved for a fresh evaluator; sub-solutions, reused evaluators and max_indices violate it, with proofs."
  },
  {
   "property": "C105",
   "status": "partial",
   "theorems": [
    "Fplll.C105_defined_iff",
    "Fplll.C105_limit",
    "Fplll.C105_undefined_violated",
    "Fplll.C105_wrap",
    "Fplll.C105_failure_violated"
   ],
   "note": "Proved up to 32767 rows; violated from 32768 rows on."
  },
  {
   "property": "C106",
   "status": "partial",
   "theorems": [
    "Fplll.StratPath.C106_own",
    "Fplll.StratPath.C106_shipped",
    "Fplll.StratPath.C106_missing",
    "Fplll.StratPath.C106_only",
    "Fplll.StratPath.C106_message_violated",
    "Fplll.StratPath.C106_directory_violated"
   ],
   "note": "The files loaded are proved; violated: a directory of that name hides the shipped file, and the message for a missing file."
  },
  {
   "property": "C107",
   "status": "partial",
   "theorems": [
    "Fplll.C107_whole",
    "Fplll.C107_nonzero",
    "Fplll.C107_zero_row_violated"
   ],
   "note": "Proved for kappa_min = 0 and for a first row that is not zero; violated for kappa_min > 0 when row 0 is zero."
  },
  {
   "property": "C11",
   "status": "proved",
   "theorems": [
    "Fplll.Enum.C11_enumeration_sound",
    "Fplll.Enum.C11_nodes_sound",
    "Fplll.Enum.C11_distance_primal",
    "Fplll.Enum.C11_distance_svp",
    "Fplll.Enum.C11_distance_dual"
   ],
   "note": "exact arithmetic; any evaluator that does not enlarge the bounds (proved for FastEvaluator and CallbackEvaluator); primal, dual, CVP, subtree and subtree_reset"
  },
  {
   "property": "C12",
   "status": "proved",
   "theorems": [
    "Fplll.Enum.C12_enumeration_complete",
    "Fplll.Enum.C12_enumeration_complete_svp"
   ],
   "note": "exact arithmetic; SVP: exactly one of each pair"
  },
  {
   "property": "C13",
   "status": "proved",
   "theorems": [
    "Fplll.Enum.C13_no_duplicates",
    "Fplll.Enum.C13_no_node_twice",
    "Fplll.Enum.C13_terminates"
   ],
   "note": "exact arithmetic, r > 0"
  },
  {
   "property": "C14",
   "status": "proved",
   "theorems": [
    "Fplll.Enum.C14_zigzag",
    "Fplll.Enum.C14_zigzag_topenum",
    "Fplll.Enum.C14_siblings_in_order",
    "Fplll.Enum.C14_depth_first_order"
   ],
   "note": "all rational centres, both zig-zags, and the order of the whole walk"
  },
  {
   "property": "C15",
   "status": "proved",
   "theorems": [
    "Fplll.Enum.C15_best_keeps_N_shortest",
    "Fplll.Enum.C15_enumerate_finds_N_shortest"
   ],
   "note": "all offer sequences, and the N shortest vectors for enumeration without pruning"
  },
  {
   "property": "C16",
   "status": "proved",
   "theorems": [
    "Fplll.Enum.C16_first_closes",
    "Fplll.Enum.C16_enumerate_first",
    "Fplll.Enum.C16_opportunistic",
    "Fplll.Enum.C16_enumerate_opportunistic",
    "Fplll.Enum.C16_opportunistic_shortest"
   ],
   "note": "all offer sequences, and within enumeration (also CVP): at most N stored"
  },
  {
   "property": "C17",
   "status": "proved",
   "theorems": [
    "Fplll.SVP.C17_shortest_vector",
    "Fplll.SVP.C17_shortest_vector_proved",
    "Fplll.SVP.C17_shortest_vector_gso"
   ],
   "note": "exact arithmetic; get_max_error_aux is an arbitrary non-negative function; fast and proved evaluators, basis and GSO entry points"
  },
  {
   "property": "C18",
   "status": "partial",
   "theorems": [
    "Fplll.SVP.C18_dual_fails",
    "Fplll.SVP.C18_dual_partial",
    "Fplll.SVP.C18_dual_proved_always_fails"
   ],
   "note": "violated: last_useful_index is also applied in dual mode and drops rows; with SVPM_PROVED the call always fails because int_max_dist stays 0; holds when no row is dropped (fast method)"
  },
  {
   "property": "C19",
   "status": "partial",
   "theorems": [
    "Fplll.SVP.C19_shortest_vectors",
    "Fplll.SVP.C19_max_sols_one_fails"
   ],
   "note": "violated for max_sols = 1 (the lists are left empty); proved for max_sols >= 2, including that the returned vectors are the shortest ones the enumeration offers"
  },
  {
   "property": "C20",
   "status": "partial",
   "theorems": [
    "Fplll.SVP.C20_closest_vector_partial",
    "Fplll.SVP.C20_closest_vector_lll_partial",
    "Fplll.SVP.C20_closest_vector_dim_one_fails",
    "Fplll.SVP.C20_closest_vector_diverges"
   ],
   "note": "violated: fails in dimension one (search radius 0) and loops for ever on targets with ties; every returning call is correct for LLL-reduced bases of dimension >= 2, and calls without ties return"
  },
  {
   "property": "C21",
   "status": "proved",
   "theorems": [
    "Fplll.C21_insert",
    "Fplll.C21_insert_unimodular"
   ],
   "note": "exact coefficients of any size without common divisor, primal and dual; any float type for the lattice"
  },
  {
   "property": "C22",
   "status": "proved",
   "theorems": [
    "Fplll.C22_bkz_lattice",
    "Fplll.C22_bkz_no_ub",
    "Fplll.C22_transform_partial",
    "Fplll.C22_transform_violated",
    "Fplll.C22_inverse_violated",
    "Fplll.C22_lone_ub"
   ],
   "note": "any floats, enumeration results, random numbers, clocks and stopping points. The tracked transforms are wrong after a generic insertion (shown); a solution that is a proper multiple of a basis vector makes the code move row kappa-1 (shown), which is outside the basis for kappa = 0."
  },
  {
   "property": "C23",
   "status": "partial",
   "theorems": [
    "C23_tour_block",
    "C23_tour",
    "C23_sd_tour",
    "C23_slide_blocks",
    "C23_in_range",
    "C23_preprocessing_below",
    "C23_sd_violated",
    "C23_empty_violated"
   ],
   "note": "Calls of every tour are listed exactly, for arbitrary procedures; whole runs stay in range. Violated for an all-zero basis (size_reduction of row -1) and for SD-BKZ with a block size above the number of rows (hkz starts at a negative row)."
  },
  {
   "property": "C24",
   "status": "partial",
   "theorems": [
    "C24_loop",
    "C24_max_loops",
    "C24_loops_limit",
    "C24_time_limit",
    "C24_success",
    "C24_loop_stops",
    "C24_error_escapes",
    "C24_errors_as_status_violated"
   ],
   "note": "Everything but the last clause is proved for arbitrary tours, clocks and slopes. The last clause is violated: errors leave bkz() as std::runtime_error, no status is set."
  },
  {
   "property": "C25",
   "status": "proved",
   "theorems": [
    "C25_test_abort",
    "C25_first",
    "C25_decrease"
   ],
   "note": "Doubles are an arbitrary linear order (no NaN), scaling an arbitrary function."
  },
  {
   "property": "C26",
   "status": "partial",
   "theorems": [
    "C26_get_pruning_partial",
    "C26_get_pruning_mem",
    "C26_far_violated",
    "C26_empty_ub",
    "C26_load",
    "C26_load_get_pruning",
    "C26_param_default"
   ],
   "note": "Selection proved when some set is nearer than 2^80 (the start value of the search); violated beyond. Loading proved from the parsed entries on (JSON parsing: C100)."
  },
  {
   "property": "C27",
   "status": "partial",
   "theorems": [
    "C27_stops",
    "C27_last_run",
    "C27_success",
    "C27_precision_partial",
    "C27_precision_violated",
    "C27_empty_returns_false"
   ],
   "note": "For arbitrary outcomes of the runs: the wrapper stops, success is reported only when the last run (method proved, requested parameters, at least good_prec bits) succeeded, and the precision order is proved without the dpe fallback. Violated: the precisions do not increase (dpe run repeated, 106 then 53 bits); Wrapper::lll returns false for an empty basis."
  },
  {
   "property": "C28",
   "status": "partial",
   "theorems": [
    "C28_always_success",
    "C28_violated",
    "C28_last_run_partial"
   ],
   "note": "Violated: hlll_reduction_wrapper always returns RED_SUCCESS because a local variable shadows the member status. Proved: it stops, the last run is a proved run in at least good_prec bits, the basis is the one of that run and the lattice is kept if the runs keep it."
  },
  {
   "property": "C29",
   "status": "partial",
   "theorems": [
    "Fplll.HL.C29_lattice_partial",
    "Fplll.HL.C29_interrupted_partial",
    "Fplll.HL.C29_one_row_violated",
    "Fplll.HL.C29_no_ub",
    "Fplll.Wrapper.C29_hlll_reduction_partial"
   ],
   "note": "Proved for every float behaviour, every status, every method and the wrapper with its retries. Missing: for a basis with one row the code accesses row 1, which does not exist (C29_one_row_violated), so nothing can be said there; for 2 <= d <= n no such access happens (C29_no_ub)."
  },
  {
   "property": "C30",
   "status": "partial",
   "theorems": [
    "Fplll.HL.C30_reduced_partial",
    "Fplll.HL.C30_lll",
    "Fplll.HL.C30_rfactor",
    "Fplll.HL.C30_statuses",
    "Fplll.HL.C30_terminates",
    "Fplll.HL.C30_eta_violated",
    "Fplll.HL.C30_eta_run"
   ],
   "note": "exact real arithmetic with any exponents, any rounding of ties and any integer splits: success implies the reduced basis for eta >= 1/2, the stored R is the R-factor, failures only for delta > 1, delta < 1/2 or theta < 0, and success within an explicit number of rounds when remainders round to zero; the statement is false for eta < 1/2 because compute_eR uses delta (witness proved)"
  },
  {
   "property": "C31",
   "status": "proved",
   "theorems": [
    "Fplll.Pool.C31_wait_work",
    "Fplll.Pool.C31_wait_sleep",
    "Fplll.Pool.C31_productive_decreases",
    "Fplll.Pool.C31_progress",
    "Fplll.Pool.C31_terminates",
    "Fplll.Pool.C31_wait_sleep_hangs",
    "Fplll.Pool.C31_wait_sleep_race"
   ],
   "note": "All schedules with one controlling thread, any number of workers, spurious wake-ups included. Also termination. wait_sleep reads the queue without the mutex (data race, shown reachable) and hangs without workers."
  },
  {
   "property": "C32",
   "status": "proved",
   "theorems": [
    "Fplll.Pool.C32_exactly_once",
    "Fplll.Pool.C32_log_grows",
    "Fplll.Pool.C32_no_empty_pop",
    "Fplll.Pool.C32_shrink",
    "Fplll.Pool.C32_progress",
    "Fplll.Pool.C32_no_threads_drops",
    "Fplll.Pool.C32_set_threads"
   ],
   "note": "Tasks that push tasks or throw are not modelled. A pool without threads never executes a task unless the owner waits for it (shown)."
  },
  {
   "property": "C33",
   "status": "partial",
   "theorems": [
    "Fplll.Barrier.C33_barrier_partial",
    "Fplll.Barrier.C33_spurious_fails",
    "Fplll.Barrier.C33_three_threads_fails"
   ],
   "note": "False with spurious wake-ups, and false when more than count threads use the barrier (both shown). Proved for exactly count threads without spurious wake-ups."
  },
  {
   "property": "C34",
   "status": "proved",
   "theorems": [
    "Fplll.Par.C34_sound",
    "Fplll.Par.C34_items_once",
    "Fplll.Par.C34_complete",
    "Fplll.Par.C34_progress",
    "Fplll.Par.C34_terminates",
    "Fplll.Par.C34_final_reached",
    "Fplll.Par.C34_best",
    "Fplll.Par.C34_minimal",
    "Fplll.Par.C34_schedule_independent"
   ],
   "note": "more than 10 dimensions (as the code dispatches), every rounding to nearest without under- or overflow, fewer than 256 threads (size of the signal array), mutex-protected sections are single steps; activeswirly is false as in enumlib_dim.cpp"
  },
  {
   "property": "C35",
   "status": "proved",
   "theorems": [
    "Fplll.TextIO.C35_read",
    "Fplll.TextIO.C35_round_trip",
    "Fplll.TextIO.C35_vector",
    "Fplll.TextIO.C35_vector_round_trip",
    "Fplll.TextIO.C35_integer",
    "Fplll.TextIO.C35_integer_at_end_fails"
   ],
   "note": "Any text of the grammar is read with its value, printing produces such a text; stream left right after it. An integer that ends exactly at the end of the stream is not read (C35_integer_at_end_fails; dead eof branch in nr_Z_mpz.inl)."
  },
  {
   "property": "C36",
   "status": "partial",
   "theorems": [
    "Fplll.MStore.C36_transpose_resize",
    "Fplll.MStore.C36_transpose_twice",
    "Fplll.MStore.C36_row_size_fails",
    "Fplll.MStore.C36_row_size_partial"
   ],
   "note": "Entries: proved for every history. The row vectors' sizes are wrong after shrink + transpose, so MatrixRow::size and is_zero see stale entries (C36_row_size_fails)."
  },
  {
   "property": "C37",
   "status": "proved",
   "theorems": [
    "Fplll.Gen.C37_convert",
    "Fplll.Gen.C37_back_conversion_loses"
   ],
   "note": "The conversion back in bkz.cpp:833-835 ignores the result and is not lossless (C37_back_conversion_loses)."
  },
  {
   "property": "C38",
   "status": "proved",
   "theorems": [
    "Fplll.Gen.C38_zeros_first",
    "Fplll.Gen.C38_zeros_last"
   ],
   "note": ""
  },
  {
   "property": "C39",
   "status": "partial",
   "theorems": [
    "Fplll.Gen.C39_intrel",
    "Fplll.Gen.C39_simdioph_fails",
    "Fplll.Gen.C39_simdioph_partial",
    "Fplll.Gen.C39_uniform",
    "Fplll.Gen.C39_ntrulike",
    "Fplll.Gen.C39_ntrulike2",
    "Fplll.Gen.C39_qary",
    "Fplll.Gen.C39_trg",
    "Fplll.Gen.C39_trg2"
   ],
   "note": "gen_simdioph never writes column 0 below the first row: false for a matrix with old content (C39_simdioph_fails), proved when that column is zero before."
  },
  {
   "property": "C40",
   "status": "partial",
   "theorems": [
    "Fplll.LongExp.C40_exponent_partial",
    "Fplll.LongExp.C40_exponent_range",
    "Fplll.LongExp.C40_exponent_fails"
   ],
   "note": "False for negative numbers below -2^53 that round up to a power of two; proved for all others, and for all the error is at most one."
  },
  {
   "property": "C41",
   "status": "proved",
   "theorems": [
    "Fplll.C41_babai",
    "Fplll.C41_babai_gso"
   ],
   "note": "exact arithmetic, any rounding to a nearest integer"
  },
  {
   "property": "C42",
   "status": "proved",
   "theorems": [
    "Fplll.Enum.C42_subsolutions"
   ],
   "note": "minimum is over visited nodes shorter than b*_l, otherwise no entry"
  },
  {
   "property": "C43",
   "status": "partial",
   "theorems": [
    "Fplll.Enum.C43_node_counts_partial",
    "Fplll.Enum.C43_violated",
    "Fplll.Enum.C43_violated_wrap",
    "Fplll.NodeTotal.C43_total_iff",
    "Fplll.NodeTotal.C43_total_violated"
   ],
   "note": "violated: levels between the start level and k_end report one node too few (also 2^64-1 instead of 0), exact relation proved; the total is summed in an int and right only below 2^31 nodes (exact value proved)"
  },
  {
   "property": "C44",
   "status": "proved",
   "theorems": [
    "Fplll.Pruner.C44_enforce",
    "Fplll.Pruner.C44_enforce_valid",
    "Fplll.Pruner.C44_enforce_save",
    "Fplll.Pruner.C44_load_save",
    "Fplll.Pruner.C44_optimize",
    "Fplll.Pruner.C44_no_exception"
   ],
   "note": "exact real arithmetic; cost functions are arbitrary; n >= 2; covers the whole optimize_coefficients call tree, with both Nelder-Mead exceptions unreachable"
  },
  {
   "property": "C45",
   "status": "proved",
   "theorems": [
    "Fplll.Pruner.C45_nested_integral",
    "Fplll.Pruner.C45_relative_volume",
    "Fplll.Pruner.C45_no_pruning_volume",
    "Fplll.Pruner.C45_no_pruning_probability",
    "Fplll.Pruner.C45_probability_meaning",
    "Fplll.Pruner.C45_probability_range"
   ],
   "note": "exact real arithmetic; relative volume is the true Lebesgue volume of the cylinder intersection"
  },
  {
   "property": "C46",
   "status": "proved",
   "theorems": [
    "Fplll.C46_vector_matrix_product",
    "Fplll.C46_sqnorm_coordinates"
   ],
   "note": ""
  },
  {
   "property": "C47",
   "status": "partial",
   "theorems": [
    "C47_accepts",
    "C47_accepts_iff",
    "C47_missing_value",
    "C47_exit0",
    "C47_values_partial",
    "C47_flags",
    "C47_violated",
    "C47_r_violated",
    "C47_prune_uninitialised"
   ],
   "note": "Proved for all argument lists: exactly the well-formed command lines are accepted, a missing value is always an error, every field gets the last value of its switch. Violated (proved): after '-a sdb' a later '-a bkz' does not win because the flag stays; '-r' is documented as ignored but overwrites -c; the prune members are uninitialised. Hence status partial. atoi/atof are arbitrary functions."
  },
  {
   "property": "C48",
   "status": "proved",
   "theorems": [
    "C48_as_requested",
    "C48_default",
    "C48_abort_iff",
    "C48_run"
   ],
   "note": "Selection of the floating-point type and precision in lll_reduction_z and hlll_reduction_z for all builds and arguments, with an exact characterisation of the aborts. good_prec itself is an arbitrary integer."
  },
  {
   "property": "C49",
   "status": "proved",
   "theorems": [
    "Fplll.Enum.C49_builds_agree"
   ],
   "note": "recursive and iterative enumeration end in the same state"
  },
  {
   "property": "C50",
   "status": "partial",
   "theorems": [
    "Fplll.C50_from_to_canonical",
    "Fplll.C50_to_canonical",
    "Fplll.C50_to_canonical_start_fails"
   ],
   "note": "from_canonical inverts to_canonical for every block; to_canonical equals v*B* for start = 0 only, with start > 0 it has extra components along earlier rows"
  },
  {
   "property": "C51",
   "status": "proved",
   "theorems": [
    "C51_linear",
    "C51_linear_valid",
    "C51_zero_violated"
   ],
   "note": "Exact rationals; block size 0 writes outside the vector."
  },
  {
   "property": "C52",
   "status": "proved",
   "theorems": [
    "C52_lll_status",
    "C52_size_reduction_status"
   ],
   "note": "Any floats, any callable range."
  },
  {
   "property": "C53",
   "status": "proved",
   "theorems": [
    "C53_lll_reduction",
    "C53_stops"
   ],
   "note": "Any floats, all methods and retries. Integers of type long do not overflow in the model; get_si is exact on 64-bit values."
  },
  {
   "property": "C54",
   "status": "partial",
   "theorems": [
    "C54_svp_partial",
    "C54_svp_nolll_partial",
    "C54_coord_violated"
   ],
   "note": "Format s proved end to end (C53 + C17); format c proved with -nolll; format c without -nolll never prints (empty u, the product aborts): proved negation. shortest_vector in exact arithmetic, LLL with arbitrary floating-point behaviour."
  },
  {
   "property": "C55",
   "status": "proved",
   "theorems": [
    "C55_printed",
    "C55_computed"
   ],
   "note": ""
  },
  {
   "property": "C56",
   "status": "partial",
   "theorems": [
    "Fplll.HNaive.C56_decides_partial",
    "Fplll.HNaive.C56_size",
    "Fplll.HNaive.C56_expo_violated"
   ],
   "note": "proved without row exponents (the form hlll_reduction uses); with row exponents (is_hlll_reduced_zf) the size-reduction part is proved and the Lovasz part is false: R(i,i-1) is not rescaled, and (1024,0),(1,1) is accepted (proved)"
  },
  {
   "property": "C57",
   "status": "partial",
   "theorems": [
    "Fplll.C57_hkz",
    "Fplll.C57_hkz_delta_sr",
    "Fplll.C57_hkz_delta",
    "Fplll.C57_hkz_partial",
    "Fplll.C57_last_row_not_size_reduced"
   ],
   "note": "Proved for LLL parameters that satisfy Tame (the defaults do) and one enumeration per block. Violated for other parameters: C57_last_row_not_size_reduced (delta = 0.75), because hkz (bkz.cpp:438) reduces the last row with respect to one row only."
  },
  {
   "property": "C58",
   "status": "partial",
   "theorems": [
    "Fplll.C58_first_tour",
    "Fplll.C58_success_partial",
    "Fplll.C58_not_reduced_default",
    "Fplll.C58_not_reduced_without_lll"
   ],
   "note": "First tour: clean iff BKZ-reduced, for LLL-reduced input. Any number of tours when LLL's delta is larger than the radius factor by 2*eta-1. For equal parameters (the defaults) the claim is false after two tours, and without LLL before it is false after one: negations with witnesses."
  },
  {
   "property": "C59",
   "status": "partial",
   "theorems": [
    "Fplll.Pruner.C59_range",
    "Fplll.Pruner.C59_between",
    "Fplll.Pruner.C59_monotone_partial",
    "Fplll.Pruner.C59_second_coefficient_violated",
    "Fplll.Pruner.C59_odd_violated",
    "Fplll.Pruner.C59_odd_cut_off",
    "Fplll.Pruner.C59_linear_three_violated"
   ],
   "note": "Range proved in general; sandwich and monotonicity for first two coefficients 1; otherwise violated (proved)"
  },
  {
   "property": "C60",
   "status": "partial",
   "theorems": [
    "Fplll.Pruner.C60_sum",
    "Fplll.Pruner.C60_full",
    "Fplll.Pruner.C60_level",
    "Fplll.Pruner.C60_level_monotone",
    "Fplll.Pruner.C60_odd_level_not_monotone",
    "Fplll.Pruner.C60_full_detail_violated",
    "Fplll.Pruner.C60_public_ignores",
    "Fplll.Pruner.C60_expected"
   ],
   "note": "Sums, even levels and expected_solutions proved; odd levels not monotone and details of full vectors wrong (proved)"
  },
  {
   "property": "C61",
   "status": "partial",
   "theorems": [
    "Fplll.Pruner.C61_never_worse",
    "Fplll.Pruner.C61_never_worse_real",
    "Fplll.Pruner.C61_trials",
    "Fplll.Pruner.C61_repeated",
    "Fplll.Pruner.C61_repeated_violated",
    "Fplll.Pruner.C61_goal_flat_violated",
    "Fplll.Pruner.C61_adjust_hangs",
    "Fplll.Pruner.C61_adjust_hangs_valid"
   ],
   "note": "Never worse proved for the real target function (with Nelder-Mead the start must satisfy the lower bounds); termination of adjust_prob and greedy's parabola violated (proved)"
  },
  {
   "property": "C62",
   "status": "proved",
   "theorems": [
    "Fplll.C62_budget_suffices",
    "Fplll.C62_never_runs_out"
   ],
   "note": "rows linearly independent, eta >= 1/2, eta^2 < delta < 1, at most 2^15 columns (2^15 * 8^e in C62_budget_suffices); the product in the limit is exact, as it is up to 32767 rows (C105)"
  },
  {
   "property": "C63",
   "status": "partial",
   "theorems": [
    "Fplll.Dpe.C63_cmp_partial",
    "Fplll.Dpe.C63_zero_violated",
    "Fplll.Dpe.C63_mul_2si_zero_violated"
   ],
   "note": "Comparison is right for all normalized numbers. Violated: set_z(0), sqrt(0) and mul_2si of zero are not normalized and compare wrongly (proved)."
  },
  {
   "property": "C64",
   "status": "partial",
   "theorems": [
    "Fplll.Dpe.C64_add_partial",
    "Fplll.Dpe.C64_add_total",
    "Fplll.Dpe.C64_sub_eq",
    "Fplll.Dpe.C64_sub_partial",
    "Fplll.Dpe.C64_mul",
    "Fplll.Dpe.C64_div",
    "Fplll.Dpe.C64_sqrt",
    "Fplll.Dpe.C64_addmul",
    "Fplll.Dpe.C64_submul",
    "Fplll.Dpe.C64_set_d_partial",
    "Fplll.Dpe.C64_mul_2si_partial",
    "Fplll.Dpe.C64_neg_abs",
    "Fplll.Dpe.C64_add_corner_violated",
    "Fplll.Dpe.C64_set_z_zero_violated",
    "Fplll.Dpe.C64_zero_overflow_violated",
    "Fplll.Dpe.C64_set_d_subnormal_violated"
   ],
   "note": "Relative error at most 2^-53 for all normalized operands, nearest except for a characterised corner case of add/sub. Violations proved: corner case, zero from set_z, overflow with zero, subnormal set_d on x86."
  },
  {
   "property": "C65",
   "status": "partial",
   "theorems": [
    "Fplll.Dpe.C65_round",
    "Fplll.Dpe.C65_rint",
    "Fplll.Dpe.C65_floor",
    "Fplll.Dpe.C65_ceil",
    "Fplll.Dpe.C65_frac",
    "Fplll.Dpe.C65_get_z",
    "Fplll.Dpe.C65_get_si",
    "Fplll.Dpe.C65_get_z_exp_partial",
    "Fplll.Dpe.C65_get_si_exp_partial",
    "Fplll.Dpe.C65_set_z_partial",
    "Fplll.Dpe.C65_zero_overflow_violated"
   ],
   "note": "All conversions proved for all normalized numbers except get_si_exp/get_z_exp of zero, which overflow (proved), and set_z(0) (C63)."
  },
  {
   "property": "C66",
   "status": "partial",
   "theorems": [
    "Fplll.Dpe.C66_pow_partial",
    "Fplll.Dpe.C66_inverse_violated",
    "Fplll.Dpe.C66_dual_radius_violated",
    "Fplll.Dpe.C66_large_violated"
   ],
   "note": "Powers 0..1022 are correctly rounded. Violated: pow_si(x,-1) is zero, hence the dual enumeration radius in BKZ with dpe (proved); large powers underflow (proved)."
  },
  {
   "property": "C67",
   "status": "proved",
   "theorems": [
    "Fplll.Enum.C67_double",
    "Fplll.Enum.C67_double_machine",
    "Fplll.Enum.C67_double_nearest",
    "Fplll.Enum.C67_nearly_shortest",
    "Fplll.Enum.C67_not_shortest",
    "Fplll.Enum.C67_underflow",
    "Fplll.Enum.C11_enumeration_sound",
    "Fplll.Enum.C12_enumeration_complete",
    "Fplll.Enum.C12_enumeration_complete_svp",
    "Fplll.Enum.C13_terminates",
    "Fplll.Enum.C13_no_duplicates",
    "Fplll.Enum.C15_enumerate_finds_N_shortest"
   ],
   "note": "For every rounding that meets Rnd (rounding to 53 bits does); no underflow or overflow. The exact minimum may be missed by the rounding error (C67_not_shortest)."
  },
  {
   "property": "C68",
   "status": "proved",
   "theorems": [
    "Fplll.ErrB.C68_error_bound",
    "Fplll.ErrB.C68_error_bound'",
    "Fplll.ErrB.enough_mpfr",
    "Fplll.ErrB.mpfr_ok",
    "Fplll.ErrB.rndU_r53"
   ],
   "note": "The exact bound needs Enough, a condition on the returned number; enough_mpfr says when it holds for b bits. Coordinates of more than 53 bits are excluded. No overflow or underflow."
  },
  {
   "property": "C69",
   "status": "partial",
   "theorems": [
    "Fplll.ErrB.C69_max_error_partial",
    "Fplll.ErrB.C69_negative",
    "Fplll.ErrB.check_sound"
   ],
   "note": "The code violates it: minOptE <= 0 is not checked. Proved when the computable check holds."
  },
  {
   "property": "C70",
   "status": "partial",
   "theorems": [
    "Fplll.ErrB.C70_init_delta_partial",
    "Fplll.ErrB.C70_large_mu",
    "Fplll.ErrB.C70_negative_bound"
   ],
   "note": "The code violates it for |mu| > 1 and for maxRelDR >= 1. One operation rounds to nearest where it should round up; the assumed error must be smaller by the factor rho."
  },
  {
   "property": "C71",
   "status": "proved",
   "theorems": [
    "Fplll.SVP.C71_proved_double",
    "Fplll.SVP.C71_proved_double_init",
    "Fplll.SVP.C71_useful_index"
   ],
   "note": "provided the first error bound is small and the coordinates have at most 53 bits (Start); relative errors of r at most 1/3"
  },
  {
   "property": "C72",
   "status": "proved",
   "theorems": [
    "Fplll.Ext.C72_dispatch",
    "Fplll.Ext.C72_found",
    "Fplll.Ext.C72_terminates",
    "Fplll.Ext.C72_finds_N_shortest",
    "Fplll.Ext.C72_same_length",
    "Fplll.Ext.C72_shortest_vector",
    "Fplll.Ext.C72_shortest_vector_proved",
    "Fplll.Ext.C72_proved_double",
    "Fplll.Ext.C72_radius_primal",
    "Fplll.Ext.C72_radius_dual",
    "Fplll.Ext.C72_radius_dual_iff"
   ],
   "note": "Also a finding: the radius for dual problems with an external enumerator."
  },
  {
   "property": "C73",
   "status": "partial",
   "theorems": [
    "Fplll.SVP.C73_iterative",
    "Fplll.SVP.C73_iterative_lll",
    "Fplll.SVP.C73_default_partial",
    "Fplll.SVP.C73_default_lll_partial",
    "Fplll.SVP.C73_default_two",
    "Fplll.SVP.C73_default_fails",
    "Fplll.Enum.C73_max_indices"
   ],
   "note": "Holds for builds without recursive enumeration; false in the default build (C73_default_fails), where the loss is bounded. Exact arithmetic; termination only for targets without ties in babai."
  },
  {
   "property": "C74",
   "status": "partial",
   "theorems": [
    "Fplll.FpConv.C74_get_z",
    "Fplll.FpConv.C74_get_si",
    "Fplll.FpConv.C74_rnd_we",
    "Fplll.FpConv.C74_row_mult",
    "Fplll.FpConv.C74_babai_step",
    "Fplll.FpConv.C74_double",
    "Fplll.FpConv.C74_long_double",
    "Fplll.FpConv.C74_long_double_force_long",
    "Fplll.FpConv.C74_last_binade",
    "Fplll.FpConv.C74_long_ub",
    "Fplll.FpConv.C74_dd_partial",
    "Fplll.FpConv.C74_dd_violated",
    "Fplll.FpConv.C74_dd_trunc_violated",
    "Fplll.FpConv.C74_dd_rnd_violated",
    "Fplll.FpConv.C74_dd_set_z_not_normal",
    "Fplll.FpConv.C74_dd_set_z",
    "Fplll.FpConv.C74_qd_set_z",
    "Fplll.FpConv.C74_qd_set_z_loses"
   ],
   "note": "Proved for double and for long double without row_op_force_long, outside the last binade. Violated (witnesses proved) for long double with row_op_force_long, in the last binade, for long entries beyond 2^63, and for dd_real and qd_real, which look at the first double only."
  },
  {
   "property": "C75",
   "status": "partial",
   "theorems": [
    "Fplll.LllDiff.C75_llldiff_iff",
    "Fplll.LllDiff.C75_sound",
    "Fplll.LllDiff.C75_complete_partial",
    "Fplll.LllDiff.C75_leading_zero",
    "Fplll.LllDiff.C75_extra_ignored",
    "Fplll.LllDiff.C75_main"
   ],
   "note": "Sound. The converse fails for rows that begin with zero (witness proved) and holds for bases without such rows; extra rows of the second matrix are ignored (witness proved)."
  },
  {
   "property": "C76",
   "status": "partial",
   "theorems": [
    "Fplll.ZNum.C76_mpz",
    "Fplll.ZNum.C76_mpz_addmul_si_min",
    "Fplll.ZNum.C76_long_defined",
    "Fplll.ZNum.C76_long",
    "Fplll.ZNum.C76_mod_violated",
    "Fplll.ZNum.C76_mod_partial",
    "Fplll.ZNum.C76_mul_ui_wraps",
    "Fplll.ZNum.C76_double",
    "Fplll.ZNum.C76_double_shift_violated",
    "Fplll.ZNum.C76_double_rounds",
    "Fplll.ZNum.C76_rows_defined",
    "Fplll.ZNum.C76_rows_wrap",
    "Fplll.ZNum.C76_rows",
    "Fplll.ZNum.C76_size_reduction_overflow"
   ],
   "note": "Holds for mpz_t; for long when nothing overflows, and for row operations in two's complement arithmetic when the result fits; for double up to 2^53. Violations proved: mod, div_2si of double, mul_ui of long, and overflow in the size reduction of bases for which the wrapper uses long."
  },
  {
   "property": "C77",
   "status": "partial",
   "theorems": [
    "Fplll.Shape.C77_slope",
    "Fplll.Shape.C77_slope_one",
    "Fplll.Shape.C77_log_det",
    "Fplll.Shape.C77_log_det_lattice",
    "Fplll.Shape.C77_root_det",
    "Fplll.Shape.C77_slide_potential",
    "Fplll.Shape.C77_start_row_violated",
    "Fplll.Shape.C77_slide_stops",
    "Fplll.Shape.C77_slide_stops_fplll",
    "Fplll.Shape.C77_gh",
    "Fplll.Shape.C77_radius_primal",
    "Fplll.Shape.C77_radius_dual",
    "Fplll.Shape.C77_radius_dual_violated"
   ],
   "note": "Proved in exact arithmetic for slope, determinants, potential, termination of the main loop and primal radius. Violated: start_row is ignored by get_slide_potential, and the Gaussian heuristic of dual blocks uses the primal determinant."
  },
  {
   "property": "C78",
   "status": "partial",
   "theorems": [
    "Fplll.BKZ.C78_block",
    "Fplll.BKZ.C78_last_row_violated",
    "Fplll.BKZ.C78_two_rows_violated",
    "Fplll.BKZ.C78_svp_violated",
    "Fplll.BKZ.C78_returns_partial"
   ],
   "note": "Lattice of the block kept, outside unchanged; the last row takes no part and two rows hang (both proved); termination otherwise under an assumption on the random numbers."
  },
  {
   "property": "C79",
   "status": "partial",
   "theorems": [
    "Fplll.BkzTop.C79_lattice_partial",
    "Fplll.BkzTop.C79_empty",
    "Fplll.BkzTop.C79_prec_partial",
    "Fplll.BkzTop.C79_prec_violated",
    "Fplll.BkzTop.C79_status",
    "Fplll.BkzTop.C79_hkz",
    "Fplll.BkzTop.C79_lost_violated"
   ],
   "note": "any return, exception or endless run keeps the lattice and, with u, the transform, given that the conversions back from long succeed; hkz_reduction in exact arithmetic returns an HKZ basis. Violated: results of the conversions back are ignored (singular u with success), mpfr precision not restored after an exception. long arithmetic without overflow assumed"
  },
  {
   "property": "C80",
   "status": "proved",
   "theorems": [
    "Fplll.C80_bkz_stops",
    "Fplll.C80_progress",
    "Fplll.C80_slide_loop_stops",
    "Fplll.C80_total"
   ],
   "note": "Exact arithmetic, fplll's enumeration with radius factor below 1, one enumeration per block, no preprocessing; LLL exceptions remain a possible outcome."
  },
  {
   "property": "C81",
   "status": "proved",
   "theorems": [
    "Fplll.ErrB.C81_min_prec",
    "Fplll.ErrB.C81_gso_error",
    "Fplll.ErrB.C81_gsoErr",
    "Fplll.ErrB.C81_proved_svp",
    "Fplll.ErrB.enough_of_minPrec",
    "Fplll.Chol.error",
    "Fplll.Chol.error_mu",
    "Fplll.ErrB.gex_svp",
    "Fplll.ErrB.minPrec_example"
   ],
   "note": "For every (delta, eta)-LLL-reduced basis of independent integer vectors and every precision at least that of gso_min_prec. mpfr numbers have unbounded exponents; mpfr_log is assumed to be rounded in the direction asked for; the range of int and double in compute_min_prec is not modelled."
  },
  {
   "property": "C82",
   "status": "partial",
   "theorems": [
    "Fplll.ErrB.C82_l2_violated",
    "Fplll.ErrB.C82_l2_partial",
    "Fplll.ErrB.C82_l2_eps"
   ],
   "note": "Violated: eta = 0.5 or delta = 1 lead to the logarithm of 0 and to the conversion of an infinity to int. Proved: defined for d >= 1, eta > 1/2, delta < 1, eps > 0."
  },
  {
   "property": "C83",
   "status": "proved",
   "theorems": [
    "Fplll.ErrB.C83_proved_lll",
    "Fplll.ErrB.C83_l2",
    "Fplll.Chol.data_of_comp",
    "Fplll.LLL.lll_round"
   ],
   "note": "Soundness of a successful run for linearly independent rows, integer Gram matrix, Lovasz condition; exponents unbounded."
  },
  {
   "property": "C84",
   "status": "proved",
   "theorems": [
    "Fplll.ErrB.C84_proved_lll_succeeds",
    "Fplll.ErrB.C84_l2",
    "Fplll.LLL.babaiLoop_ok",
    "Fplll.LLL.lll_ok"
   ],
   "note": "Success of LLL with rounding on independent vectors: babai never fails and the iteration limit suffices. epsilon <= 1/16 and at most 2^14 columns; numbers with relative error 2^-P and unbounded exponents; Lov\u00e1sz' condition, no early failure of the GSO."
  },
  {
   "property": "C85",
   "status": "proved",
   "theorems": [
    "Fplll.Wrapper.C85_lll_reduction",
    "Fplll.Wrapper.C85_wrapper",
    "Fplll.Wrapper.C85_default"
   ],
   "note": "Independent rows, no Siegel flag; numbers of at least good_prec bits have relative error 2^-good_prec (no overflow or underflow), fast and heuristic runs are arbitrary up to the size of their integers."
  },
  {
   "property": "C86",
   "status": "proved",
   "theorems": [
    "Fplll.SVP.C86_shortestVectorR",
    "Fplll.Cli.C86_svp_cmd",
    "Fplll.ErrB.C86_shortest_vector"
   ],
   "note": "At most 52 vectors: the a priori bound for the enumeration in 53-bit doubles grows like 1.78^d. Exponent ranges of double and mpfr are not modelled. The hypotheses on the LLL reduction are those of C85."
  },
  {
   "property": "C87",
   "status": "partial",
   "theorems": [
    "Fplll.LatticeGen.C87_r",
    "Fplll.LatticeGen.C87_u",
    "Fplll.LatticeGen.C87_s_partial",
    "Fplll.LatticeGen.C87_s_violated",
    "Fplll.LatticeGen.C87_n_partial",
    "Fplll.LatticeGen.C87_n_violated",
    "Fplll.LatticeGen.C87_N_partial",
    "Fplll.LatticeGen.C87_q",
    "Fplll.LatticeGen.C87_T",
    "Fplll.LatticeGen.C87_t_partial",
    "Fplll.LatticeGen.C87_t_violated",
    "Fplll.LatticeGen.C87_safe_partial",
    "Fplll.LatticeGen.C87_safe_violated",
    "Fplll.LatticeGen.C87_n_rejects",
    "Fplll.LatticeGen.C87_q_rejects",
    "Fplll.LatticeGen.C87_missing"
   ],
   "note": "r, u, q and T print the documented matrix for all parameters; s, n, N and t deviate from README.md (proved), and what they print instead is proved; no access outside of arrays for dimension >= 1 and k >= 0, with proved witnesses for the rest. Missing parameters, unknown methods and invalid moduli end with an error message."
  },
  {
   "property": "C88",
   "status": "partial",
   "theorems": [
    "Fplll.Volume.C88_factorial",
    "Fplll.Volume.C88_ball_vol",
    "Fplll.Volume.C88_sphere_volume",
    "Fplll.Volume.C88_cost_estimate",
    "Fplll.Volume.C88_level",
    "Fplll.Volume.C88_bounds_violated"
   ],
   "note": "All entries of both tables and both functions of util.cpp are correct; the access to the tables is not checked: a Pruner of dimension 2047 reads outside of them (proved)."
  },
  {
   "property": "C89",
   "status": "partial",
   "theorems": [
    "Fplll.TopEnum.C89_complete",
    "Fplll.TopEnum.C89_disjoint",
    "Fplll.TopEnum.C89_sign_partial",
    "Fplll.TopEnum.C89_subtrees",
    "Fplll.TopEnum.C89_terminates",
    "Fplll.TopEnum.C89_tie_violated"
   ],
   "note": "Proved in full for exact arithmetic except that v and -v are both visited when the first estimate equals max_volume exactly (C89_tie_violated)."
  },
  {
   "property": "C90",
   "status": "partial",
   "theorems": [
    "Fplll.Cli.C90_cvp_partial",
    "Fplll.Cli.C90_short_violated",
    "Fplll.Cli.C90_long_violated",
    "Fplll.Cli.C90_empty_violated",
    "Fplll.Cli.C90_default_violated",
    "Fplll.Cli.C90_dim_one_violated",
    "Fplll.Cli.C90_coord_violated"
   ],
   "note": "Exactly closest in builds without recursive enumeration, within the slack of C73 in the default build (violated there); closest_vector in exact arithmetic; violations for malformed targets, dimension one and format c."
  },
  {
   "property": "C91",
   "status": "proved",
   "theorems": [
    "Fplll.ErrB.C91_object",
    "Fplll.ErrB.C91_is_lll_reduced",
    "Fplll.ErrB.C91_after_lll",
    "Fplll.ErrB.C91_low_precision_violated",
    "Fplll.ErrB.C91_float_gram_violated"
   ],
   "note": "Both directions with margin theta = eps/(64(d+1)), for objects with an integer Gram matrix; both hypotheses are necessary (witness with 3 bits; witness with 53 bits and rounded scalar products, on which the heuristic LLL also reports success)."
  },
  {
   "property": "C92",
   "status": "proved",
   "theorems": [
    "Fplll.ErrB.C92_siegel_sound",
    "Fplll.ErrB.C92_siegel_succeeds",
    "Fplll.ErrB.C92_l2",
    "Fplll.ErrB.C92_mkCfg",
    "Fplll.Wrapper.C92_wrapper",
    "Fplll.Wrapper.C92_lll_reduction",
    "Fplll.ErrB.C92_not_lovasz"
   ],
   "note": "Same setting as C83-C85: exact Gram matrix, numbers of P bits without exponent bounds. The wrapper theorem takes the threshold computed in the numbers of each run; C92_l2 covers any other way of computing it."
  },
  {
   "property": "C93",
   "status": "partial",
   "theorems": [
    "Fplll.BkzDump.C93_json",
    "Fplll.BkzDump.C93_no_influence",
    "Fplll.BkzDump.C93_small_block_violated",
    "Fplll.BkzDump.C93_inf_violated",
    "Fplll.BkzDump.C93_twice_documented"
   ],
   "note": "Proved for block size at least two and finite numbers. Violated: block size below two returns success with an unclosed array, runs ended by an exception leave it open, infinite norms are not JSON, and the norms are twice the documented values."
  },
  {
   "property": "C94",
   "status": "partial",
   "theorems": [
    "Fplll.HlllPrec.C94_checks",
    "Fplll.HlllPrec.C94_defined",
    "Fplll.HlllPrec.C94_undefined",
    "Fplll.HlllPrec.C94_value",
    "Fplll.HlllPrec.C94_second_term",
    "Fplll.HlllPrec.C94_precision_partial",
    "Fplll.HlllPrec.C94_too_small_violated",
    "Fplll.HlllPrec.C94_alpha_violated"
   ],
   "note": "Defined for theta > 0 and rounded eta^2 < delta; equal to the documented precision only when the first term of the maximum is the larger one, because the result of max_f is discarded. Violated: theta = 0, empty matrices and delta = eta^2 give an undefined conversion; default parameters give too small a precision from dimension 100 on."
  },
  {
   "property": "C95",
   "status": "partial",
   "theorems": [
    "Fplll.RunPruner.C95_window",
    "Fplll.RunPruner.C95_run",
    "Fplll.RunPruner.C95_command",
    "Fplll.RunPruner.C95_last_row_violated",
    "Fplll.RunPruner.C95_minus_one_violated",
    "Fplll.RunPruner.C95_one_row_violated",
    "Fplll.RunPruner.C95_table_violated"
   ],
   "note": "Holds for independent rows, positive targets and blocks of 2 to 2046 rows. Violated: prune_min_prob = -1 (documented, default) throws for every matrix; the block of the last row is replaced by all rows; blocks of one row or more than 2046 rows leave the arrays."
  },
  {
   "property": "C96",
   "status": "partial",
   "theorems": [
    "Fplll.LllCmd.C96_end_to_end",
    "Fplll.LllCmd.C96_guarantee",
    "Fplll.LllCmd.C96_library",
    "Fplll.LllCmd.C96_status",
    "Fplll.LllCmd.C96_invalid",
    "Fplll.LllCmd.C96_print_comma_violated",
    "Fplll.LllCmd.C96_empty_violated",
    "Fplll.LllCmd.C96_no_columns_violated",
    "Fplll.LllCmd.C96_bad_options",
    "Fplll.LllCmd.C96_help"
   ],
   "note": "Whole program from arguments and input text to output text and exit code, for mpz_t integers and matrices with at least one row and one column; matrices without rows or columns are undefined behaviour (proved)."
  },
  {
   "property": "C97",
   "status": "partial",
   "theorems": [
    "Fplll.GSO.C97_r",
    "Fplll.GSO.C97_mu_partial",
    "Fplll.GSO.C97_default",
    "Fplll.GSO.C97_offset_violated",
    "Fplll.GSO.C97_vector_violated",
    "Fplll.GSO.C97_uninitialised_violated",
    "Fplll.GSO.C97_overflow_violated"
   ],
   "note": "dump_r_d and the strictly lower triangle of dump_mu_d (array) are exact after update_gso; violated by the vector overload of dump_mu_d, on and above the diagonal of mu, for the default size with an offset and for sizes above 46340 (all proved)."
  },
  {
   "property": "C98",
   "status": "partial",
   "theorems": [
    "Fplll.RedCmd.C98_bkz_partial",
    "Fplll.RedCmd.C98_codes",
    "Fplll.RedCmd.C98_errors",
    "Fplll.RedCmd.C98_hkz_partial",
    "Fplll.RedCmd.C98_hkz_reduced_partial",
    "Fplll.RedCmd.C98_hkz_nolll_violated",
    "Fplll.RedCmd.C98_empty_violated",
    "Fplll.RedCmd.C98_u_violated",
    "Fplll.RedCmd.C98_bad_options",
    "Fplll.RedCmd.C98_help"
   ],
   "note": "Whole program for mpz_t integers and matrices with rows and columns. Violated: -nolll is ignored by hkz, large transforms are written as singular matrices with exit code 0, empty matrices are undefined behaviour."
  },
  {
   "property": "C99",
   "status": "partial",
   "theorems": [
    "Fplll.HlllCmd.C99_end_to_end_partial",
    "Fplll.HlllCmd.C99_library",
    "Fplll.HlllCmd.C99_one_row_violated",
    "Fplll.HlllCmd.C99_nolll",
    "Fplll.HlllCmd.C99_reduced_partial",
    "Fplll.HlllCmd.C99_returns",
    "Fplll.HlllCmd.C99_nolll_decides",
    "Fplll.HlllCmd.C99_empty_violated",
    "Fplll.HlllCmd.C99_rejects",
    "Fplll.HlllCmd.C99_invalid",
    "Fplll.HlllCmd.C99_status_violated",
    "Fplll.HlllCmd.C99_bad_options",
    "Fplll.HlllCmd.C99_help"
   ],
   "note": "Lattice, transforms, output and exit code for every arithmetic with at least two rows and no more rows than columns; reducedness and termination for exact arithmetic, termination only for -m proved and -m fast. Violated: one row, no rows or columns, exit code 0 of the default method."
  }
 ]
}