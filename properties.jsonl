{"id": "C01", "title": "Row operations keep the lattice and the transform", "statement": "Whatever sequence of MatGSO row operations (row_add, row_sub, row_addmul*, row_swap, move_row, with any indices i != j and any integer multipliers) a caller performs, at every moment the basis equals U times the original basis, the inverse-transpose matrix satisfies U_inv^T * U^T = I, and the rows generate exactly the original lattice.", "quantifier": "all bases of all sizes, all finite histories of row operations, all multipliers", "why_tests_cant": "the histories are unbounded and the multipliers arbitrary; a test checks one history at a time", "anchors": ["fplll/gso.cpp: MatGSO::row_add, row_sub, row_addmul_si, row_addmul_si_2exp, row_addmul_2exp, row_swap, move_row", "fplll/gso.h: MatGSO"]}
{"id": "C02", "title": "LLL never leaves the input lattice, whatever the floating point does", "statement": "For every input basis, every (delta, eta), every flag set and every behaviour of the floating-point type (including arbitrary rounding errors, NaN comparisons and wrong mu values), when lll_reduction stops - with success, failure or at its iteration limit - the rows of the basis are a unimodular transform of the input rows; if u / u_inv_t were supplied they are exactly that transform and its inverse transpose.", "quantifier": "all integer matrices, all parameters, all floating point outcomes, all points where LLL can stop", "why_tests_cant": "the claim quantifies over every possible rounding error sequence", "anchors": ["fplll/lll.cpp: LLLReduction::lll, babai, size_reduction, early_reduction", "fplll/gso.cpp"]}
{"id": "C03", "title": "LLL success means the output is (delta, eta)-reduced", "statement": "If LLL over exact arithmetic reports RED_SUCCESS on the whole basis then the first d - zeros rows are linearly independent, size-reduced with |mu_ij| <= eta and satisfy the Lovasz condition with delta (with the Siegel flag: Siegel's condition with delta - eta^2), and the last `zeros` rows are zero.", "quantifier": "all integer bases (including linearly dependent ones), all eta >= 0 and delta > eta^2, both swap conditions, with and without early reduction, any earlier use of the object", "why_tests_cant": "reducedness of every output of an adaptive loop cannot be sampled exhaustively", "anchors": ["fplll/lll.cpp: LLLReduction::lll, babai"]}
{"id": "C04", "title": "is_lll_reduced is exactly the definition of reducedness", "statement": "Over exact arithmetic is_lll_reduced(m, delta, eta) returns true if and only if the rows of the basis satisfy |mu_ij| <= eta for all j<i and the Lovasz condition delta*r_{i-1,i-1} <= r_ii + mu_{i,i-1}^2 r_{i-1,i-1} for all i>=1.", "quantifier": "all bases, all delta, eta", "why_tests_cant": "a two-sided equivalence over all inputs", "anchors": ["fplll/lll.cpp: is_lll_reduced"]}
{"id": "C05", "title": "LLL always stops", "statement": "LLL stops for all floating-point behaviours: each size-reduction call stops because of its exponent test and the main loop performs at most its iteration budget of Lovasz steps before a status is reported. Over exact arithmetic with eta >= 1/2 the only possible failure is running out of that budget.", "quantifier": "all inputs, all floating point outcomes", "why_tests_cant": "termination for all inputs is not observable by running finitely many", "anchors": ["fplll/lll.cpp: LLLReduction::lll (max_iter), babai"]}
{"id": "C06", "title": "Integer Gram matrix is always the Gram matrix of the current basis", "statement": "In integer-Gram mode, after any history of row operations and any interleaving of reads, get_int_gram(i,j) equals the inner product of the current rows i and j, for both orders of the arguments.", "quantifier": "all bases, all histories of row operations and reads", "why_tests_cant": "in-place symmetric updates touch only one triangle; errors appear only for particular index orders and histories", "anchors": ["fplll/gso.cpp: row_add/row_sub/row_addmul_*/row_swap/move_row (enable_int_gram branches)", "fplll/gso_interface.h: sym_g", "fplll/nr/matrix.cpp: rotate_gram_left, rotate_gram_right"]}
{"id": "C07", "title": "GSO coefficients returned to the caller are never stale", "statement": "Over exact arithmetic, after any history of row operations, row swaps, moves and partial updates, whenever update_gso_row(i, last_j) returns true, get_mu(i,j) and get_r(i,j) for j<=last_j are the Gram-Schmidt coefficients of the current basis (for linearly independent leading rows).", "quantifier": "all bases, all histories mixing mutation, lazy partial updates and invalidation", "why_tests_cant": "lazy validity counters can be wrong only after particular histories", "anchors": ["fplll/gso_interface.cpp: update_gso_row, invalidate_gso_row, row_op_end", "fplll/gso.cpp: row_swap, move_row"]}
{"id": "C08", "title": "Gram-only mode refines basis mode", "statement": "Running any history of row operations on MatGSOGram with the Gram matrix of a basis yields the Gram matrix of the basis that MatGSO would have produced with the same history, and the same transform.", "quantifier": "all bases, all histories of row operations", "why_tests_cant": "a simulation claim over unbounded histories of two implementations", "anchors": ["fplll/gso_gram.cpp: row_add, row_sub, row_addmul_si, row_addmul_si_2exp, row_addmul_2exp, row_swap, move_row"]}
{"id": "C09", "title": "Sign changes of rows are reflected in the transform", "statement": "After negate_row_of_b (used when a short vector is inserted) the basis is still U times the original basis.", "quantifier": "all bases, all rows", "why_tests_cant": "the claim is about the transform after an arbitrary history; existing tests do not look at U after BKZ", "anchors": ["fplll/gso.h: MatGSO::negate_row_of_b", "fplll/gso_gram.h: MatGSOGram::negate_row_of_b", "fplll/bkz.cpp: svp_postprocessing_generic"]}
{"id": "C10", "title": "Rotations and reversals are exactly the documented permutations", "statement": "rotate(first, middle, last), rotate_left, rotate_right and reverse permute the rows of a matrix or the entries of a vector exactly as documented: element at position middle+i goes to first+i, nothing is lost, duplicated or moved outside [first,last].", "quantifier": "all vectors of all lengths, all 0<=first<=middle<last<=size", "why_tests_cant": "an in-place swap loop must be right for every length and every rotation amount", "anchors": ["fplll/nr/numvect.h: reverse_by_swap, rotate_by_swap, rotate_left_by_swap, rotate_right_by_swap"]}
{"id": "C11", "title": "Enumeration reports only genuine solutions", "statement": "Over exact arithmetic every coefficient vector that lattice enumeration hands to the evaluator has as reported distance exactly the squared length of the corresponding (projected) vector minus target, that distance respects every level's pruning bound in force, and in SVP mode the vector is not zero.", "quantifier": "all GSO data (mu, r), all targets, all pruning bounds, all evaluator behaviours that shrink the bound", "why_tests_cant": "all trees of all dimensions", "anchors": ["fplll/enum/enumerate_base.cpp: enumerate_loop, enumerate_recursive", "fplll/enum/enumerate_base.h: next_pos_up", "fplll/enum/enumerate.cpp: prepare_enumeration, process_solution"]}
{"id": "C12", "title": "Enumeration misses nothing", "statement": "Over exact arithmetic every coefficient vector whose partial distances are within the bounds at every level (in SVP mode: exactly one representative of each pair +-v) is visited, as long as the evaluator does not shrink the radius below its distance.", "quantifier": "all dimensions, mu, r>0, targets, pruning bounds", "why_tests_cant": "completeness over an infinite family of integer search trees", "anchors": ["fplll/enum/enumerate_base.cpp: enumerate_loop, enumerate_recursive", "fplll/enum/enumerate_base.h: next_pos_up"]}
{"id": "C13", "title": "Enumeration visits no vector twice and terminates", "statement": "No coefficient vector is handed to the evaluator twice during one enumerate call, and for positive r and finite bounds the call terminates.", "quantifier": "all dimensions, mu, r>0, targets, bounds", "why_tests_cant": "uniqueness and termination over all inputs", "anchors": ["fplll/enum/enumerate_base.cpp: enumerate_loop", "fplll/enum/enumerate_base.h: next_pos_up"]}
{"id": "C14", "title": "Zig-zag visits integers in order of distance", "statement": "At each level the candidate coefficients are visited in non-decreasing distance to the centre and every integer is eventually visited exactly once.", "quantifier": "all real (rational) centres including half-integers", "why_tests_cant": "an infinite sequence for every centre", "anchors": ["fplll/enum/enumerate_base.h: next_pos_up, roundto", "fplll/enum/topenum.cpp: Enumerator::enum_next"]}
{"id": "C15", "title": "Best-N evaluator keeps exactly the N shortest", "statement": "After any sequence of solutions offered to a FastEvaluator with strategy EVALSTRATEGY_BEST_N_SOLUTIONS, the stored set is exactly the N shortest offered solutions (all if fewer), and the returned bound is never below the largest stored distance, so no better solution can be pruned.", "quantifier": "all sequences of offered distances, all N>=1", "why_tests_cant": "sequences are unbounded", "anchors": ["fplll/enum/evaluator.h: Evaluator::process_sol, FastEvaluator::eval_sol"]}
{"id": "C16", "title": "First-N and opportunistic strategies behave as documented", "statement": "With EVALSTRATEGY_FIRST_N_SOLUTIONS the evaluator keeps the first N solutions offered and then closes the search; with EVALSTRATEGY_OPPORTUNISTIC_N_SOLUTIONS every solution tightens the bound and the last N improving solutions are kept.", "quantifier": "all sequences of offered distances, all N>=1", "why_tests_cant": "sequences are unbounded", "anchors": ["fplll/enum/evaluator.h: Evaluator::process_sol"]}
{"id": "C17", "title": "shortest_vector returns a shortest non-zero vector", "statement": "Over exact arithmetic shortest_vector (fast method, no pruning) returns, for every basis of independent rows, coordinates of a non-zero lattice vector of minimal Euclidean norm in the whole lattice (although it enumerates only a leading sub-basis).", "quantifier": "all bases of linearly independent integer vectors", "why_tests_cant": "global minimality over an infinite lattice for all inputs", "anchors": ["fplll/svpcvp.cpp: last_useful_index, get_basis_min, shortest_vector_ex"]}
{"id": "C18", "title": "Dual shortest vector", "statement": "With SVP_DUAL, shortest_vector returns coordinates of a shortest non-zero vector of the dual lattice.", "quantifier": "all bases of linearly independent integer vectors", "why_tests_cant": "global minimality over all inputs", "anchors": ["fplll/svpcvp.cpp: shortest_vector_ex (SVP_DUAL), last_useful_index"]}
{"id": "C19", "title": "shortest_vectors returns up to max_sols vectors", "statement": "When shortest_vectors reports success the returned lists contain at least one and at most max_sols vectors, in order of increasing length, for every max_sols >= 1.", "quantifier": "all bases, all max_sols >= 1", "why_tests_cant": "boundary values of max_sols and all bases", "anchors": ["fplll/svpcvp.cpp: shortest_vectors, shortest_vector_ex"]}
{"id": "C20", "title": "closest_vector returns a closest vector", "statement": "Over exact arithmetic closest_vector with CVPM_FAST on an LLL-reduced basis succeeds and returns a lattice vector whose distance to the target is minimal.", "quantifier": "all LLL-reduced bases, all integer targets", "why_tests_cant": "global minimality over all inputs; needs the initial search radius to be large enough for every input", "anchors": ["fplll/svpcvp.cpp: closest_vector"]}
{"id": "C21", "title": "Inserting an enumerated vector into the basis", "statement": "BKZ's insertion of a vector given by block coefficients x (primal: with gcd 1) puts exactly that vector (up to sign) at the requested position, keeps every other block row an integer combination of the block, and leaves the lattice and the rows outside the block unchanged.", "quantifier": "all block sizes, all coefficient vectors, all bases", "why_tests_cant": "the gcd tree must be right for every coefficient vector and size", "anchors": ["fplll/bkz.cpp: svp_postprocessing, svp_postprocessing_generic"]}
{"id": "C22", "title": "BKZ never leaves the input lattice", "statement": "At every point where BKZ/SD-BKZ/slide reduction can stop (success, tour limit, time limit, error, exception) the basis generates the input lattice.", "quantifier": "all bases, all parameters, all outcomes of enumeration, pruning, randomness and floating point", "why_tests_cant": "quantifies over random seeds, timers and float behaviour", "anchors": ["fplll/bkz.cpp: BKZReduction::bkz, tour, trunc_tour, svp_reduction, rerandomize_block, svp_preprocessing"]}
{"id": "C23", "title": "BKZ tours stay inside the basis and cover every block", "statement": "For every basis size and block size >= 2 one BKZ tour calls the SVP oracle for exactly the blocks [kappa, min(kappa+block_size, num_rows)) with kappa running over all of 0..num_rows-2 once in increasing order; SD-BKZ and slide tours likewise never address a row outside the basis.", "quantifier": "all num_rows, min_row, block_size", "why_tests_cant": "index arithmetic for all sizes", "anchors": ["fplll/bkz.cpp: tour, trunc_tour, trunc_dtour, hkz, sd_tour, slide_tour, bkz"]}
{"id": "C24", "title": "BKZ loop control and status", "statement": "bkz() stops after at most max_loops tours when BKZ_MAX_LOOPS is set, reports RED_BKZ_LOOPS_LIMIT exactly when the limit ended the run, RED_BKZ_TIME_LIMIT when the time limit did, and success only when a clean tour occurred, auto-abort fired or the block covers the basis; errors of sub-steps surface as a status.", "quantifier": "all sequences of tour results and clock readings, all flags", "why_tests_cant": "depends on adversarial sequences of tour outcomes and exceptions", "anchors": ["fplll/bkz.cpp: BKZReduction::bkz, set_status", "fplll/defs.h: RedStatus"]}
{"id": "C25", "title": "BKZ auto-abort", "statement": "test_abort returns true exactly when the slope has failed to decrease below scale times its previous best for at least max_no_dec consecutive tests.", "quantifier": "all sequences of slopes", "why_tests_cant": "history dependent for unbounded sequences", "anchors": ["fplll/bkz.cpp: BKZAutoAbort::test_abort", "fplll/bkz.h: BKZAutoAbort"]}
{"id": "C26", "title": "Pruning parameter selection", "statement": "Strategy::get_pruning returns a parameter set of the strategy whose gh_factor is closest to the ratio of radius and Gaussian heuristic, the earliest one among ties; loading a strategy file yields a vector indexed by block size.", "quantifier": "all strategies with at least one parameter set, all radii", "why_tests_cant": "argmin over arbitrary lists", "anchors": ["fplll/bkz_param.cpp: Strategy::get_pruning, load_strategies_json"]}
{"id": "C27", "title": "Wrapper reports success only for a reduced basis", "statement": "The LLL wrapper reports RED_SUCCESS only if the last LLL run it performed on the basis returned RED_SUCCESS with the requested (delta, eta), tries precisions in strictly increasing order and always stops.", "quantifier": "all sequences of outcomes of the individual LLL runs", "why_tests_cant": "depends on adversarial sequences of failures", "anchors": ["fplll/wrapper.cpp: Wrapper::lll, call_lll, heuristic_loop, proved_loop, last_lll, set_use_long, increase_prec"]}
{"id": "C28", "title": "HLLL wrapper reports success only for a reduced basis", "statement": "hlll_reduction with LM_WRAPPER returns RED_SUCCESS only if its last run succeeded.", "quantifier": "all sequences of outcomes of the individual HLLL runs", "why_tests_cant": "needs failing runs at every precision, which tests do not produce", "anchors": ["fplll/wrapper.cpp: Wrapper::hlll, call_hlll, hlll_proved_loop, last_hlll, hlll_reduction_wrapper"]}
{"id": "C29", "title": "HLLL never leaves the input lattice", "statement": "For every floating-point behaviour, whenever HLLL stops the basis is a unimodular transform of the input and the recorded transform matches.", "quantifier": "all inputs, all floating point outcomes", "why_tests_cant": "quantifies over every rounding behaviour", "anchors": ["fplll/hlll.cpp: HLLLReduction::hlll, size_reduction", "fplll/householder.cpp: swap, row_addmul_we, size_reduce"]}
{"id": "C30", "title": "HLLL success means weakly size-reduced output", "statement": "When HLLL reports success over exact arithmetic, |R(i,j)| <= eta*R(j,j) + theta*R(i,i) for all j<i and the Lovasz condition with delta holds.", "quantifier": "all independent bases, all parameters", "why_tests_cant": "all outputs of an adaptive loop", "anchors": ["fplll/hlll.cpp: hlll, lovasz_test, verify_size_reduction", "fplll/hlll.h: compute_eR"]}
{"id": "C31", "title": "Thread pool wait_work waits for every task", "statement": "When wait_work returns in the (single) controlling thread, every task pushed before has finished, for every interleaving of worker threads.", "quantifier": "all schedules, all numbers of workers and tasks", "why_tests_cant": "schedules", "anchors": ["fplll/io/thread_pool.hpp: work, wait_work, push, _init_thread"]}
{"id": "C32", "title": "Thread pool runs every task exactly once", "statement": "Every pushed task is executed at most once and is never lost while the pool exists; it is executed if the pool has a thread or wait_work is called; shrinking the pool never drops a task.", "quantifier": "all schedules, all numbers of workers and tasks, all resize points", "why_tests_cant": "schedules", "anchors": ["fplll/io/thread_pool.hpp: push, work, resize, _init_thread"]}
{"id": "C33", "title": "Barrier releases nobody early", "statement": "No thread returns from barrier::wait before the given number of threads have called it.", "quantifier": "all schedules including spurious wake-ups", "why_tests_cant": "schedules and spurious wake-ups", "anchors": ["fplll/io/thread_pool.hpp: barrier::wait"]}
{"id": "C34", "title": "Parallel enumeration result does not depend on the schedule", "statement": "For every rounding to nearest of the operations (exact arithmetic included), for every interleaving of the worker threads and every delay in propagating the shrinking bound: every work item is processed exactly once; only non-zero vectors within the initial bounds are reported, each once and with its (rounded) squared length; at the end every vector within the bounds then in force was reported; without pruning the best-N evaluator holds the N shortest vectors, so that with N = 1 it holds a shortest non-zero vector; no schedule deadlocks or runs for ever.", "quantifier": "all schedules, all numbers of threads and work items", "why_tests_cant": "schedules", "anchors": ["fplll/enum-parallel/enumeration.h: lattice_enum_t::enumerate_recursive, _thread_local_update, enumerate_recur"]}
{"id": "C35", "title": "Matrix printing and reading round-trip", "statement": "Reading back what operator<< printed for an integer matrix or vector returns the same matrix, with the stream positioned right after it (a matrix with no rows comes back with no columns); reading ragged rows pads with zeros; every text of the grammar is accepted with its value.", "quantifier": "all integer matrices of all sizes", "why_tests_cant": "all inputs of a parser", "anchors": ["fplll/nr/matrix.cpp: Matrix::print, Matrix::read", "fplll/nr/numvect.h: operator<<, operator>>"]}
{"id": "C36", "title": "Transpose and resize", "statement": "transpose() yields the mathematical transpose, twice is the identity, resize keeps the entries of the common part and set_rows never changes entries of remaining rows - after any history of size changes.", "quantifier": "all matrices, all histories of set_rows, resize and transpose", "why_tests_cant": "stale backing rows appear only after particular histories", "anchors": ["fplll/nr/matrix.cpp: Matrix::resize, Matrix::transpose", "fplll/nr/matrix.h"]}
{"id": "C37", "title": "Conversion to machine integers is exact or refused", "statement": "convert<long>(A, B, buffer) returns true exactly when every entry is at most 2^(62-buffer) in absolute value, and then A equals B entrywise with room of buffer bits before overflow.", "quantifier": "all integer matrices, all 0<=buffer<=62", "why_tests_cant": "all integer values around the threshold", "anchors": ["fplll/nr/matrix.cpp: convert"]}
{"id": "C38", "title": "zeros_first / zeros_last", "statement": "zeros_first moves all zero rows of an LLL output to the front (zeros_last to the back), keeps the order of all other rows, and applies the same permutation to u and u_inv_t.", "quantifier": "all matrices whose zero rows are contiguous at the other end", "why_tests_cant": "all sizes and numbers of zero rows", "anchors": ["fplll/util.cpp: zeros_first, zeros_last"]}
{"id": "C39", "title": "Lattice generators produce what they document", "statement": "gen_intrel, gen_simdioph, gen_uniform, gen_ntrulike, gen_ntrulike2, gen_qary, gen_trg, gen_trg2 produce, for every random stream and every previous content of the matrix, bases of full rank (all but gen_uniform) with the documented block shape; the NTRU polynomial vanishes at 1 modulo q; the q-ary basis generates exactly the integer vectors whose last k coordinates satisfy the linear relations mod q.", "quantifier": "all dimensions, all random streams", "why_tests_cant": "random stream universally quantified", "anchors": ["fplll/nr/matrix.cpp: gen_intrel, gen_simdioph, gen_ntrulike, gen_ntrulike2, gen_qary, gen_trg"]}
{"id": "C40", "title": "Exponent of machine integers", "statement": "Z_NR<long>::exponent() returns the bit length of the absolute value.", "quantifier": "all 64-bit integers", "why_tests_cant": "values above 2^53 where double rounding changes the exponent", "anchors": ["fplll/nr/nr_Z_l.inl: Z_NR<long>::exponent, compute_long_exponent"]}
{"id": "C41", "title": "babai returns a vector close to the target", "statement": "Over exact arithmetic MatGSO babai(v) returns integer coordinates w such that the GSO coefficients of v - w*B are all in [-1/2,1/2].", "quantifier": "all bases of independent rows, all targets", "why_tests_cant": "all inputs", "anchors": ["fplll/gso_interface.cpp: babai", "fplll/gso.cpp: MatGSO::babai"]}
{"id": "C42", "title": "Subsolutions", "statement": "With subsolutions enabled, after enumeration the sub-solution recorded for level i is a vector of minimal non-zero projected length among all visited partial assignments at that level.", "quantifier": "all trees", "why_tests_cant": "all trees", "anchors": ["fplll/enum/enumerate_base.cpp", "fplll/enum/evaluator.h: process_subsol, eval_sub_sol"]}
{"id": "C43", "title": "Node counts are exact", "statement": "get_nodes(level) equals the number of tree nodes visited at that level and get_nodes() the total.", "quantifier": "all trees, including counts above 2^31", "why_tests_cant": "counts beyond 2^31 need hours", "anchors": ["fplll/enum/enumerate_base.h: get_nodes", "fplll/enum/enumerate_base.cpp: nodes"]}
{"id": "C44", "title": "Pruner coefficients are always valid", "statement": "Whatever the optimizer does, coefficients passed through enforce are monotone, at most 1 and not below the minimum, and the saved coefficient vector is non-increasing starting with 1.", "quantifier": "all coefficient vectors, dimensions", "why_tests_cant": "all vectors", "anchors": ["fplll/pruner/pruner.h: Pruner::enforce", "fplll/pruner/pruner_util.cpp: save_coefficients, load_coefficients"]}
{"id": "C45", "title": "No pruning means probability one", "statement": "svp_probability of the all-ones pruning vector is exactly 1 and relative volumes of simplices are computed as the nested integral they stand for.", "quantifier": "all dimensions", "why_tests_cant": "all dimensions and bound vectors", "anchors": ["fplll/pruner/pruner_simplex.h: relative_volume, integrate_poly, eval_poly", "fplll/pruner/pruner_prob.cpp: svp_probability_evec"]}
{"id": "C46", "title": "vector_matrix_product", "statement": "vector_matrix_product(result, x, m) returns sum_i x_i * m_i, for every x and m, skipping zero coefficients included.", "quantifier": "all vectors and matrices", "why_tests_cant": "all sizes", "anchors": ["fplll/util.h: vector_matrix_product"]}
{"id": "C47", "title": "Command line parsing", "statement": "read_options gives every documented switch its documented effect, a later value of the same switch wins, and a missing value is always an error.", "quantifier": "all argument vectors", "why_tests_cant": "all argument lists", "anchors": ["fplll/main.cpp: read_options"]}
{"id": "C48", "title": "Type and precision selection", "statement": "lll_reduction chooses for every (method, float type, precision) combination the documented floating-point type or aborts; it never silently runs a different one than requested.", "quantifier": "all combinations of dimension, size, method, float type, precision", "why_tests_cant": "all integer precision values", "anchors": ["fplll/wrapper.cpp: lll_reduction_z, lll_reduction_zf"]}
{"id": "C49", "title": "Recursive and iterative enumeration agree", "statement": "Over exact arithmetic the recursive enumeration (default build, FPLLL_WITH_RECURSIVE_ENUM) and the iterative loop visit the same nodes in the same order, report the same solutions and sub-solutions in the same order, and leave the same radius, bounds and node counts.", "quantifier": "all inputs of EnumerationDyn::enumerate without reset, all evaluators that do not enlarge the bounds", "why_tests_cant": "a test compares two builds on a few lattices; the incremental caching of centre sums differs between the two and must agree on every tree", "anchors": ["fplll/enum/enumerate_base.cpp: enumerate_recursive, enumerate_loop", "fplll/enum/enumerate_base.h: next_pos_up"]}
{"id": "C50", "title": "Canonical and Gram-Schmidt coordinates are inverse", "statement": "Over exact arithmetic to_canonical(v, start) returns sum_i v_i b*_{start+i}, and from_canonical recovers v from it, for every block of rows.", "quantifier": "all bases, all coefficient vectors, all start and dimension", "why_tests_cant": "all blocks and all coefficient vectors", "anchors": ["fplll/gso.cpp: to_canonical, from_canonical", "fplll/gso.h: 190-211"]}
{"id": "C51", "title": "Linear pruning parameters are valid", "statement": "PruningParams::LinearPruningParams(block_size, level) writes only inside its vector and returns block_size coefficients that are 1 on the first block_size - level entries (at least one), then fall with slope -1/block_size; they lie in (0,1], start with 1 and do not increase.", "quantifier": "all block sizes >= 1 and all levels, also negative ones and ones larger than the block size", "why_tests_cant": "index arithmetic for all sizes and levels", "anchors": ["fplll/bkz_param.cpp: PruningParams::LinearPruningParams"]}
{"id": "C52", "title": "LLL's return value and its status member agree", "statement": "After LLLReduction::lll or size_reduction returns, the member status is RED_SUCCESS if and only if the function returned true, although one return path does not set status.", "quantifier": "all bases, all floating-point arithmetics (no law assumed), all ranges in which the functions may be called, all previous values of status", "why_tests_cant": "the path without set_status needs a floating-point failure at one particular call; that it cannot happen is an argument about the validity of the cached rows", "anchors": ["fplll/lll.cpp: LLLReduction::lll", "fplll/lll.h: size_reduction, set_status", "fplll/gso_interface.cpp: update_gso_row"]}
{"id": "C53", "title": "lll_reduction returns a basis of the same lattice and exact transforms", "statement": "Every call of lll_reduction that returns leaves a basis of the same lattice; if u is given, the result is u times the input with u unimodular; if u_inv is given too it is the inverse of u. Every call aborts or returns.", "quantifier": "all bases, all methods, types and precisions, all floating-point behaviours, all statuses, all retries of the wrapper", "why_tests_cant": "the transforms go through identity initialisation, transpositions, several reductions with different integer types and a final permutation; tests check a few lattices on success only", "anchors": ["fplll/wrapper.cpp: FPLLL_DEFINE_LLL, lll_reduction_z, lll_reduction_zf, lll_reduction_wrapper", "fplll/util.cpp: zeros_first"]}
{"id": "C54", "title": "fplll -a svp prints a shortest vector of the input lattice", "statement": "On independent rows, fplll -a svp prints a shortest non-zero vector of the input lattice (formats s and c), or reports a failed LLL reduction and prints nothing.", "quantifier": "all bases with independent rows, all builds, all floating-point behaviours of the LLL reduction, formats s and c, with and without -nolll", "why_tests_cant": "minimality over the whole lattice through two algorithms; the failing combination (format c without -nolll) is not exercised", "anchors": ["fplll/main.cpp: svpcvp", "fplll/util.h: vector_matrix_product"]}
{"id": "C55", "title": "Output formats of -a lll", "statement": "For every sequence of documented format codes the action lll prints exactly the requested items in the requested order, and a transform is only printed if it was computed.", "quantifier": "all sequences of documented codes", "why_tests_cant": "unbounded sequences; codes that are prefixes of each other (b and bk)", "anchors": ["fplll/main.cpp: lll"]}
{"id": "C56", "title": "is_hlll_reduced decides the definition", "statement": "Over exact arithmetic, for independent rows, is_hlll_reduced(m, delta, eta, theta) returns RED_SUCCESS exactly when |R(i,j)| <= eta*R(j,j) + theta*R(i,i) for all j<i and delta*R(i,i)^2 <= R(i+1,i)^2 + R(i+1,i+1)^2 for all i, with or without row exponents.", "quantifier": "all independent bases, all parameters, all row exponents", "why_tests_cant": "acceptance of every reduced basis and rejection of every other one; wrong scaling shows only for rows of different size", "anchors": ["fplll/hlll.cpp: is_hlll_reduced", "fplll/householder.cpp: update_R_naively", "fplll/wrapper.cpp: is_hlll_reduced_zf, is_hlll_reduced_pr"]}
{"id": "C57", "title": "HKZ reduction returns an HKZ-reduced basis", "statement": "Over exact arithmetic, for every basis of independent rows (with zero rows after them), if hkz_reduction (or bkz() with a block size of at least the number of rows) ends normally after a tour, its rows generate the same lattice, each Gram-Schmidt vector b*_k is a shortest non-zero vector of the lattice projected orthogonally to the first k rows (up to the factor delta for BKZ with delta < 1), and every row is size-reduced.", "quantifier": "all bases, dimensions, parameters with 1/2 <= eta, all runs of fplll's own enumeration", "why_tests_cant": "minimality is over all lattice vectors; the interplay of insertion, LLL, repeated preprocessing and the final partial size reduction shows only on special bases", "anchors": ["fplll/bkz.cpp: svp_preprocessing, svp_postprocessing, svp_reduction, hkz, tour, bkz, hkz_reduction", "fplll/enum/enumerate.cpp", "fplll/lll.cpp"]}
{"id": "C58", "title": "BKZ stops with success only when the basis is BKZ-reduced", "statement": "Over exact arithmetic, for plain BKZ with block size beta smaller than the number of rows and without auto-abort: when bkz() stops with success because a tour was clean, the basis is LLL-reduced and in each block of beta rows the first vector is shortest up to the factor delta after projection; and on an LLL-reduced input the first tour is clean exactly if the input is BKZ-reduced, in which case nothing is changed.", "quantifier": "all bases of independent rows followed by zero rows, all dimensions, block sizes and numbers of tours, all runs of fplll's own enumeration", "why_tests_cant": "the clean flag looks at r(kappa,kappa) only, while LLL on one block changes rows of others; whether this can hide a block that is not reduced depends on rare bases", "anchors": ["fplll/bkz.cpp: svp_reduction, svp_preprocessing, svp_postprocessing, trunc_tour, hkz, tour, bkz", "fplll/enum/enumerate.cpp", "fplll/lll.cpp"]}
{"id": "C59", "title": "svp_probability is the probability that a pruned enumeration keeps the solution", "statement": "Over the reals, for non-increasing coefficients in (0,1]: Pruner::svp_probability returns a number in [0,1]; when the first two coefficients are 1 the lower and upper values it averages are the probabilities that a uniform point of the shell 0.995 < |z| <= 1 survives the pruning with each pair of radii replaced by the smaller and the larger one, so the true probability lies between them; and less pruning never lowers it.", "quantifier": "all dimensions, all non-increasing coefficient vectors", "why_tests_cant": "the true probability is a ratio of volumes of high-dimensional bodies; a wrong result for special coefficients or odd dimensions looks plausible", "anchors": ["fplll/pruner/pruner_prob.cpp: svp_probability, svp_probability_evec, svp_probability_lower, svp_probability_upper", "fplll/pruner/pruner_simplex.h: relative_volume", "fplll/pruner/pruner.h: svp_probability", "fplll/bkz_param.cpp: LinearPruningParams"]}
{"id": "C60", "title": "single_enum_cost adds up the expected nodes of each level", "statement": "Over the reals: single_enum_cost of a half vector is the sum of the detailed costs it stores; the detailed cost of a level of even dimension is the symmetry factor times volume of the pruned cylinder intersection over the covolume of the projected sublattice (Gaussian heuristic); it does not fall when coefficients rise; and for full vectors the stored details add up to the returned cost.", "quantifier": "all dimensions, basis shapes with positive Gram-Schmidt norms, radii and coefficient vectors", "why_tests_cant": "equality with a volume over a covolume cannot be tested; monotonicity is over all pairs of vectors", "anchors": ["fplll/pruner/pruner_cost.cpp: single_enum_cost, single_enum_cost_evec, single_enum_cost_lower, single_enum_cost_upper", "fplll/pruner/pruner_util.cpp: load_basis_shape", "fplll/pruner/pruner.h: single_enum_cost"]}
{"id": "C61", "title": "The pruning optimiser never returns coefficients worse than those it starts with, and ends", "statement": "Over the reals, for the real target function and both metrics: when optimize_coefficients without PRUNER_SINGLE returns, the target function of the result is at most that of the half vector it started with (greedy or the input), whatever combination of gradient descent, Nelder-Mead, local adjustments and smoothing ran; and the adjustment to the target probability ends; greedy's goal per level is a parabola as its comment says.", "quantifier": "all dimensions >= 4, shapes, radii, metrics, flags and numbers of steps", "why_tests_cant": "the optimisers may raise the cost between tours, so only the bookkeeping of the best vector over all paths guarantees this; an endless alternation needs a special target", "anchors": ["fplll/pruner/pruner_optimize.cpp", "fplll/pruner/pruner_optimize_tc.cpp: gradient_descent, nelder_mead_step, greedy", "fplll/pruner/pruner_optimize_tp.cpp: optimize_coefficients_local_adjust_prob", "fplll/pruner/pruner_cost.cpp: target_function, target_function_gradient", "fplll/pruner/pruner_prob.cpp: expected_solutions, measure_metric"]}
{"id": "C62", "title": "The iteration limit of LLL is never reached in exact arithmetic", "statement": "Over exact arithmetic, with 1/2 <= eta, eta^2 < delta < 1 and linearly independent rows, the iteration limit computed at the start of lll() from the dimension, the largest exponent of the entries and log(delta) is large enough: LLL never returns RED_LLL_FAILURE but succeeds, with any flags, even if the limit is computed ten percent too small.", "quantifier": "all bases of independent rows with at most 2^15 columns, all parameters, flags and earlier uses of the object", "why_tests_cant": "the number of swaps of LLL on a chosen input is far below the worst case; whether a closed formula bounds all runs needs the potential argument", "anchors": ["fplll/lll.cpp: LLLReduction::lll (max_iter)", "fplll/gso.h: get_max_exp_of_b", "fplll/nr/matrix.cpp: get_max_exp"]}
{"id": "C63", "title": "Comparison of dpe numbers orders them by value", "statement": "dpe_cmp and the sign tests of dpe_t order normalized numbers exactly as the rational numbers they stand for, and every operation that makes a dpe_t makes a normalized one, so that comparisons with its results are right.", "quantifier": "all pairs of normalized numbers (mantissa 0 with the least exponent, or a 53-bit mantissa in [1/2,1) and any int exponent)", "why_tests_cant": "2^170 pairs; only zeros made by certain operations compare wrongly", "anchors": ["fplll/nr/dpe.h: dpe_cmp, dpe_normalize, dpe_set_z, dpe_sqrt, dpe_mul_2exp", "fplll/nr/nr_FP_dpe.inl: cmp, sgn, mul_2si"]}
{"id": "C64", "title": "Arithmetic of dpe numbers is rounded to nearest", "statement": "Sum, difference, product, quotient, square root, fused operations and conversions from double of normalized dpe numbers are normalized and nearest 53-bit numbers of unbounded exponent to the exact results (relative error at most 2^-53), or report an exponent overflow; on x86 and elsewhere alike.", "quantifier": "all normalized operands, both variants of dpe_normalize", "why_tests_cant": "the operand space has 2^170 elements; the exceptional cases are isolated pairs of exponents and mantissas", "anchors": ["fplll/nr/dpe.h: dpe_add, dpe_sub, dpe_mul, dpe_div, dpe_sqrt, dpe_normalize, dpe_scale, dpe_set_d", "fplll/nr/nr_FP_dpe.inl: addmul, submul, sqrt", "fplll/gso_interface.cpp:145-150"]}
{"id": "C65", "title": "Integer conversions of dpe numbers are exact", "statement": "dpe_round, dpe_rint, dpe_floor, dpe_ceil and dpe_frac return exactly the integer (or fractional part) of the specification, normalized, for numbers of any size; dpe_get_z is the nearest integer, get_si the truncated one if it is a long; get_si_exp and get_z_exp return z and e with z * 2^e equal to the number or to its truncation; dpe_set_z truncates to 53 bits.", "quantifier": "all normalized numbers; all integers with fewer than 2^31 bits", "why_tests_cant": "exactness has to hold at all 2^32 exponents and 2^53 mantissas, across the thresholds 0, 53 and 63", "anchors": ["fplll/nr/dpe.h: dpe_round, dpe_rint, dpe_floor, dpe_ceil, dpe_frac, dpe_get_z, dpe_set_z, dpe_get_si, dpe_get_si_exp", "fplll/nr/nr_FP_misc.inl: get_z_exp"]}
{"id": "C66", "title": "Powers of dpe numbers; the radius of the dual enumeration", "statement": "pow_si(x, k) of a dpe_t is the correctly rounded power for all exponents k, negative ones included, for which the result is representable; in particular the radius of a dual enumeration in BKZ, computed as pow_si(r, -1) * delta, is positive.", "quantifier": "all normalized x, all long k", "why_tests_cant": "dual enumeration is tested with double only, and a zero radius gives a run that just finds nothing", "anchors": ["fplll/nr/dpe.h: dpe_pow_si", "fplll/nr/nr_FP_dpe.inl: pow_si", "fplll/bkz.cpp:311-317"]}
{"id": "C67", "title": "Enumeration in rounded arithmetic", "statement": "C11-C16, C42, C43 and C49 do not need exact arithmetic: with every operation on enumf rounded to 53 bits the enumeration still ends, visits no node twice, reports exactly the vectors whose rounded partial distances are within the bounds, and the kept solution is at most twice the rounding error longer than any other.", "quantifier": "all inputs of enumerate without underflow or overflow, every rounding that is monotone, odd, idempotent, exact on 1 and of relative error at most 1/2", "why_tests_cant": "whether a vector is lost or reported twice depends on roundings at the borders of the bounds, which random tests do not hit", "anchors": ["fplll/enum/enumerate_base.cpp:24-118, 152-246", "fplll/enum/enumerate.cpp:59-250", "fplll/defs.h enumf"]}
{"id": "C68", "title": "Error bound of the enumeration", "statement": "When get_max_error_aux returns maxDE for max_dist, every vector whose computed (or, with boundOnExactVal, exact) squared length is at most max_dist has a computed squared length within maxDE of the exact one.", "quantifier": "all bases, all GSO data within the stored error bounds, all vectors with coordinates of at most 53 bits, every arithmetic with directed rounding, every double rounding with error at most half an ulp", "why_tests_cant": "the bound is about the worst rounding errors; tests see typical ones", "anchors": ["fplll/enum/evaluator.cpp:75-211", "fplll/enum/enumerate_base.cpp:24-118"]}
{"id": "C69", "title": "Guarantee of the fast evaluator", "statement": "When FastErrorBoundedEvaluator::get_max_error returns true, the squared length of the vector found is at most 1 + max_error times the squared length of a shortest vector.", "quantifier": "all enumerations without pruning in rounded arithmetic", "why_tests_cant": "the factor is a bound on errors that tests do not reach, and the failing case needs large input errors", "anchors": ["fplll/enum/evaluator.cpp:247-269"]}
{"id": "C70", "title": "Input errors of the enumeration", "statement": "The bounds max_dr_diag and max_dm_u set by init_delta_def hold for the GSO data and for their roundings to double, if the GSO data have the relative errors that the code assumes.", "quantifier": "all dimensions, precisions, rho and GSO data", "why_tests_cant": "needs GSO data with the largest allowed errors", "anchors": ["fplll/enum/evaluator.cpp:20-58"]}
{"id": "C71", "title": "Proved shortest vectors in double arithmetic", "statement": "shortest_vector with SVPM_PROVED, whose enumeration runs in double arithmetic on approximate GSO data, aborts or returns the coordinates of a shortest vector of the lattice.", "quantifier": "all bases of independent rows, all GSO data with errors within the evaluator's bounds, every mpfr precision of at least 53 bits", "why_tests_cant": "a wrong vector needs rounding errors near the bounds; tests compare with known norms on a few lattices", "anchors": ["fplll/svpcvp.cpp:84-241", "fplll/enum/evaluator.cpp:277-356", "fplll/enum/evaluator.h:114-156"]}
{"id": "C72", "title": "Either enumeration gives the result", "statement": "Enumeration::enumerate runs the parallel enumeration exactly for primal problems without target and subtree whose dimension is above 10 and within the compiled maximum, the sequential one otherwise, and both give the evaluator what is needed: with the fast evaluator the N shortest vectors are found, and shortest_vector returns a shortest vector with the fast and the proved method, whatever the compiled maximum, number of threads and schedule.", "quantifier": "all inputs of the enumeration, all bases, all compiled maximum dimensions, all numbers of threads and all interleavings", "why_tests_cant": "the choice is made at compile time and by dimension, and the interleavings are not under the control of a test", "anchors": ["fplll/enum/enumerate.h:87-112", "fplll/enum/enumerate_ext.cpp:49-146", "fplll/enum-parallel/enumlib.cpp:95-172", "fplll/enum-parallel/enumlib_dim.cpp:32-140"]}
{"id": "C73", "title": "Proved closest vector", "statement": "closest_vector with CVPM_PROVED, whose enumeration restarts below the levels with the largest r(i,i), returns a closest vector whenever it returns (LLL-reduced bases of at least two vectors), in both builds of the enumeration (recursive and iterative).", "quantifier": "all linearly independent bases with the radius condition (in particular all LLL-reduced ones), all integer targets, both builds", "why_tests_cant": "the wrong answers of the recursive build need three vectors and a target near a cell boundary, and the answer is close to the closest vector", "anchors": ["fplll/svpcvp.cpp:532-659", "fplll/enum/enumerate.cpp:24-57", "fplll/enum/enumerate_base.cpp:24-118", "fplll/enum/enumerate_base.cpp:189-246"]}
{"id": "C74", "title": "Rounding and conversion with exponents", "statement": "rnd_we, get_si_exp_we and get_z_exp_we return the documented integers (nearest integer, truncation, mantissa and exponent) for a floating-point number times 2^expo_add, so that one step of the size reduction adds to a row exactly the integer multiple by which the Gram-Schmidt coefficients are updated.", "quantifier": "all numbers of the format (double, long double: every format of 2 to 64 digits), all exponents up to 2^30 in absolute value, both kinds of row operations; double-double numbers", "why_tests_cant": "a wrong multiple needs coefficients of more than 53 or 63 bits, numbers near the ends of the exponent range or exact ties; the reduction only becomes worse", "anchors": ["fplll/nr/nr_FP_d.inl:44-53", "fplll/nr/nr_FP_d.inl:226-233", "fplll/nr/nr_FP_ld.inl:51-63", "fplll/nr/nr_FP_ld.inl:247-254", "fplll/nr/nr_FP_dd.inl:57-64", "fplll/nr/nr_FP_dd.inl:234-241", "fplll/nr/nr_FP_misc.inl:116-155", "fplll/nr/nr_FP_misc.inl:190-323", "fplll/gso.cpp:236-262", "fplll/lll.cpp:204-221"]}
{"id": "C75", "title": "llldiff compares bases up to signs", "statement": "llldiff reports two bases as the same exactly when corresponding rows are equal up to sign.", "quantifier": "all pairs of integer matrices", "why_tests_cant": "the test scripts of the project use llldiff as their oracle, so a wrong answer of llldiff hides or invents failures", "anchors": ["fplll/llldiff.cpp:25-72", "fplll/llldiff.cpp:118-128"]}
{"id": "C76", "title": "The integer types compute the same numbers", "statement": "The arithmetic functions of Z_NR<mpz_t>, Z_NR<long> and Z_NR<double> return the integer they stand for (when it is representable), and a sequence of row operations on a basis of long entries gives the same basis as with mpz_t.", "quantifier": "all functions, all operands, all sequences of row operations; strict C++ and two's complement arithmetic", "why_tests_cant": "signed overflow is undefined, so a passing test proves nothing about other compilers, and the operands are near 2^53 or 2^63", "anchors": ["fplll/nr/nr_Z_mpz.inl:109-196", "fplll/nr/nr_Z_l.inl:109-187", "fplll/nr/nr_Z_d.inl:135-213", "fplll/nr/numvect.h:268-341", "fplll/gso.cpp:84-262", "fplll/wrapper.cpp:286-290"]}
{"id": "C77", "title": "Slope, determinants, slide potential and Gaussian heuristic", "statement": "In exact arithmetic get_current_slope is the slope of the least-squares line through the logarithms of the squared Gram-Schmidt lengths; get_log_det and get_root_det give the determinant of a block; get_slide_potential is the logarithm of a product of leading Gram determinants, hence slide reduction stops; the enumeration radius of svp_reduction with BKZ_GH_BND is that of a ball of the volume of the (primal or dual) projected lattice.", "quantifier": "all bases, block sizes, row ranges, exponents; for termination all procedures that keep the basis independent, in particular all enumeration results and random numbers", "why_tests_cant": "one slope of one matrix is tested against a constant; termination and optimality quantify over all runs and all lines", "anchors": ["fplll/gso_interface.cpp:196-278", "fplll/bkz.cpp:275-358", "fplll/bkz.cpp:466-520", "fplll/bkz.cpp:561-567"]}
{"id": "C78", "title": "Randomising a block", "statement": "rerandomize_block(lo, hi, density) returns, leaves the rows outside the block as they are, keeps the lattice of the rows of the block, and every row of the block can be moved or changed.", "quantifier": "all objects whose columns are known, ranges, densities and random numbers", "why_tests_cant": "the random choices and all block positions cannot be enumerated; a hang shows up only in block size 3 after an enumeration without a solution", "anchors": ["fplll/bkz.cpp:43-80", "fplll/bkz.cpp:300-340"]}
{"id": "C79", "title": "bkz_reduction and hkz_reduction end to end", "statement": "A call of bkz_reduction that returns leaves a basis of the input lattice, and if a transform was asked for, the new basis is the transform times the old one and the transform is unimodular; the status is that of the failing step or of bkz(); the default precision of mpfr numbers is as before. hkz_reduction that returns success leaves an HKZ-reduced basis.", "quantifier": "all matrices, parameters, floating-point types, precisions and behaviours of LLL, enumeration, random numbers and clock", "why_tests_cant": "type selection, conversion to machine integers and back, and failures of each step combine; the failing conversion needs a transform far larger than the basis", "anchors": ["fplll/bkz.cpp:811-956"]}
{"id": "C80", "title": "BKZ stops", "statement": "A run of bkz() stops, also without a limit on tours or time and without auto-abort; each tour that is not clean makes the first leading Gram determinant that it changes smaller; the inner loop of slide_tour stops.", "quantifier": "all bases with independent rows (followed by zero rows), all block sizes, delta, eta, limits, flags; exact arithmetic, fplll's enumeration with a radius below r(kappa, kappa), one enumeration per block", "why_tests_cant": "termination on all inputs; a test that does not end shows nothing, and the known bound on the number of tours is astronomically large", "anchors": ["fplll/bkz.cpp:522-672", "fplll/bkz.cpp:416-520"]}
{"id": "C81", "title": "Rounding errors of the Gram-Schmidt orthogonalisation", "statement": "For an LLL-reduced basis and a precision at least the one returned by gso_min_prec, update_gso() with mpfr numbers succeeds and its r and mu have the errors promised in util.h and assumed by init_delta_def (d rho^(j+1) 2^(2-prec) relative for r, d rho^(j+1) 2^(4-prec) for mu); gso_min_prec returns at least 5 + 2 log2 d - log2 eps + d log2 rho with rho >= ((1+eta)^2+eps)/(delta-eta^2), in spite of the roundings in its own computation.", "quantifier": "all dimensions, all integer bases that are (delta, eta)-LLL-reduced, all 1/2 <= eta, eta^2 < delta <= 1, 0 < eps <= 1 - eta, all precisions, all previous contents of the arrays", "why_tests_cant": "an error bound over all reduced bases and all dimensions; random bases are far from the worst case and the bound grows exponentially", "anchors": ["fplll/util.cpp:44-102", "fplll/util.h:61-75", "fplll/gso_interface.cpp:131-164", "fplll/evaluator.cpp:22-69", "fplll/svpcvp.cpp:103-108"]}
{"id": "C82", "title": "l2_min_prec is defined for the parameters accepted", "statement": "l2_min_prec computes a finite precision, converted to int without undefined behaviour, for the delta and eta with which lll_reduction may be called.", "quantifier": "all dimensions d >= 1, delta <= 1, eta >= 1/2", "why_tests_cant": "the boundary values are legitimate parameters and the conversion of an infinity to int gives some number on most machines", "anchors": ["fplll/util.cpp:53-93", "fplll/wrapper.cpp:56", "fplll/wrapper.cpp:593"]}
{"id": "C83", "title": "Soundness of the proved LLL with rounding", "statement": "If LLL with the exact Gram matrix and floating-point numbers of at least l2_min_prec(d, delta, eta, epsilon) bits succeeds, its output is a basis of the same lattice and is exactly (delta - theta, eta + theta)-LLL-reduced, with theta = eps'/(64 d), eps' = min(epsilon, eta - 1/2, 1 - delta); no independent vector is mistaken for zero.", "quantifier": "all dimensions, all linearly independent integer bases of any size, all 1/2 < eta, eta^2 < delta < 1, all precisions at least the minimum, all arithmetics with relative error 2^-P, all previous contents of the arrays, all iteration limits", "why_tests_cant": "the code tests conditions on rounded values of a GSO that it keeps modifying; that the exact conditions hold is a statement about the rounding errors of every possible run", "anchors": ["fplll/util.cpp:44-108", "fplll/lll.cpp:44-190", "fplll/lll.cpp:200-330", "fplll/gso_interface.cpp:131-164", "fplll/wrapper.cpp:586-600"]}
{"id": "C84", "title": "The proved LLL succeeds with the precision of l2_min_prec", "statement": "LLL with the exact Gram matrix and floating-point numbers of at least l2_min_prec(d, delta, eta, epsilon) bits, on linearly independent vectors, returns RED_SUCCESS: size reduction never stops with RED_BABAI_FAILURE and the GSO update never with RED_GSO_FAILURE although all coefficients are rounded, and the main loop ends within the limit max_iter computed from the largest exponent (RED_LLL_FAILURE is impossible).", "quantifier": "all dimensions, all linearly independent integer bases with at most 2^14 columns, all 1/2 < eta, eta^2 < delta < 1, all precisions at least the minimum, all arithmetics with relative error 2^-P, all previous contents of the arrays", "why_tests_cant": "a run fails when rounding errors keep a coefficient from decreasing or make vectors be exchanged back and forth; that this never happens is a statement about all rounding errors of all runs", "anchors": ["fplll/lll.cpp:44-190", "fplll/lll.cpp:200-330", "fplll/util.cpp:44-108", "fplll/gso_interface.cpp:131-164", "fplll/gso.cpp:214-239", "fplll/nr/nr_FP_mpfr.inl:42-64"]}
{"id": "C85", "title": "lll_reduction always succeeds and reduces", "statement": "lll_reduction with LM_WRAPPER (the default) or LM_PROVED on linearly independent rows returns RED_SUCCESS, and the rows are then a basis of the same lattice that is LLL-reduced for (delta, eta) up to the margins of l2_min_prec, with u and u_inv the transformation and its inverse. For the wrapper this holds whatever the fast and heuristic runs in low precision do, including NaNs in all of their numbers.", "quantifier": "all linearly independent integer bases with at most 2^14 columns, all 1/2 < eta, eta^2 < delta < 1, all configurations of the build, all behaviours of the types with less than good_prec bits, all arithmetics with relative error 2^-good_prec for the others", "why_tests_cant": "the end-to-end guarantee is about every sequence of failures of the floating-point runs and every rounding error of the last one", "anchors": ["fplll/wrapper.cpp:45-359", "fplll/wrapper.cpp:539-734", "fplll/wrapper.cpp:1024-1037", "fplll/lll.cpp:44-330", "fplll/util.cpp:44-108"]}
{"id": "C86", "title": "shortest_vector and fplll -a svp always find a shortest vector", "statement": "shortest_vector with SVPM_PROVED, with the precision that gso_min_prec chooses and every rounding of the GSO, of the error bounds and of the enumeration in double, terminates on a reduced basis, does not abort, does not return RED_ENUM_FAILURE, and returns the coordinates of a shortest non-zero lattice vector; so `fplll -a svp` prints a shortest non-zero vector of the lattice of its input.", "quantifier": "all linearly independent integer bases with at most 52 vectors, entries of any size; all LLL-reduced bases with delta from 0.989 to 1 and eta from 0.5 to 0.511; all behaviours of low-precision LLL runs", "why_tests_cant": "the checks that can abort depend on computed error bounds which grow exponentially with the dimension; whether they can fail for some reduced basis cannot be sampled", "anchors": ["fplll/svpcvp.cpp:84-247", "fplll/util.cpp:44-103", "fplll/enum/evaluator.cpp:20-200", "fplll/enum/evaluator.cpp:281-355", "fplll/main.cpp:242-319"]}
{"id": "C87", "title": "latticegen prints the documented matrices and never leaves its arrays", "statement": "For each method r, s, u, n, N, q, t, T the program latticegen, with or without -randseed in front and with any further arguments behind, prints the matrix that README.md describes, of full rank where the description implies it; for arguments that are missing or invalid it ends with an error message.", "quantifier": "all argument lists, all dimensions and parameters, all random numbers, all numbers read from stdin", "why_tests_cant": "the output depends on random numbers, and the documented distribution of n (h uniform) excludes values that no finite sample can show to be impossible; invalid dimensions are not tested", "anchors": ["fplll/latticegen.cpp:56-266", "fplll/nr/matrix.cpp:251-498", "README.md:193-208"]}
{"id": "C88", "title": "The pruner's tables and the volumes of util.cpp are correct", "statement": "Every entry of tabulated_factorial is the factorial and every entry of tabulated_ball_vol is the volume of the unit ball of that dimension, up to the digits printed in the table; sphere_volume computes the volume of the unit ball and cost_estimate the Gaussian heuristic for the number of nodes of an enumeration. No code reads outside of the tables.", "quantifier": "all 2047 entries of both tables, all dimensions, all bounds and all Gram-Schmidt norms", "why_tests_cant": "a wrong digit in one of 4096 literals of 57 digits changes pruning parameters slightly in one dimension; tests compare only rough values in a few dimensions", "anchors": ["fplll/factorial.const:1-2050", "fplll/ballvol.const:1-2050", "fplll/pruner/pruner.cpp:190-201", "fplll/util.cpp:200-245", "fplll/pruner/pruner_util.cpp:90-96"]}
{"id": "C89", "title": "Enumerator cuts the enumeration tree into a partition", "statement": "Successive calls of Enumerator::enum_next return roots of subtrees such that, once false is returned, every coefficient vector within the radius lies, up to sign, in exactly one of them; every subtree begins within the radius and has an estimated cost below the maximum (or lies at the lowest level); after finitely many calls, each of which ends, false is returned.", "quantifier": "all dimensions, Gram-Schmidt coefficients and norms, cost estimates, radii (also ones changing between the calls), roundings to nearest and numbers of calls", "why_tests_cant": "no test instantiates the class; a lost or doubled subtree shows only if a shortest vector happens to lie in it", "anchors": ["fplll/enum/topenum.cpp:20-108", "fplll/enum/topenum.h:20-60"]}
{"id": "C90", "title": "fplll -a cvp prints a lattice vector closest to the target", "statement": "For linearly independent rows and a target vector the action cvp of the command-line program prints a vector of the input lattice that is closest to the target; malformed targets (too short, too long, empty) are rejected and the documented output formats work.", "quantifier": "all bases with independent rows, all targets of all lengths, both builds (recursive and iterative enumeration), all output formats, every rounding of the LLL reduction that meets the assumptions of C85", "why_tests_cant": "tests run closest_vector on a handful of bases and never through the command line; that the printed vector belongs to the input lattice after the wrapper's LLL and is closest is a statement about all lattices", "anchors": ["fplll/main.cpp:242-319", "fplll/main.cpp:423-470", "fplll/svpcvp.cpp:532-659"]}
{"id": "C91", "title": "is_lll_reduced in floating-point arithmetic decides reducedness up to a margin", "statement": "For linearly independent rows, an exact Gram matrix and a precision of at least l2_min_prec for d+1 vectors, is_lll_reduced(m, delta, eta) returns true only if the basis is exactly (delta-theta, eta+theta)-LLL-reduced and returns true if the basis is exactly (delta+theta, eta-theta)-LLL-reduced, theta = eps/(64(d+1)), although it ignores the result of update_gso; it does not change the basis.  A basis returned by a successful proved LLL is accepted with parameters weaker by the two margins.  Without the precision, or without the integer Gram matrix, the answer may be wrong.", "quantifier": "all dimensions, all bases with independent rows, all states of the object whose valid coefficients are those of the current basis, all roundings with relative error at most 2^-P, all contents of the arrays beforehand", "why_tests_cant": "the tests use is_lll_reduced itself as the oracle for LLL, in double arithmetic, so an error of the oracle cannot be seen; that the computed tests agree with the exact ones up to a margin is a statement about all bases and all roundings", "anchors": ["fplll/lll.cpp:226-258", "fplll/gso_interface.cpp:131-164", "fplll/gso_interface.h:767-776", "fplll/util.cpp:83-108"]}
{"id": "C92", "title": "LLL with Siegel's condition returns a Siegel-reduced basis, proved method and wrapper", "statement": "With the flag LLL_SIEGEL, an exact Gram matrix and the precision of l2_min_prec, LLLReduction::lll on linearly independent rows succeeds within max_iter iterations and returns a basis of the same lattice that is exactly size-reduced with eta' and whose consecutive Gram-Schmidt norms satisfy (delta' - eta'^2) |b*_i|^2 <= |b*_{i+1}|^2, for any threshold close enough to delta - eta^2, in particular one computed with rounding; the same holds for lll_reduction with the wrapper, whatever its fast and heuristic runs do.  The flag weakens the result: Lovasz's condition may fail.", "quantifier": "all dimensions, all bases with independent rows, all roundings with relative error at most 2^-P, all thresholds within the stated distance, all contents of the arrays, all behaviours of the fast and heuristic runs", "why_tests_cant": "no test uses LLL_SIEGEL, and is_lll_reduced tests Lovasz's condition only; the bound is over all bases and roundings, and the budget max_iter is computed from delta although the test uses delta - eta^2", "anchors": ["fplll/lll.cpp:25-45", "fplll/lll.cpp:60-224", "fplll/util.cpp:83-108", "fplll/wrapper.cpp:69-466", "fplll/lll.h:60-130"]}
{"id": "C93", "title": "The GSO dump of a BKZ run is a JSON document with one record per tour", "statement": "With BKZ_DUMP_GSO, when bkz() returns after k tours the dump file is a JSON document (RFC 8259): an array of k+2 objects with members step, loop, time, norms, for the input, each tour in order and the output, whatever the file contained before; the dump does not influence the reduction; the norms are log ||b_i*||.", "quantifier": "all behaviours of LLL, enumeration, clock and slopes, all flags, block sizes, numbers of tours and rows, all initial contents of the file", "why_tests_cant": "no test reads the file; the number of tours is unbounded, and the cases in which the array is not closed (block size below two, exceptions, infinities) need not occur in a test run", "anchors": ["fplll/bkz.cpp:522-672", "fplll/bkz.cpp:725-796", "fplll/bkz.cpp:361-384", "fplll/bkz.cpp:444-520", "README.md:278"]}
{"id": "C94", "title": "The precision of HLLL is defined and large enough", "statement": "For all parameters that pass its checks, hlll_min_prec computes with finite numbers and returns the precision of the formula in its comments (Morel, Stehle and Villard), rounded up.", "quantifier": "all dimensions, all parameters delta, eta, theta, c, and all roundings of mpfr", "why_tests_cant": "hlll_min_prec has no test; the missing bits and the undefined conversions depend on real parameters and do not show in reductions of small random matrices", "anchors": ["fplll/util.cpp:110-198", "fplll/nr/nr_FP.inl:219-225", "fplll/wrapper.cpp:64-70", "fplll/wrapper.cpp:808-818"]}
{"id": "C95", "title": "fplll -a pru optimises for the requested block", "statement": "run_pruner takes the requested block of rows (or the whole matrix for invalid requests), optimises pruning coefficients for the squared Gram-Schmidt lengths of the block and the squared radius min(||b*||^2, gh_factor * GH^2), for a given target or, with prune_min_prob = -1, for the best ratio of cost and probability; it never leaves its arrays.", "quantifier": "all matrices, exponents, windows, options and float types", "why_tests_cant": "run_pruner has no test; the block, the radius and the exception depend on options that the tests never set", "anchors": ["fplll/pruner/pruner.cpp:32-176", "fplll/pruner/pruner.cpp:203-215", "fplll/pruner/pruner.h:57-84", "fplll/pruner/pruner.h:307-362", "fplll/pruner/pruner_prob.cpp:77-93", "fplll/main.cpp:390-421"]}
{"id": "C96", "title": "fplll -a lll from its arguments and input text to its output text", "statement": "For a command line that selects the action lll and an input that starts with a matrix in the documented format, the program writes exactly the requested items, in the requested order and in the documented formats; the basis written generates the lattice of the input, u transforms one into the other, u_inv is its inverse, the status written is the exit code, and nothing undefined happens. An input that is no matrix gives exit code 1 and no output.", "quantifier": "all command lines, input texts (any white space, ragged rows), matrices, output formats, floating-point behaviours", "why_tests_cant": "the tests call the library on matrices and never run the program; texts, option combinations and formats are unbounded", "anchors": ["fplll/main.cpp:20-93", "fplll/main.cpp:423-473", "fplll/main.cpp:778-803", "fplll/nr/matrix.cpp:136-224", "fplll/wrapper.cpp:45-58", "fplll/wrapper.cpp:555-734", "fplll/wrapper.cpp:1004-1037"]}
{"id": "C97", "title": "dump_mu_d and dump_r_d return the Gram-Schmidt coefficients of a block", "statement": "After update_gso, dump_r_d and dump_mu_d return the squared Gram-Schmidt lengths and the coefficients mu of the requested block (by default the whole matrix), at the documented places of an array or appended to a vector, and access nothing outside of their matrices.", "quantifier": "all sessions of operations on a GSO object, bases, offsets, block sizes, arrays and vectors", "why_tests_cant": "the four functions have no test and no caller in the repository; whether uninitialised memory is read depends on the allocator", "anchors": ["fplll/gso_interface.h:385-409", "fplll/gso_interface.h:791-860", "fplll/gso_interface.cpp:131-164"]}
{"id": "C98", "title": "fplll -a bkz, sdb, sld and hkz from arguments and input text to output text and exit code", "statement": "For every command line that selects bkz (or its variants) or hkz and every input that starts with a matrix, the options reach the library function, the program writes exactly the items asked for in the documented formats, the basis written generates the lattice of the input and is u times it, the exit code is the status of the reduction, limits are reported only if they were set, -nolll removes the initial LLL, and with -a hkz and exit code 0 the basis written is HKZ-reduced.", "quantifier": "all command lines, input texts, floating-point behaviours, enumerations, random numbers and clocks (HKZ-reducedness: exact arithmetic)", "why_tests_cant": "the test suite does not run the program; options combine freely, and transforms that are lost need particular sizes of numbers", "anchors": ["fplll/main.cpp:120-226", "fplll/main.cpp:423-473", "fplll/main.cpp:778-803", "fplll/bkz_param.h:109-136", "fplll/bkz.cpp:849-956", "README.md:217-293"]}
{"id": "C99", "title": "fplll -a hlll from arguments and input text to output text and exit code", "statement": "For every command line that selects hlll and every input that starts with a matrix, the options reach the library function, the program writes exactly the items asked for in the documented formats, the basis written generates the lattice of the input, u times the input is the basis and v is the inverse of u, the exit code is the status of the reduction, -nolll only checks the input, and with exit code 0 and exact arithmetic the basis written is HLLL-reduced for the delta, eta and theta given.", "quantifier": "all command lines, input texts and floating-point behaviours (reducedness, termination: exact arithmetic)", "why_tests_cant": "the test suite does not run the program; options combine freely, and the exit code of the default method hides failures on the inputs that make the runs fail", "anchors": ["fplll/main.cpp:318-383", "fplll/main.cpp:423-473", "fplll/main.cpp:778-803", "fplll/wrapper.cpp:748-760", "fplll/wrapper.cpp:789-1000", "fplll/wrapper.cpp:1051-1087", "fplll/hlll.cpp:499-586", "README.md:225-297"]}
{"id": "C100", "title": "Strategies files are read as JSON", "statement": "load_strategies_json reads every file whose text is a JSON array (RFC 8259) of strategy entries, with or without a byte order mark: the vector of strategies reaches to the largest block size, holds for each block size what the last entry for it says (the last member counts when a key is repeated), and no strategy is without pruning parameters. The reader returns a value exactly when the text begins with a JSON text of this value whose numbers fit a double, throws for every other text, and always ends.", "quantifier": "all texts (as sequences of code points) and all conversions of number texts to doubles", "why_tests_cant": "the tests load the one strategies file that is shipped; it has no escapes, no exponents, no duplicate keys and no errors", "anchors": ["fplll/bkz_param.cpp:80-157", "fplll/io/json.hpp:7134-8640", "fplll/io/json.hpp:8817-9040", "fplll/io/json.hpp:12918-13330", "fplll/io/json.hpp:22147-22193", "fplll/io/json.hpp:24185-24189"]}
{"id": "C101", "title": "The JSON reader accepts UTF-8 and nothing else", "statement": "On the bytes of a file the reader does exactly what it would do on the characters that the bytes encode in UTF-8 (RFC 3629): strings get the bytes of the same characters, escapes are written as UTF-8, and as soon as bytes that are not UTF-8 (too long, surrogates, beyond U+10FFFF, cut off) must be read the file is rejected. Strategies files are loaded as in C100.", "quantifier": "all sequences of bytes", "why_tests_cant": "the strategies file that is shipped is ASCII; the ranges of the second byte differ for four of the first bytes and no test has such bytes", "anchors": ["fplll/io/json.hpp:7239-7260", "fplll/io/json.hpp:7404-7430", "fplll/io/json.hpp:7635-7858", "fplll/io/json.hpp:8517-8529", "fplll/bkz_param.cpp:80-157"]}
{"id": "C102", "title": "Strategies are read inside the vector and preprocessing ends", "statement": "Block reduction reads strategies[b] for the size b of each block it treats, directly and in nested preprocessing tours, without a check. If every size up to the block size has an entry with pruning parameters and preprocessing sizes that are positive and smaller, no run of BKZ, self-dual BKZ or slide reduction reads outside the vector, each block is enumerated with parameters of the entry for its size, and at most block_size calls of svp_reduction are nested. An empty vector (filled in by BKZParam) and a file that reaches the block size satisfy this. A file that stops below the block size is read behind its end, and one whose preprocessing does not go down recurses without end.", "quantifier": "all vectors of strategies, bases sizes, block sizes, flags, and all behaviours of LLL, enumeration and insertion", "why_tests_cant": "the tests use the shipped file or no strategies, with block sizes the file covers; a vector access that is out of range by one does not fail reliably", "anchors": ["fplll/bkz.cpp:82-126", "fplll/bkz.cpp:275-358", "fplll/bkz.cpp:361-441", "fplll/bkz_param.h:109-132", "fplll/bkz_param.cpp:62-78"]}
{"id": "C103", "title": "Pruning vectors have the size of the block", "statement": "When the pruning vector is empty or has the size of the block, entry i gives the bound of level i, in fplll's own enumeration and in an external one; so a run of block reduction whose strategies have vectors of the right size never aborts in and never reads outside a pruning vector. A shorter vector is read behind its end, a longer one is cut off without notice, and both end the program when an external enumerator is registered; loading a file checks nothing.", "quantifier": "all vectors, block sizes, radii, roundings, with every behaviour of an external enumerator; all strategies and flags for runs", "why_tests_cant": "the shipped strategies have vectors of the right size; reading one entry too many does not fail reliably", "anchors": ["fplll/enum/enumerate.h:86-112", "fplll/enum/enumerate.cpp:58-74", "fplll/enum/enumerate.cpp:218-229", "fplll/enum/enumerate_ext.cpp:48-65", "fplll/enum/enumerate_ext.cpp:134-148", "fplll/bkz_param.cpp:104-155"]}
{"id": "C104", "title": "Coordinates after dual enumeration", "statement": "Dual enumeration takes the rows of the block in reverse order; with an evaluator that has no solutions yet, each solution found is returned with the same distance and the coordinates of the same vector in the order of the rows. Solutions left in the evaluator by an earlier call are reversed again, sub-solutions are returned in reverse order, and with a non-empty max_indices dual enumeration does not search at all.", "quantifier": "all block sizes, vectors of any commutative group, solutions and sub-solutions that the search finds, flags", "why_tests_cant": "the callers in the library clear the solutions before each enumeration and use no sub-solutions and no max_indices in dual enumeration; a reversed vector is still a vector of the lattice", "anchors": ["fplll/enum/enumerate.cpp:76-78", "fplll/enum/enumerate.cpp:108-125", "fplll/enum/enumerate.cpp:154-158", "fplll/enum/enumerate.cpp:251-269", "fplll/nr/numvect.h:34-38"]}
{"id": "C105", "title": "The iteration limit of LLL is computed without overflow", "statement": "For up to 32767 rows the int product in LLL's iteration limit is exact and the limit is the one of C62. From 32768 rows on the product overflows, which is undefined; when int wraps around, the limit is not positive for 32768 to 46340 rows, and LLL reports a failure for every basis, also a reduced one.", "quantifier": "all numbers of rows, entry sizes, delta in (1/4, 1), bases and floating-point behaviours", "why_tests_cant": "no test has 32768 rows", "anchors": ["fplll/lll.cpp:44-55", "fplll/lll.cpp:78-82", "fplll/lll.cpp:160-163"]}
{"id": "C106", "title": "Which strategies file is loaded", "statement": "fplll -s NAME loads the file NAME if it exists, otherwise the file NAME in the directory of the shipped strategies; if neither exists the call ends with an exception, and whatever is loaded comes from one of these two files. A directory called NAME hides the shipped file, and a missing file is not reported as 'Cannot open strategies file' when the directory of the shipped strategies exists, because the search is done twice and finds that directory under the empty name.", "quantifier": "all file systems, names, directories, parsers", "why_tests_cant": "tests name one file that exists", "anchors": ["fplll/bkz_param.cpp:39-54", "fplll/bkz_param.cpp:80-88", "fplll/main.cpp:129-132"]}
{"id": "C107", "title": "Zero rows at the start of LLL", "statement": "Before its main loop LLL moves zero rows to the end of the block: with kappa_min = 0 the rows moved are zero and afterwards row 0 is not zero unless all are; when row 0 is not zero nothing is moved. With kappa_min > 0 the loop looks at row 0 instead of row kappa_min: if row 0 is zero, every call reports success and returns the rows of the block in reverse order, not reduced.", "quantifier": "all bases, ranges kappa_min <= kappa_start < kappa_end, parameters, floating-point types and iteration limits", "why_tests_cant": "the tests call LLL on all rows; BKZ calls it on a part of the rows after zero rows have been removed", "anchors": ["fplll/lll.cpp:66-69", "fplll/lll.cpp:82", "fplll/lll.cpp:160-163"]}
