# Formal model of fplll in Lean 4

The sources in `/repo` are modelled function by function under `lean/Verif/`.

* `Base/` – loop combinators (`forUp`, `forDown`) and their invariant rules.
* `Model/` – definitions that follow the C++ text; each cites the lines it models and says where it simplifies.
* `Spec/` – small vocabulary for the claims (lattices, Gram-Schmidt, projections, simplex volumes, ...).  Nothing in `Spec/` mentions the model.
* `Proofs/` – lemmas.
* `Props/` – the theorems named after the entries of `properties.jsonl`, each with examples showing that its hypotheses can be met.

`MANIFEST.json` maps properties to theorems.  `seeded/LOG.jsonl` lists the wrong programs tried against the theorems.

## Trusted base

* Lean's kernel (Lean 4.33.0) and the Mathlib definitions used in the statements.
* Axioms: each theorem depends on at most `propext`, `Classical.choice` and `Quot.sound`.  There are no own axioms, no `sorry`, no `native_decide`,
  no `bv_decide`.  Concrete witnesses use `decide`/`decide +kernel`, which the kernel evaluates.
* The faithfulness of the hand-written model to the C++ text.  It is not machine checked; the comments cite the lines.

## Modelling conventions

* Integers (`Z_NR<mpz_t>`) are `Int`: GMP integers are unbounded.  Claims about `Z_NR<long>` model the 64-bit range explicitly (C37, C40).  `int` indices do
  not overflow.
* A vector or matrix is a total function of its indices together with its dimensions; loops over indices are `forUp`/`forDown` in the order of the source.
  Reads outside the dimensions are a modelling artefact; where an out-of-range access is part of a claim it is a distinct outcome
  (`ub`, `none`), or the theorem has the range as an invariant.
* Floating point appears in three ways:
  * **oracle**: `FloatOps F` lists operations without any law.  Theorems for all `F` hold for every floating-point type, every rounding, overflow and NaN.
  * **rounded**: `ℚ` with a rounding function applied to every result (the enumeration, `dpe_t`).
  * **exact**: `F := Exact` (rationals with a NaN), `ℚ` or `ℝ`.  Such theorems hold for the algorithm with exact arithmetic only, and say so.
* Randomness, clocks, enumeration results (in BKZ), cost functions (in the pruner) and schedulers are arbitrary inputs.
* Loops without an a-priori bound take fuel.  `stuck` is a distinct outcome; either a theorem states how much fuel is enough, or the claim covers the states in
  which a run of any length stops.

## Per property

Status words as in `MANIFEST.json`.  "Violated" means that the negation is proved with a concrete witness.

| id | what is modelled | proof and findings |
|----|----|----|
| C01 | `GSO` object with `b`, `u`, `u_inv_t`, `g`, all row operations; histories of calls | each operation multiplies by a unimodular matrix; induction over the history. Any floats. |
| C02 | `lll`, `babai`, `early_reduction`, `size_reduction` over any floats | every step is a legal row operation, C01. |
| C03 | the same code over `Exact` | loop invariant "rows below kappa are reduced"; uses C07. Calls on the first `e` rows (`kappa_min = 0`, `kappa_end = e`). |
| C04 | `is_lll_reduced` over `Exact` | loops unfolded to bounded quantifiers. Violated for dependent rows (reads coefficients never computed). |
| C05 | main loop with its iteration limit, `babai` loop | termination for any floats (limit), outcome for exact ones. |
| C06 | `g` updates (lower triangle, `sym_g`) | invariant `g = b bᵀ` on the known rows. |
| C07 | `gso_valid_cols`, `n_known_rows`, `update_gso_row`, locks | invariant: valid columns equal the Gram-Schmidt coefficients of the current rows; all disciplined sessions. |
| C08 | all of `gso_gram.cpp` except `create_rows`/`remove_last_rows`, and `LLLReduction` on it | simulation relation between the two objects (same `u`, `u_inv_t`, `mu`, `r`, and `g` is the Gram matrix of all `d` rows of `b`), kept by every call and by LLL, for any floats. Violated (proved) when `move_row` goes beyond the known rows, which LLL does exactly when it meets a zero vector: Gram matrices of dependent vectors and leading zero vectors give wrong results with status success. `sqnorm_coordinates` is right after `symmetrize_g` and wrong (proved) after a bare row operation. |
| C09 | `negate_row_of_b` | violated for the transform; lattice and Gram parts proved. |
| C10 | `rotate_by_swap`, `reverse_by_swap`, `rotate_gram_left/right` | loop invariants. |
| C11-C14 | `enumerate_loop`, `enumerate_recursive`, `prepare_enumeration`, zig-zags over `ℚ` with any rounding (C67) | refinement to a recursive walk, then to a specification set. Not modelled: `normexp` scaling; the `resetflag` branches are C73. |
| C15, C16 | `Evaluator::process_sol`, the three strategies, error-bounded variants | invariants over all offer sequences, then inside enumeration. |
| C17 | `shortest_vector` (both entry points, both methods) | projection argument and C12. `get_max_error_aux` is an arbitrary non-negative function here; it is modelled in C68, and C71 is the proved method in floating-point arithmetic. |
| C18 | `shortest_vector` with `dual` | violated (`last_useful_index` drops rows; proved method always fails); partial theorem when no row is dropped. |
| C19 | `shortest_vectors` | violated for `max_sols = 1`; proved for two or more. |
| C20 | `closest_vector` | violated in dimension one (radius 0) and on ties (endless loop); returning calls are correct. `CVPM_PROVED` is C73. |
| C21 | `svp_postprocessing`, `svp_postprocessing_generic` over `Exact` | the gcd tree keeps the represented vector (primal) or functional (dual), the block lattice and all common divisors; the pattern of non-zero coefficients shrinks by levels. |
| C22 | `bkz()`, tours, `svp_reduction`, `svp_preprocessing`, `rerandomize_block`, insertion over any floats | whole-run invariant "unimodular multiple of the input". Transforms: violated (negated rows are not tracked in `u`, `row_swap` ignores `u_inv_t`); `_partial` theorem otherwise. |
| C23 | tour index loops over arbitrary procedures | call lists computed exactly. Violated for an all-zero basis and for SD-BKZ with too large blocks. Printing and dumping left out. |
| C24 | main loop | induction; violated clause: errors escape as exceptions and no status is set. |
| C25 | `BKZAutoAbort` | the doubles are an arbitrary linear order without NaN. |
| C26 | `get_pruning` selection, `load_strategies` from parsed entries on | argmin invariant. Violated when every set is at distance 2^80 or more. JSON parsing: C100. |
| C27 | `Wrapper::lll` and its loops; a run is an arbitrary function of the call | induction over the loops with the log of all runs in the state. Violated: precisions do not increase with the dpe fallback. `little` and `l2_min_prec` are arbitrary. |
| C28 | `Wrapper::hlll` likewise | violated: the wrapper always reports success. |
| C29 | `MatHouseholder` with `b`, `u`, `u_inv_t`, the float copies, exponents and history; `size_reduce`, `swap`, `HLLLReduction::hlll` over any floats | every change of the basis is a unimodular row operation tracked in `u` and `u_inv_t`. A one-row basis reads and writes a row that does not exist (proved for every such basis). |
| C30 | the same code over the reals without rounding; the choice of exponents, ties and integer splits stays open (`ExactCfg`) | Householder reflections are isometries, so the stored rows are the R-factor; loop invariant; termination by the product of the Gram determinants. Violated for `eta < 1/2`: `compute_eR` multiplies by `delta`. |
| C31, C32 | interleaving transition system of the pool | inductive invariants over all schedules, spurious wake-ups included. One controlling thread; tasks neither push tasks nor throw; sequential consistency. `wait_sleep` reads the queue without the mutex (a data race, shown reachable). |
| C33 | barrier | violated with spurious wake-ups and with more threads than `count`; proved otherwise. |
| C34 | parallel enumeration as a transition system | invariant "pruned implies not better than the final best"; every operation rounded by an arbitrary rounding to nearest (`Rnd`, exact arithmetic included). `activeswirly` is false as in the code; fewer than 256 threads (the signal array has that size). |
| C35 | printer and parser on character lists | round trip by induction; an integer that ends exactly at the end of the stream is not read (shown). |
| C36 | backing store of `Matrix` (rows kept after shrinking) | entries proved; violated for the row sizes after shrink and transpose. |
| C37 | `convert` | case analysis; the conversion back in bkz.cpp loses values (shown). |
| C38 | `zeros_first`, `zeros_last` | uses C10. |
| C39 | generators with an arbitrary random stream | shape and membership; violated for `gen_simdioph` on a matrix with old content. |
| C40 | exponent of a `long` through a rounded double | violated for some negative numbers; proved for the rest, error at most one. |
| C41 | `babai`, `get_gscoords` | triangular induction over exact numbers, any rounding to nearest. |
| C42, C43 | enumeration with sub-solutions and counters | as C11; the reported node counts are violated, the exact relation is proved. The total of `get_nodes()` (`Model/NodeTotal`, on its own: a sum in an `int`) is right exactly below `2^31` nodes. |
| C44, C45 | pruner over `ℝ`: volumes, probabilities, `enforce`, the whole optimisation with arbitrary cost functions | polynomial integration; loop invariants. `n ≥ 2`; exact factorial table. |
| C46 | `vector_matrix_product`, `sqnorm_coordinates` | sum identities. |
| C47 | `read_options` as a table in the order of the comparisons, `atoi`/`atof` arbitrary | the parser accepts exactly the token lists of a small grammar (induction on the arguments), its result is the fold of one documented effect per token, fields by a last-value lemma. Violated: `-a sdb -a bkz` keeps the self-dual flag, `-r` is not ignored, the `prune_*` members are uninitialised (all proved). |
| C48 | `lll_reduction_z`, `hlll_reduction_z` up to the run | case analysis over all arguments and builds. |
| C49 | recursive and iterative enumeration | simulation, same final state. |
| C50 | `to_canonical`, `from_canonical` | triangular systems; violated for `to_canonical` with `start > 0`. |
| C51 | `PruningParams::LinearPruningParams` | closed form; block size 0 writes outside the vector (shown). |
| C52 | `lll`, `size_reduction`, `status` | the row is valid up to the diagonal when the unchecked return is reached. |
| C53 | `lll_reduction` with transforms, wrapper and single runs | relation "unimodular change tracked by u and u_inv" composed over all steps; `long` overflow is not modelled. |
| C54 | `svpcvp` for `-a svp` (`svpCmd`), composed of `lll_reduction` (any arithmetic) and `shortest_vector` (exact arithmetic) | C53 gives the same lattice, independence only depends on the lattice, C17 gives a shortest vector. Violated for format `c` without `-nolll` (proved): `u` is empty, `vector_matrix_product` aborts. |
| C55 | the printing loop of the action `lll` | induction on the list of codes. |
| C56 | `update_R_naively`, `is_hlll_reduced` over exact reals | the naive arrays satisfy the same invariant as those of HLLL (C30); loops unfolded to bounded quantifiers. Violated with row exponents. |
| C57 | `svp_reduction`, `hkz`, `tour`, `bkz` with a full block over `Exact`; the block enumeration is fplll's (`Model/BKZEnum`, the search of C17 on the stored coefficients of the block) | LLL and insertion keep the lattices of the leading rows (`Spec/Pref`, `Proofs/LLLPref`, `Proofs/InsertFresh`); each `svp_reduction` leaves a shortest projection and later steps keep it; `Proofs/LastRow` treats the last block of two rows. One enumeration per block, no strategies. **Violated** for `delta = 0.75`: bkz.cpp:438 size-reduces the last row with respect to the row before it only, and the coefficient `mu(2,0)` ends as 0.7 (`C57_last_row_not_size_reduced`). For parameters with `Tame eta delta` (`0.99`, `0.51` are) the final step changes nothing and the result is HKZ-reduced. |
| C58 | as C57, with a block size smaller than the number of rows | LLL, size reduction and insertion on a reduced basis: the first two change nothing, the third makes `r(kappa,kappa)` smaller (`Proofs/Clean`); so the first tour on an LLL-reduced basis is clean iff the basis is BKZ-reduced (`C58_first_tour`). If LLL's delta exceeds the enumeration radius factor by a little (`Gap`: 0.99 and less than 0.97), every tour ends LLL-reduced (`Proofs/CleanAll`) and every successful run is BKZ-reduced (`C58_success_partial`); for equal parameters it is **violated** after two tours: `C58_not_reduced_default`, dimension 5, block size 3, `delta = 0.99`, `eta = 0.51`, LLL-reduced input (the last insertion of a tour, possible since `eta > 1/2`, leaves a basis that is not LLL-reduced, and LLL in the next tour changes a block already treated without any `r(kappa,kappa)` that is looked at becoming smaller). **Violated** also without LLL before (`BKZ_NO_LLL`, direct use): a tour can be clean although it has changed the basis and the first block is not reduced (`C58_not_reduced_without_lll`). |
| C59 | `svp_probability*` over the reals (`Model/Pruner`, volumes from C45) | polynomial = volume (C45), so lower and upper value are shell probabilities of two bodies with the pruned body between them. In [0,1] always. **Violated** (proved): if `pr[1] < 1` the "lower" vector may give 1 though almost everything is cut off (`C59_second_coefficient_violated`); for odd `n` the first coefficient is dropped and `(1,x,...,x)` gives 1 for every `x` (`C59_odd_violated`, `C59_odd_cut_off`); `LinearPruningParams(3,2)` has expectation 1. |
| C60 | `single_enum_cost*`, `load_basis_shape`, the public `single_enum_cost` (`Model/PrunerCost`); the table of ball volumes and the logarithm base are parameters | loops to sums; `C60_level` uses C45 and scaling of Lebesgue measure. **Violated** (proved): interpolated levels of odd dimension may cost less with less pruning; for full vectors the stored details are those of the upper half vector and do not add up; the public function ignores every other coefficient. |
| C61 | the optimiser of C44 with the real `target_function`, its gradient, `expected_solutions`, `measure_metric` (`Model/PrunerTarget`) | invariant "cost at most that of the start, last coefficient 1" through gradient descent and Nelder-Mead (`Proofs/PrunerBest`: the point `mini` is never lost although `maxi` is computed wrongly), tours keep the best vector. With Nelder-Mead the start must satisfy the lower bounds. **Violated** (proved): `optimize_coefficients_local_adjust_prob` alternates for ever for dimension 4 and target 0.00055 (`C61_adjust_hangs_valid`); greedy's parabola is an integer division and 0 (`C61_goal_flat_violated`); `repeated_enum_cost` ignores the target for the metric of expected solutions (`C61_repeated_violated`). |
| C62 | `max_iter`, `get_max_exp` (`Model/LLLBudget`), LLL in exact arithmetic | potential argument (`Proofs/LLLCount`): the product of the leading Gram determinants is a positive integer, size reduction keeps it, an insertion `j` positions up multiplies it by at most `δ^j`, the index goes up by `1 - j`; then real logarithms. Not covered: dependent rows; the overflow of `2 * d * (d + 1)` in `int` from `d = 32768`; `delta = 1`, where the limit is the conversion of an infinite number (undefined; nothing checks `delta`). |
| C63 | `Model/Dpe`: `dpe_t` as a rational mantissa and an integer exponent, binary64 arithmetic as rounding `rn` on `ℚ` with gradual underflow | case analysis on signs and exponents. Violated: `dpe_set_z(0)`, `dpe_sqrt(0)` and `mul_2si` of zero give zeros that are not normalized and compare below zero (and `sgn` is `-1`) |
| C64 | the same; `dpe_normalize` in both variants (`le`: bit operations on x86; `frexp` elsewhere) | `rn` is shown nearest (`Proofs/Dpe`), scaling commutes with it; the operations round once. Violated: `dpe_add` returns the larger operand in a corner case (power of two, opposite signs, difference of exponents 54) where another number is nearer; differences with the zero of `dpe_set_z`; products and quotients of the normalized zero overflow the `int` exponent; `dpe_set_d` of subnormal numbers on x86. Infinite and NaN mantissas are not modelled (`notFinite` is an outcome) |
| C65 | the same, `long` of 64 bits | the mantissa is an integer over `2^53`; `ldexp` is exact in the used ranges. Violated: `get_si_exp`, `get_z_exp` of the normalized zero subtract from the least `int` |
| C66 | `dpe_pow_si`, with `pow` correctly rounded | Violated: a negative `long` becomes an `unsigned int`, so `pow_si(x, -1)` is zero for nearly all `x`, and the radius of every dual enumeration in BKZ with `dpe_t` is zero; powers from 1075 on underflow. `_partial`: exponents 0 to 1022 |
| C67 | the enumeration with a rounding function `fl` applied to every result of type `enumf` (`Model/Enum`) | all of C11-C16, C42, C43, C49 are proved for every `fl` that meets `Rnd`; the roundings are monotone, so partial distances still grow and the tree argument holds. `r53` (53 bits, unbounded exponent) meets it and is the rounding of the machine without underflow. The geometric meaning of the distances (`C11_distance_*`) needs `fl = id`; `C67_not_shortest` is a basis where double arithmetic returns a longer vector |
| C68 | `get_max_error_aux` with one function per mpfr rounding mode (`Model/ErrBound`); `mpfr p` is the arithmetic of `p` bits | one invariant per loop: `maxC`, `maxCTilde`, `maxDC` bound the centre and its error, then the offset, the summand and the sum. The code rounds to nearest in two places; what is lost is a factor `ρ^(2d-1)`, made up for by the `halfULP * max_dist` of the first level unless the bound is huge (`Enough`, checked on the result) |
| C69 | `get_max_error` after an enumeration in rounded arithmetic | C15 and C68; needs `minOptE > 0`, which the code does not check: `C69_negative` is a run that returns true and a negative error |
| C70 | `init_delta_def` | the assumed relative errors give the hypothesis of C68; needs `maxRelDR < 1` and `|mu| ≤ 1`, which the code does not check: `C70_negative_bound`, `C70_large_mu`. For the GSO of a reduced basis all of it holds (C81) |
| C71 | `provedR` (`Model/SVPRound`): `last_useful_index` on computed `r_i`, the initial bound, the enumeration in `double`, `ExactErrorBoundedEvaluator` with `int_dist2Float` and `calc_enum_bound`, aborts included; `normExp = 0` (scaling by powers of 2 commutes with rounding) | C12 for rounded arithmetic and C68: whatever is at most as long as the best vector so far passes the bound, since computed lengths are doubles and `rn`, `get_d(RNDU)` are monotone and fix doubles. The bound on the error is monotone in `max_dist` (`Proofs/ErrMono`), so conditions are stated for the first call only: coordinates of at most 53 bits and an error bound small enough (`Start`; neither is checked by the code). `last_useful_index` needs relative errors of at most 1/3; the comment in the code says 100%, refuted by `C71_useful_index` |
| C72 | `Model/ExtEnum`: the dispatch of `enumlib_enumerate` and `enumerateD`, the conditions of `Enumeration::enumerate`, `callback_set_config`, outcomes of `enumerate`, `shortest_vector` and the proved method as relations (one outcome per schedule) | Both enumerations satisfy one specification (`Found`: what was offered is sound, and complete for the final bound), from which C15, C17 and C71 are proved again. Findings: for dual problems the radius passed to a user-supplied external enumerator is wrong by `2^(-2 maxdistexpo)` (`C72_radius_dual`); the external path returns the initial `fmaxdist` and ignores `_max_indices`. Not modelled: the copy of `*this` in the worker threads without lock, node counts, `findsubsols` |
| C73 | `Model/CVPReset`: `max_indices`, `EnumerationDyn::reset`, the `enable_reset` branches of the recursive and the iterative walk, `closest_vector` with `CVPM_PROVED`, exact arithmetic | The nested enumerations are specified by induction on the number of free levels. **Violated in the default build**: `enumerate_recursive` calls `reset(newdist, kk)` where `newdist` already contains the contribution of level `kk`, which the nested enumeration counts again, so closer vectors are discarded (`C73_default_fails`: LLL-reduced basis (100,0,0),(0,100,0),(0,50,100), target (0,30,46)). What holds there: the squared distance is at most `1/4 sum_{1<=i<d-1} r_i` above the smallest (`C73_default_partial`); dimension two is right. The iterative build is right (`C73_iterative`). `max_indices` holds the first level with the largest `r(i,i)` up to each level, but not for the top level (`C73_max_indices`). As in C20, ties in `babai` may loop forever |
| C74 | `Model/FpConv`: `get_si_exp_we`, `get_z_exp_we`, `rnd_we` of `double`, `long double`, `dd_real`, `set_z` of `dd_real`/`qd_real`, the branch of `row_addmul_we`, with a format parameter, gradual underflow, overflow and the `int` exponent arithmetic | Representable numbers are `m * 2^e`; scaling by `ldexp` is exact unless the result is below 1/4, so truncation and rounding commute with it. **Proved** for `double` (`C74_double`) and `long double` without `row_op_force_long` (`C74_long_double`). **Violated**: `long double` with `row_op_force_long` drops bits (`C74_long_double_force_long`); `rnd_we` overflows in the last binade (`C74_last_binade`); `long` entries without `row_op_force_long` (`C74_long_ub`); `dd_real` looks at the first double only (`C74_dd_violated`, `C74_dd_trunc_violated`, `C74_dd_rnd_violated`, with `C74_dd_partial`), `set_z` gives unnormalised `dd_real` and only 53 bits of a `qd_real` |
| C75 | `Model/LllDiff`: `llldiff` and the end of its `main` | Loop invariants give exactly what is tested (`C75_llldiff_iff`). Sound (`C75_sound`). **Violated** the other way: the sign of a row is taken from its first entry, so rows that begin with zero must be equal (`C75_leading_zero`; `C75_complete_partial` without such rows); further rows and columns of the second matrix are ignored (`C75_extra_ignored`) |
| C76 | `Model/ZNum`: the arithmetic functions of the three integer types, row operations on the basis with any of them; signed overflow is an outcome | Per function, and by induction over sequences of row operations: strict C++ (`C76_rows_defined`), two's complement (`C76_rows`, `C76_rows_wrap`). **Violated**: `mod` has the sign of the first operand for `long` and `double` (`C76_mod_violated`), `div_2si` of `double` gives fractions (`C76_double_shift_violated`), `mul_ui` of `long` wraps silently (`C76_mul_ui_wraps`), `addmul_si` of `mpz_t` is undefined for the least `long`. The bound under which the wrapper uses `long` does not exclude overflow in the size reduction: `C76_size_reduction_overflow` (14 vectors), though two's complement arithmetic ends with the right row. Not modelled: Gram matrix and transform of `long` |
| C77 | `Model/Shape`: `get_current_slope`, `get_log_det`, `get_root_det`, `get_slide_potential`, `adjust_radius_to_gh_bound`, the radius of `svp_reduction`, `sld_potential` in the main loop; reals instead of floating point | Slope: the error of any line is split at the computed one (`C77_slope`; 0/0 for one row). Determinants: quotient of Gram determinants (`C77_log_det`), geometric mean (`C77_root_det`). Potential: logarithm of a positive integer (`C77_slide_potential`), which every tour with progress lowers, so the main loop of slide reduction stops (`C77_slide_stops`, and `C77_slide_stops_fplll` for the modelled `BKZReduction`). Radius: volume of the Euclidean ball from Mathlib (`C77_gh`, `C77_radius_primal`). **Violated**: `get_slide_potential` ignores `start_row` (`C77_start_row_violated`; only called with 0); for dual blocks the radius is bounded by the Gaussian heuristic of the primal block (`C77_radius_dual`, `C77_radius_dual_violated`: too large or too small). That the inner `do … while` loop of `slide_tour` stops is C80 |
| C78 | `Model/BKZSvp`: `rerandomize_block` (random numbers from an oracle) | Invariant over the permutation and mixing loops: rows outside unchanged, lattice of the block unchanged (`C78_block`). **Violated**: the last row of the block takes no part (`C78_last_row_violated`: the drawn row numbers stop one short); on two rows the loop that draws two different rows never ends (`C78_two_rows_violated`), so `svp_reduction` with block size 3 hangs when enumeration finds nothing and another trial is needed (`C78_svp_violated`). With three or more rows it returns if the random numbers take two different values in every window (`C78_returns_partial`) |
| C79 | `Model/BKZTop`: `bkz_reduction`, `bkz_reduction_f` with both integer types, `hkz_reduction`, on top of the modelled `Wrapper` and `runBKZ` | Relation between input and output matrices composed over LLL or `zeros_last`, the conversions, `bkz()` and `zeros_first` (`C79_lattice_partial`: any return, exception or endless run); statuses (`C79_status`), empty input (`C79_empty`), `mpfr` precision (`C79_prec_partial`). With C57: `hkz_reduction` in exact arithmetic returns an HKZ-reduced basis of the same lattice (`C79_hkz`, at least two independent rows). **Violated**: with `BKZ_NO_LLL` the results of the conversions back from `long` are ignored, so a `u` with an entry above 2^62 comes back singular with `RED_SUCCESS` (`C79_lost_violated`, bkz.cpp:833-835); an exception leaves the default `mpfr` precision changed (`C79_prec_violated`, bkz.cpp:905-908). Not covered: overflow of `long` inside the run (C75, C76) |
| C80 | `runBKZ`, `tour`, `slideLoop` of `Model/BKZ`, `Model/BKZSvp` in exact arithmetic | The sequence of the leading Gram determinants decreases lexicographically, and pointwise inside LLL (`Proofs/LexPot`); a well-founded order, so the outcome is the same from some amount of fuel on and never "stuck" or undefined (`Proofs/BkzStop`): `C80_bkz_stops`, `C80_progress`, `C80_slide_loop_stops`; with C58 total correctness (`C80_total`). Restrictions: `delta < 1`, radius factor below 1, `1/2 <= eta`, one enumeration per block (rerandomization may raise later determinants), no preprocessing by strategies, at least one nonzero row. An exception (LLL reached its iteration limit) remains possible. Not covered: SD-BKZ (which needs a limit by design) and the dual part of a slide tour (C77 bounds the number of its tours) |
| C81 | `update_gso()` of `Model/GSO` on `mpfr` numbers (`Model/FloatRnd`: rational numbers, every operation rounded, `none` for a division by zero; unbounded exponents); `compute_min_prec` (`Model/MinPrec`) with the logarithm rounded up and down as parameters | Forward error analysis of the Cholesky recurrences (`Proofs/Cholesky`): with `E_j = (11/3) d rho^(j+1) u` the errors of column `j` are at most `E_j r_j`; induction over the columns, the inner loop accumulates `(1+u)`-factors, and the sum over earlier columns is bounded through `r_k <= alpha^(j-k) r_j` and `alpha ((1+eta)^2 + eps) <= rho`. `Proofs/GsoRound` shows that the model of `update_gso()` computes these recurrences, row by row, no division by zero. `C81_min_prec` (real logarithms of Mathlib), `C81_gso_error`, `C81_gsoErr` (hypothesis of C70), `C81_proved_svp` (C71 with the GSO computed by the code). The bound on `r` holds with the factor 11/12 |
| C82 | `compute_min_prec` for L2 | Violated for `eta = 0.5` and `delta = 1` (`C82_l2_violated`): `log(0)` is `-inf`, the precision `+inf` is cast to `int`. Defined otherwise (`C82_l2_partial`). That the precision suffices for a sound LLL is C83 |
| C83 | `LLLReduction::lll` of `Model/LLL` over `GSO` with the integer Gram matrix on the numbers of `Model/FloatRnd` (any rounding with relative error `2^-P`, unbounded exponents); `l2_min_prec` as in C81 | Backward argument (`Proofs/CholeskyLLL`): if the computed `mu` are at most `eta` and the computed Lovász tests pass, then, row by row, the exact ones hold with a margin `16 d rho^(d-1) u`, so the exact rows are reduced, so the forward error analysis of C81 applies to the next row. `Proofs/FreshRound`: every valid entry of `r` and `mu` is the result of the recurrences on the current basis, through row operations, insertions and `set_r` (no hypothesis on reducedness). `Proofs/LLLRound`: `babai` success gives the size-reduction of the computed values, the insertion index gives the tests, and by the error analysis the inserted length is positive, so the branch for zero vectors is never taken. `C83_proved_lll`, `C83_l2`. `l2_min_prec` computes its `rho` for `(delta, eta)` though the output has slightly weaker parameters; the constant 10 (instead of 5) absorbs it. That LLL succeeds is C84. Not covered: Siegel's condition; dependent rows; exponent ranges of `dpe`, `dd`, `qd` |
| C84 | As C83, with `get_si_exp`/`get_z_exp` of `mpfr` numbers; no `GSO_OP_FORCE_LONG` (the proved method does not set it) | `Proofs/BabaiRound`: after a pass of `babai` from coefficients of size `K`, the exact coefficients are at most `1/2 + 11 tau K` with `tau = d rho^(d-1) u`, so `K` shrinks by more than the factor the test for failure asks for, until `K` is a constant and the row is accepted (`Proofs/BabaiOk`, `babaiLoop_ok`). `Proofs/LLLRoundOk`: a vector is inserted only if the exact Lovász conditions fail for `delta + 16 tau < 1`, so the potential argument of C62 applies; Gram-Schmidt lengths never grow, so the first coefficients stay within the range of the exponents. `C84_proved_lll_succeeds`, `C84_l2` (with `compute_min_prec` and `max_iter`); together with C83 the proved method is correct and total on independent vectors. Hypotheses: `epsilon <= 1/16` (the code: 0.01), `eta - 1/2` computed exactly. Not covered: Siegel's condition; dependent rows; exponent ranges |
| C85 | `lll_reduction` as in C27, C48 and C53, run in a world where types with at least `good_prec` bits round with relative error `2^-good_prec` and represent `delta` and `eta`; the other types are arbitrary | `Props/WrapperOk`: C27 (the last run is proved, with enough bits) and C53 (it starts from a basis of the lattice) give the hypotheses of C84 for the last run; without zero rows `zeros_first` moves nothing. Example: 48 vectors, all `double`, `long double` and `dpe_t` numbers are NaN, and the wrapper still reduces. Hypotheses besides those of C84: no run leaves integers of about `2^62` bits (they do not fit into memory); `long` does not overflow |
| C86 | `Model/SvpCmd`: `shortest_vector` with the choice of the precision, the GSO in `mpfr`, `init_delta_def`, `get_max_error_aux`, the enumeration in `double` and the exact evaluator; `svpcvp` for `-a svp` on top of it and of `lll_reduction` (C85) | A priori bound for the whole of `get_max_error_aux` on reduced bases (`Proofs/ErrApriori`: every step is near its exact value, the errors grow by less than 1.78 per level; `Proofs/MpfrFine`, `Proofs/SVPApriori`), so that the two `FPLLL_CHECK`s and the last hypothesis of C71 hold (`Props/SVPApriori`). `gso_min_prec` assumes (0.99, 0.51) while LLL reaches that only up to rounding; the slack absorbs it. The dimension is limited to 52 because the bound for the 53-bit `double` enumeration grows like 1.78^d; for larger dimensions the run-time checks of C71 decide. Exponent ranges of `double` and `mpfr` are not modelled |
| C87 | `Model/LatticeGen`: `main` of latticegen.cpp on top of the generators of `Model/Gen` (C39). Parameters: `atoi`, `set_str`, `(int)pow(2d-i, f)`, `mpz_nextprime`, random numbers, stdin. `int` does not overflow | The documented matrices are stated as predicates read off README.md. `r`, `u`, `q`, `T` conform. Violated: `s` prints `d+1` rows and columns and its first entry is always `2^b2` (`b2+1` bits); `n`/`N`: the coefficients of `h` always add up to a multiple of `q`, so `h` is not uniform; `t`: the diagonal is random up to `2^((2d-i)^f)` instead of `2^((d-i+1)^f)`; `q 3 -1 5 q`, `s -1 1 1`, `n 0 5 q` write outside of the arrays. Safety for dimension at least 1 and `k ≥ 0` for all other arguments |
| C88 | `Model/PrunerTables` (the two tables of decimal strings, copied by `tools/gen_tables.py`), `Model/Volume`: the tabulated constants, `sphere_volume`, `cost_estimate`; exact reals, `M_PI` is `π`, the rounding of the strings to `FT` is not modelled (in `double` the factorials overflow from 171 on) | The whole table is computed with in the kernel: factorials against `n!`, volumes by the recursion `V(n+2) = V(n) 2π/(n+2)` with 60 digits of `π` proved from Machin's formula (`Proofs/PiDigits`); the volume is the Lebesgue measure of Mathlib. `C88_level` puts the table into C60. Violated: the dimension is not checked, dimension 2047 reads `tabulated_ball_vol[2047]` |
| C89 | `Model/TopEnum`: constructor and `enum_next` of `Enumerator`, statement by statement, for `d ≥ 1` (for `d = 0` the code reads `center[-1]`); exact rationals instead of `mpfr`; `cost_estimate` is any function (the code passes `k-1` as `dimMax`, so level `k-1` is left out of the estimate); `rnd` is any rounding to nearest | Invariant of the traversal and the set `Rem` of nodes still to come (`Proofs/TopEnum`); `C89_complete`, `C89_disjoint`, `C89_subtrees` for any sequence of radii; `C89_terminates` by counting the remaining nodes in a box. Of `v` and `-v` only one is visited unless the first estimate is exactly `max_volume` (`C89_sign_partial`); then both are (`C89_tie_violated`) |
| C90 | `Model/CvpCmd`: `svpcvp` of main.cpp with a target of any length, on top of `lll_reduction` (world of C85) and `closest_vector` of C73 (exact arithmetic) | C85 gives the reduced basis of the same lattice, C73 the closest vector; the specification speaks of the lattice of the input only. Violated: the default build prints a vector that is not closest (slack bounded in `C90_cvp_partial`), a short target is read behind its end, a long one is cut without a message, an empty one turns the action into `svp`, dimension one fails, format `c` (the documented default) aborts |
| C91 | `isLllReduced` of `Model/LLL` over numbers with a relative rounding error (`Model/FloatRnd`), exact Gram matrix | the error analysis of C83 with the test `r(i,i) < r(i-1,i-1) (delta - mu^2)` of lll.cpp:243-256 in place of that of LLL; induction on the rows: rows accepted so far are exactly reduced with the margin, hence the computed `r(j,j)` are positive and `update_gso` cannot have stopped at them; conversely the errors of C81 on a reduced basis. Precision necessary: witness with 3 bits. Integer Gram matrix necessary: with rounded scalar products of 53 bits `(1,1,1), (2^60,100,-2^60)` is accepted (and LLL with the heuristic method returns it as reduced) although `mu = 100/3` |
| C92 | `LLLReduction::lll` with `siegel = true` and the wrapper, as in C83-C85 | the proofs of C83/C84 are parametrised by the flag: the test compares `r(k-1,k-1) (delta - eta^2)` with the partial sum one place further (`lll_test_index`), whose computed value is `r(k,k)`; with `\|mu\| <= eta'` Siegel's condition replaces Lovász's in the backward argument, and an exchange still shortens the potential because `r(k,k) + mu^2 r(k-1,k-1) < delta r(k-1,k-1)`. A threshold `tau` off by `e` is the run for `delta + e`; `EnoughL2` and the budget `max_iter` have room for that (`EnoughL2.shift`, `budget_shift`). In the code the threshold is computed in `double` (lll.cpp:40), in the model in the numbers of LLL; `C92_l2` takes any `tau` |
| C93 | `Model/BkzDump`: `dump_gso` and the tours and main loop of C24 over states with the text of the file; doubles are printed as an arbitrary text of the form that `%g` allows. Grammar of RFC 8259 in `Spec/Json` | invariant over the tours: the file is `[` and records that denote the expected objects, each followed by a comma; `Output` closes it. Simulation: without the file the outcome is that of C24's `bkz`. Violated (proved): block size below two returns success with an unclosed array; when an exception ends the run the array stays open; infinite norms (dependent vectors with `-nolll`) are not JSON, by a scanner that every JSON text passes; the numbers are `log ||b_i*||^2`, not `log ||b_i*||` as README.md says |
| C94 | `Model/HlllPrec`: `hlll_min_prec` over reals, infinities and NaN with an arbitrary rounding of every operation; checks and the conversion to `int` (undefined for infinities, NaN and large numbers). Range of exponents and signed zeros not modelled | signs of all intermediate results for every monotone rounding that keeps signs: finite when `theta > 0` and the rounded `eta^2` is below `delta`; value in exact arithmetic. Violated (proved): `theta = 0`, empty matrices and `delta = eta^2` pass the checks and convert an infinity or NaN; `delta < eta^2` passes too and can give a number from a negative `alpha`; `ftmp0.max_f(ftmp1)` discards its result, so the second term of the maximum never counts: with the default parameters the precision is at least one bit below the documented one for all dimensions from 100 on |
| C95 | `Model/RunPruner`: window, radius and arguments of the optimisation in `run_pruner_f`, the checks of `run_pruner`, of the constructor of `Pruner` and of the action `pru`; exact arithmetic, exact Gram-Schmidt lengths; printing and failures of `update_gso` (ignored by the code) left out; the optimisation is that of C44, C59-C61 | cases; radius by C77's theorems on `get_root_det` and `adjust_radius_to_gh_bound`. Violated (proved): with the documented default `prune_min_prob = -1` (and with every target that is not positive) an exception ends the program for every matrix; the block of the last row is replaced by the whole matrix; blocks of one row read outside of the pruner's vectors, blocks of 2047 and more rows outside of its tables |
| C96 | `Model/LllCmd`: `main`, `run_action<mpz_t>` and `lll` of main.cpp on texts, `print_comma`; composed of the models of `read_options` (C47, C55), of matrix input and output (C35), of `l2_min_prec` (C84) and of `lll_reduction` (C53, C92); other actions, other integer types and standard error left out | composition of these theorems with grammars for both output formats (plain and nested lists as in JSON); the guarantee of C92 carried over to the printed text. Violated (proved): a matrix without rows or columns is undefined behaviour, with the wrapper in its constructor (`log2(0)` converted to `int`), with the other methods in `print_comma` |
| C97 | `Model/GsoDump`: the four functions on the GSO model; exponents of rows are part of the numbers, conversion to `double` left out | loop invariants; values by C07 for every session of operations. Violated (proved): the vector overload of `dump_mu_d` takes its vector by value and has no effect; the diagonal of `mu` and what is above it are never written, so uninitialised memory is dumped; the default size with an offset leaves the matrices; block sizes above 46340 overflow `int` |
| C98 | `Model/RedCmd`: `main`, `run_action`, `bkz`, `hkz`, `BKZParam` on the models of the parser (C47), the reader (C80), `bkz_reduction` (C79) and the printing of C96. Left out: messages, the dump file (C93), how strategies are loaded (`load`, C26) | composition with C79, C24, C96. Violated (proved): `-nolll` has no effect for `hkz` although documented; a transform whose entries exceed 2^62 is written as a singular matrix with exit code 0; matrices without rows or columns are undefined behaviour |
| C99 | `Model/HlllCmd`: `main`, `run_action`, `hlll`, `hlll_reduction` on the models of the parser (C47), the reader (C80), `hlll_min_prec`, the wrapper (C28), HLLL (C30) and `is_hlll_reduced` (C56). Left out: messages, integers other than `mpz_t` | composition with C28, C30, C96; termination for `-m proved` and `-m fast` from the potential of C30. Violated (proved): one row is undefined behaviour; the default method exits with 0 whatever its runs report (witness `(20, 0), (9, 1)`, delta 0.3); matrices without rows or columns are undefined behaviour; `-of t` is ignored |
| C100 | `Model/JsonRead`: lexer and parser of `io/json.hpp` with its state machine for numbers, its escapes and surrogate pairs and its explicit stack, then `load_strategies_json` on the value read. Texts are lists of code points (bytes: C101); number texts are converted by an arbitrary function, overflow to infinity is the parameter `fin`; the messages of exceptions and the `FPLLL_DEBUG_CHECK`s are left out | completeness by mutual induction over the grammar of `Spec/Json`; soundness by an invariant over the stack (the text consumed and the stack determine a prefix of a JSON text); termination by a measure. Violated (proved): text after the value is ignored; pruning parameters with less than three elements are read behind the end; a missing block size is a failed assertion |
| C101 | `Model/JsonBytes`: strings, escapes and byte order mark of the lexer on bytes; the rest of the lexer and the parser are those of C100. UTF-8 in `Spec/Utf8` | the ranges of the code are those of the encoding, in both directions; every list of bytes is the encoding of a text followed by bytes that are not UTF-8; simulation of the lexer and of the parser between the bytes and the text |
| C102 | `Model/StratUse`: reads of the vector of strategies, choice of the pruning parameters and nesting of `svp_reduction`; LLL, enumeration and insertion are arbitrary functions of an arbitrary state, and the stack holds `depth` calls | no block of a tour is larger than the block size (all variants of the tours of C23), then induction over the depth. Violated, each for all such inputs: a non-empty vector without an entry for the first block, a strategy without parameter sets, and a strategy whose first preprocessing size is not smaller (for every size of the stack); the code checks none of this |
| C103 | `Model/PruneFit`: the size checks and the reads of the pruning vector at the start of an enumeration, as lists (in `Model/Enum` the vector is a function); block reduction of C102 whose enumerations start in this way | the loop over the vector is `take` and `map`; runs by C102; loaded files by C26, from the bytes of the file on by C101. Violated for all short vectors (read behind the end without an external enumerator; with one, every wrong size aborts) |
| C104 | `Model/DualOrder`: the choice of the loop and the reversal after it; the search is an arbitrary function to solutions and sub-solutions (it is `Model/Enum`, C11-C13) | closed form of `reverse_by_swap` (C10) and reflection of the sum; with C11, distances are squared lengths of the dual vectors with the coordinates returned (`C104_distance`). Violated for sub-solutions, for a second call with the same evaluator and for a non-empty `max_indices` |
| C105 | `Model/LLLBudgetInt`: the product `2 * d * (d + 1)` with checked and with wrapping `int` arithmetic; logarithm and quotient are real as in C62; LLL with arbitrary floating-point behaviour | bounds of the product, `log 2`; a limit of zero ends LLL before its first iteration. Violated from 32768 rows on |
| C106 | `Model/StratPath`: the search for the file, the file system as a function, the parser arbitrary (C100, C101); that directories can be opened but not read is an assumption on the system (`posix`) | case analysis. Violated: directories hide shipped files, and the second search spoils the error message |
| C107 | `Model/LLL` (C01-C03), any range of rows and arbitrary floating-point behaviour | induction over the loop that moves zero rows: with row 0 zero and `kappa_min > 0` it reverses the block. Violated for `kappa_min > 0` |

## Findings

Where the code does not have a property, the negation is proved with a concrete witness or for a whole class of inputs. The text is that of
the theorem's comment.

- `C08_move_violated`: C08 fails when a row is moved beyond the known rows: for the basis (1, 0), (0, 2), of which one row has been discovered, `move_row(0, 1)` exchanges the rows of `u` but not those of `g`, so `g` is not the Gram matrix of `u · b` any more. `MatGSO::move_row` has no such defect (C01, C06).
- `C08_lll_dependent_violated`: C08 fails for dependent vectors: given the Gram matrix of (1), (1), (1), `lll()` with exact arithmetic reports success with two zero vectors, but the transform it returns maps the vectors to (1), (1), (0), which is neither size-reduced nor described by the returned `g`: `g` claims that the second vector is zero.
- `C08_lll_leading_zero_violated`: A leading zero vector stops LLL on Gram matrices: for the vectors (0,0), (3,0), (1,1) the loop of lll.cpp:66-69 calls `move_row` before any row is known, so `g` stays as it is, its row 0 is found to be zero three times over, and `lll()` reports success, with all three vectors declared zero, without reducing anything. On the basis itself `lll()` finds one zero vector and two reduced ones.
- `C08_sqnorm_violated`: Without `symmetrize_g()` it is wrong: for the basis (1,0), (0,1), after `row_add(1, 0)` the basis is (1,0), (1,1); the vector with coordinates (1, 1) is (2, 1) of squared length 5, and `sqnorm_coordinates` returns 4, as the row operations update one triangle and it reads both.
- `C09_violated`: C09 fails. After a legal history followed by `negate_row_of_b`, the basis is no longer the transform times the original basis: for the basis `[[1]]` the row becomes `-1` while `u` stays `1`.
- `C22_transform_violated`: C22 violated for the transform. With a transform kept (and no inverse), a run of BKZ on the identity basis whose enumeration returns the coefficients `2, -3` ends with a transform that is not the one applied to the basis: `negate_row_of_b` (bkz.cpp:218) does not touch `u`.
- `C22_inverse_violated`: C22 violated for the inverse transform. No row is negated, `u` is right, but `u_inv_t` is not its inverse transpose: `row_swap` (gso.cpp:264-287) does not touch it.
- `C23_sd_violated`: C23 violated for SD-BKZ with a block size larger than the number of rows: the final `hkz(num_rows - block_size, num_rows)` starts at row `-2`.
- `C23_empty_violated`: C23 violated for an empty basis (all rows were zero): size reduction of row `-1`.
- `C24_errors_as_status_violated`: C24 violated: "errors of sub-steps surface as a status" — an LLL failure inside a tour makes `bkz()` throw.
- `C26_far_violated`: C26 violated for a ratio farther than `2^80` from all sets: the first set is returned although the second is nearer.
- `C27_precision_violated`: C27 (order of the precisions) is violated. With `dpe_t` and `dd_real` compiled in, entries of 600 bits and `good_prec = 300`: after failures in `dd_real` (106 bits) the proved loop starts again with `dpe_t` (53 bits), and its second round, meant for 106 bits, is the very same run once more.
- `C28_violated`: C28 is violated, concretely: every run fails and the status is `RED_SUCCESS`.
- `C29_one_row_violated`: C29 is violated for one row. For every basis with exactly one row, HLLL accesses a row that does not exist.
- `C30_eta_violated`: C30 is violated for `η < 1/2`. For the basis (2, 0), (1, 2) and `δ = 0.99`, `η = 0.3`, `θ = 0`, HLLL with exact arithmetic reports success whenever its rounding settles, and never returns a reduced basis: there is none.
- `C43_violated`: C43 is violated: in the plane with radius 1, two nodes of level 1 are visited, one is reported.
- `C43_violated_wrap`: C43 is violated even by 2^64 - 1: no node of level 1 is visited, 2^64 - 1 are reported.
- `C43_total_violated`: C43 violated, total. From `2^31` to `2^32 - 1` nodes `get_nodes()` reports more than `2^64 - 2^32` nodes, and for `2^32` nodes and more it reports the remainder modulo `2^32`, with the same effect.
- `C47_violated`: C47, violated: after `-a sdb` a later `-a bkz` still runs self-dual BKZ.
- `C47_r_violated`: C47, violated: the documentation of `-r` (ignored) does not hold, it overwrites the value of `-c`.
- `C51_zero_violated`: C51 violated for block size 0: `coefficients[0]` of an empty vector is written
- `C54_coord_violated`: C54, violated: with the documented format `c` (coordinates) and the default initial LLL reduction the program never prints anything: `svpcvp` passes an empty matrix `u`, so no transformation is computed and the product with it aborts.
- `C56_expo_violated`: C56 is violated with row exponents (`is_hlll_reduced_zf`): the Lovász test rescales `R(i, i)` but not `R(i, i - 1)`. The basis (1024, 0), (1, 1) is accepted, and is far from reduced.
- `C59_second_coefficient_violated`: C59 violated (even `n`): with `pr = (1, 0.001, 0.001, 0.001)`, which is non-increasing and starts with 1, the "lower bound" is 1 and larger than the upper bound, because `relative_volume` takes the coefficients relative to the last one. The result is larger than 1/2; the probability is smaller than 1/100. Raising `pr[1]` to 1 makes the result smaller than 1/100.
- `C59_odd_violated`: C59 violated (odd `n = 2d + 1`): `pr[0]` is not looked at, and for `pr = (1, x, …, x)` the result is 1, however small `x` is.
- `C59_linear_three_violated`: C59 violated by `LinearPruningParams(3, 2)`: the coefficients are `1, 2/3, 1/3` and `expectation` is set to 1 (bkz_param.cpp:34).
- `C60_full_detail_violated`: C60 violated for full vectors: the detailed costs do not add up to the cost (dimension 2, coefficients `(1, x)`, `x < 1`).
- `C61_repeated_violated`: C61 violated for the metric of expected solutions: `repeated_enum_cost` (public, pruner.h:568) uses `1 / expected` trials where `target_function`, which was optimised, uses `target / expected`; for each target above one the reported cost of an enumeration expecting fewer than one solution is too small.
- `C61_goal_flat_violated`: C61 violated: pruner_optimize_tc.cpp:443 says "Make the tree width as a parabola, with maximum at n/2", but the summand for the parabola is an integer division and always 0: the goal is the same on all levels.
- `C63_zero_violated`: C63 fails for the zero that `dpe_set_z` makes: it is not normalized, compares less than zero, and `sgn` says that it is negative. The same holds for the zero that `dpe_sqrt` makes of zero.
- `C63_mul_2si_zero_violated`: C63 fails after `mul_2si` of zero: the product is less than zero when the exponent grows, and the `int` exponent overflows when it shrinks.
- `C64_add_corner_violated`: the corner case for all operands: `dpe_add` returns the larger operand, which is not nearest
- `C64_set_z_zero_violated`: C64 fails with the zero that `dpe_set_z` makes: subtracting any number below `2^-54` from it gives zero. In `update_gso_row` (gso_interface.cpp:145-150) the Gram coefficient is such a number when the Gram matrix is kept in integers.
- `C64_zero_overflow_violated`: C64 fails: the product of zero and a normalized number below 1/2 overflows the exponent, which is undefined behaviour in C++, and so does the quotient of zero and a number from 1 on
- `C64_set_d_subnormal_violated`: C64 fails for subnormal doubles on x86: `dpe_set_d` reads the exponent bits of a subnormal number as if the number were normal, so the result has absolute value at least `2^-1023` whatever the number
- `C65_zero_overflow_violated`: C65 fails for zero: `get_si_exp` and `get_z_exp` subtract from the least `int`
- `C66_inverse_violated`: C66 fails: `pow_si(x, -1)` of a positive `dpe_t` is zero unless the mantissa is within `2^-21` of one, because the power is converted to `unsigned int`.
- `C66_dual_radius_violated`: the radius of a dual enumeration with `dpe_t` (bkz.cpp:311-317: `max_dist.pow_si(max_dist, -1)`, then `max_dist *= delta`): zero, for `delta` from 1/2 on, so that no dual vector of positive norm is found; the inverse of the last Gram-Schmidt norm times `delta` is positive
- `C66_large_violated`: C66 fails for large powers: two to the power 1100 is zero
- `C74_dd_violated`: The documented equality of `get_si_exp_we` and `get_z_exp_we` fails for `dd_real`: for the integer `2^53 + 1` both give `2^53`.
- `C74_dd_trunc_violated`: Truncation is wrong as well: `3 - 2^-60` becomes 3.
- `C74_dd_rnd_violated`: `rnd_we` does not round numbers of `2^52` and more: `2^53 + 1/4` is returned as it is.
- `C76_mod_violated`: C76 (`mod`) is violated: the three types disagree on the sign: `-7 mod 3` is 2 with `mpz_t` and -1 with `long` and `double`.
- `C76_double_shift_violated`: Shifts to the right are violated with `double`: `3 / 2` is 1.5, which is no integer.
- `C77_start_row_violated`: C77, `start_row` is ignored. The potential of the rows from `start_row` on reads rows before `start_row`: for the basis with squared lengths `9, 9, 1, 1` the potential of the last two rows, in blocks of one row, is `log 9` instead of `log 1 = 0`.
- `C77_radius_dual_violated`: C77, the radius of dual blocks is wrong. With `gh_factor = 1` the ball should have at most the volume of the dual of the projected lattice, and should not be smaller unless the last vector of the block demands it. The first fails for squared lengths `2, …, 2, 2^-29` (31 rows), the second for `1, …, 1, 2^-29`.
- `C78_last_row_violated`: C78, the last row is never randomised. Row `hi - 1` of the block stays as it is.
- `C78_two_rows_violated`: C78, two rows. On exactly two rows `rerandomize_block` draws both row numbers from one value until they differ: it never returns, whatever the random numbers are.
- `C78_svp_violated`: C78, `svp_reduction` with block size 3 hangs as soon as an enumeration finds nothing and the success probability asks for another one.
- `C79_prec_violated`: C79 (precision), violated. `bkz_reduction` restores the precision only when `bkz()` returns (bkz.cpp:906-908): after an exception every later `mpfr` number has the precision of the failed call.
- `C79_lost_violated`: C79 fails if `u` grows. `bkz_reduction` decides by the sizes of `b` and `u` (the identity) to work with machine integers, and does not look at the results of the conversions back (bkz.cpp:833-835). With `BKZ_NO_LLL` the basis `(1, 0, 0), (2³¹, 1, 0), (0, 3·2³⁰, 1)`, whose entries are below `2³²`, is reduced to the unit vectors; the second row of the transform is `(3·2⁶¹, -3·2³⁰, 1)`, which fits in a `long`, but `convert` stops at entries above `2⁶²`. The call returns `RED_SUCCESS` and a singular `u`.
- `C82_l2_violated`: C82, violated. `l2_min_prec` for `eta = 0.5` or `delta = 1` takes the logarithm of 0 and converts an infinity to `int`: undefined behaviour, reached from `lll_reduction` with these parameters, whatever the method (wrapper.cpp:56, :593).
- `C87_s_violated`: C87 fails for method `s`: for no parameters is the matrix the documented one.
- `C87_n_violated`: C87 fails for method `n`: the polynomial `h` is documented to be uniform modulo `q`; but no random numbers give a polynomial whose coefficients do not add up to a multiple of `q`.
- `C87_t_violated`: C87 fails for method `t`: `latticegen t 2 1` prints a matrix that starts with 2 or 16 for some random numbers; the documentation says 4.
- `C87_safe_violated`: C87 fails: `latticegen q 3 -1 5 q`, `latticegen s -1 1 1`, `latticegen n 0 5 q` and `latticegen N 0 5 q` write outside of the matrix or of `h`.
- `C88_bounds_violated`: the tables are large enough exactly up to dimension 2046; dimensions are not checked when a `Pruner` is constructed (pruner.h:290-460), so `gaussian_heuristic` (pruner_util.cpp:90-96) reads outside of the table in dimension 2047
- `C89_tie_violated`: C89 fails for the sign when the estimate is exactly `max_volume`: both `(1, 0)` and `(-1, 0)` are returned.
- `C90_short_violated`: C90, violated for a target that is too short: after a successful reduction the entries behind the end of the target are read.
- `C90_long_violated`: C90, violated for a target that is too long: the entries behind the first `n` are ignored without a message.
- `C90_empty_violated`: C90, violated for an empty target: `fplll -a cvp` reads the input `[[2 0][0 3]][]` without complaint and prints a shortest non-zero vector of the lattice: it does the action `svp`.
- `C90_default_violated`: C90, violated in the default build: for the LLL-reduced basis `(100,0,0), (0,100,0), (0,50,100)` and the target `(0,30,46)`, `fplll -a cvp -nolll` prints `(0,50,100)` although `0` is closer.
- `C90_dim_one_violated`: C90, violated in dimension one: the search radius is the empty sum; for the lattice `2ℤ` and the target 1 nothing is printed.
- `C90_coord_violated`: C90, violated for the format `c`, which README.md gives as the default one that prints the closest vector: the program never prints anything (the coordinates would be printed, but the transformation is not computed, as in C54).
- `C91_low_precision_violated`: C91 needs the precision: with numbers of 3 bits `is_lll_reduced` accepts a basis of three independent vectors with parameters 0.99 and 0.51, which is not even `(0.7, 0.6)`-reduced.
- `C91_float_gram_violated`: C91 needs the integer Gram matrix: without `GSO_INT_GRAM` the scalar products are rounded. With 53 bits, `is_lll_reduced` accepts the vectors `(1, 1, 1)` and `(2^60, 100, -2^60)`, whose coefficient is `100/3`. LLL itself - the heuristic method of `lll_reduction` uses such an object - succeeds on them and leaves them as they are.
- `C93_small_block_violated`: C93 (small blocks, violated). With block size below two the call returns `RED_SUCCESS` and leaves a file that is not JSON.
- `C93_inf_violated`: C93 (infinities, violated). When one of the first norms is infinite - `log(0)` for linearly dependent vectors with `-nolll` - the file never becomes JSON, however the reduction ends.
- `C94_too_small_violated`: C94 (violated). With the default parameters of `fplll` - `delta = 0.99`, `eta = 0.51`, `theta = 0.001`, any `c` - the precision is too small by at least one bit for all dimensions from 100 on.
- `C94_alpha_violated`: C94 (violated). `delta < eta^2` is not rejected, although `alpha` is then negative: for `delta = 0.8`, `eta = 0.9`, `theta = 0.39` all signs cancel and a number results (dimension 1, exact arithmetic).
- `C95_last_row_violated`: C95 (window, violated). The block of the last row is replaced by the whole matrix.
- `C95_minus_one_violated`: C95 (violated). `prune_min_prob = -1` is documented to optimise the cost without fixing the probability, and it is the default; but for every matrix that is not empty, an exception is thrown that nothing catches.
- `C95_one_row_violated`: C95 (violated). A block of one row - a matrix with one row, or `-prustart k -pruend k+1` - is accepted, and the pruner reads outside of its vectors.
- `C95_table_violated`: C95 (violated). Blocks of 2047 and more rows are accepted, and the pruner reads outside of its tables.
- `C96_print_comma_violated`: C96 is violated for matrices without rows or columns: `print_comma` reads `matrix[r - 1]` or `[c - 1]` out of bounds.
- `C96_empty_violated`: C96 is violated for the empty matrix. `[]` is a matrix of the documented format, and the library function returns `RED_SUCCESS` for it, but the parameters are computed first: with the default method `log2(0)` is converted to `int`.
- `C96_no_columns_violated`: C96 is violated for rows without entries: with another method than the wrapper they are accepted, `b` prints them, but `bk` is undefined.
- `C97_offset_violated`: C97 is violated for the default size with an offset: the block has as many rows as the matrix and does not end with it.
- `C97_vector_violated`: C97 is violated by the vector overload of `dump_mu_d`: the documentation says that new entries are pushed to the end, but the vector is passed by value, so the caller's vector never changes.
- `C97_uninitialised_violated`: C97 is violated on the diagonal and above: these entries of `mu` are never written, so `dump_mu_d` reads uninitialised memory – on the diagonal of a freshly constructed and updated object it returns whatever was there, instead of 1.
- `C97_overflow_violated`: C97 is violated for blocks of more than 46340 rows: the product of the sizes overflows `int`, also for `dump_r_d`, which needs no more than the size itself.
- `C98_hkz_nolll_violated`: C98 is violated by `-a hkz -nolll`. README.md: "In the case of bkz, hkz and svp, by default, the input basis is LLL-reduced before anything else. This option allows to remove that initial LLL-reduction". For `hkz` the option has no effect at all.
- `C98_empty_violated`: C98 is violated for matrices without rows or columns: `log2(0)` is converted to `int`.
- `C98_u_violated`: C98 is violated by large transforms. `fplll -a bkz -b 2 -nolll -of but` on the same basis reports success (`t` is 0, and so is the exit code) and writes a singular matrix `u`: see C79.
- `C99_one_row_violated`: C99 is violated for one row. Unless the arguments do not fit together, `fplll -a hlll` on a matrix with one row reads a row that does not exist.
- `C99_empty_violated`: C99 is violated for matrices without rows or columns (with the parameters the program accepts): `hlll_min_prec` converts a number that is not finite to `int` (C94).
- `C99_status_violated`: C99 is violated: the exit code of the default method does not tell whether the reduction succeeded. With `δ = 0.3` all runs on `(20, 0), (9, 1)` end with `RED_HLLL_SR_FAILURE`, as the code compares with `δ` in place of `η`; `-m proved` exits with 11, the default method with 0. The basis written is that of the input, which does not satisfy Lovász' condition for `δ = 0.3`.
- `C100_trailing_violated`: C100, violated for what follows the value: `[] x` is not a JSON text but is accepted.
- `C100_short_violated`: C100, violated for incomplete pruning parameters: nothing checks that there are three; the element behind the end is read.
- `C100_missing_violated`: C100, violated for entries without block size: an assertion fails instead of an exception.
- `C102_short_violated`: C102 violated, short vector. A vector that is not empty but has no entry for the size of the first block is read behind its end: `BKZParam` adds entries to an empty vector only.
- `C102_cycle_violated`: C102 violated, endless preprocessing. If the first preprocessing step of the first block's strategy is not with a smaller block size, the run exhausts every stack, although all reads are inside the vector: nothing checks the block sizes.
- `C102_empty_violated`: C102 violated, no parameters. A strategy made by hand without parameter sets (loading a file adds one) is dereferenced.
- `C103_short_violated`: C103 violated, short vectors. fplll's own enumeration reads a shorter vector behind its end.
- `C103_run_violated`: C103 violated, runs. Nothing checks the vectors of a file: with a short vector for the size of the first block the first enumeration of BKZ reads outside it, in a program without an external enumerator.
- `C104_twice_violated`: C104 violated, second call. Solutions that are in the evaluator from an earlier call are reversed again: after a dual enumeration the coordinates of each old solution are those of the vector with the rows in reverse order.
- `C104_sub_violated`: C104 violated, sub-solutions. They are returned as the search sees them, in reverse order: for vectors that are independent, the coordinates returned are those of another vector as soon as they are not the same from both ends.
- `C104_reset_violated`: C104 violated, `max_indices`. Dual enumeration with a non-empty `max_indices` does not search, and reports no error.
- `C105_undefined_violated`: C105 violated, undefined. From 32768 rows on the limit is undefined, for every basis and every `delta`.
- `C105_failure_violated`: C105 violated, failure. With a limit of at most zero - that is what wrapping around gives for 32768 to 46340 rows, any entries and any `delta` between 1/4 and 1 - LLL does not succeed, whatever the basis (a reduced one too), unless at most one row remains after the zero rows.
- `C106_message_violated`: C106 violated, message. When the directory of the shipped strategies exists, a missing file is not reported as such: the second search looks for the empty name, finds the directory, and reading from it fails.
- `C106_directory_violated`: C106 violated, directories. A directory with the name given hides the shipped file: nothing is loaded.
- `C107_zero_row_violated`: C107 violated. `lll(kappa_min, kappa_start, kappa_end)` with `kappa_min > 0`: the loop that removes zero rows looks at row 0 instead of row `kappa_min` (lll.cpp:66). If row 0 is zero, LLL takes all rows of the block for zero rows: it reports success, whatever the rows are, and returns them in reverse order, not reduced.

## Not modelled

* Output (`print_*`, verbose messages), the writer and the other uses of io/json.hpp than reading a file, reading of the number formats of `FP_NR`.
* Rounding error analysis of HLLL. (That LLL is sound and succeeds with the precision of `l2_min_prec` is C83 and C84. The error analysis of the GSO of a reduced basis is C81, that of the enumeration C68.)
* `enumf` overflow and underflow, external enumerators other than `enumlib` (the hook itself is C72).
* The checks for values that are not finite in the pruner (reals are finite); in C44 cost, probability and gradient are arbitrary functions.
* `dpe_exponential`, `dpe_log`, conversions of `dpe_t` from and to `mpfr_t` and `long double`, output; infinite and NaN `dpe_t`.
* Multi-threaded use of anything except the pool, the barrier and the parallel enumeration.
