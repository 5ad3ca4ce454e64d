# Formal model of spey: design

The model is written in Lean 4 (`lean/Verif`). It is a hand-written, function by function model of the Python
sources in `/repo/src/spey`. Every definition cites the file and lines it models, and says what it leaves out. Nothing here
runs the Python code: the tie between model and code is the reading of the code.

## Trusted base

* Lean's kernel and the three standard axioms `propext`, `Classical.choice`, `Quot.sound`. No axiom is added,
  no `sorry`, `native_decide` or `bv_decide` is used. The axioms of each theorem are listed below.
* The reading of the code: that the definitions in the `Model` files say what the cited lines do.
* Numbers. Python floats are modelled by the real numbers `ℝ`. Rounding, overflow, subnormal numbers and negative zero are not
  modelled. Where NaN and infinities matter for a branch of the code they are modelled explicitly: by the type `Verif.Py.F`
  (nan, -inf, finite, +inf, with numpy's rules for comparison and arithmetic) or, in the contour search, by `Option ℝ`.
* External calls are parameters. The contract that is assumed of them is a hypothesis of the theorem that uses it, and there is an
  `example` that the contract can be met. In short:
  * `scipy.optimize.toms748/brentq`: returns a point of the bracket close to a sign change, or raises.
  * `scipy.optimize.minimize`, `minimize_scalar`, `iminuit`: an arbitrary function (also one that fails). What a theorem needs is
    spelled out: `Honest` (keeps masked parameters, reports the value at the point), `Inside` (respects bounds), `Constrained`,
    `Optimal` (global minimum), `StartFree` (independent of the start).
  * `scipy.stats.norm.cdf`: the cumulative distribution function of Mathlib's `gaussianReal 0 1`, or any monotone function
    with values in [0,1] where only this is needed. `chi2.cdf`/`ppf`: a monotone function and its inverse.
  * `scipy.integrate.quad`: the exact integral. `numpy.linalg.eigh`, `cholesky`, `inv`, `qr`: results that satisfy their defining
    equations, or exceptions. Random generators: an arbitrary stream of values.
  * `hashlib.sha256`: a function; injectivity is a hypothesis where needed.
  * `threading.Lock`: code inside `with lock:` is one atomic step; steps of different threads interleave arbitrarily.
    `threading.Event`: a flag that is set once; a waiter may proceed only when it is set.
  * `copy.deepcopy` returns an equal value that shares nothing: values are immutable in the model.
  * `id()`: unique among live objects, may be reused after deletion. Weak references die with their object.
  * file system operations (webutils): a finite list of files; each operation is atomic or fails.
  * `numpy.float32`: rounding with a bounded relative error.
* Python semantics used: dict is an insertion-ordered association list with unique keys, `sorted` is a stable sort,
  exceptions are values (`Except`), negative indices count from the end, `for` over a list that is changed in the loop goes on by
  position, lists passed by a caller are shared with the caller (explicit state where the code changes them in place).

## How a property is laid out

For an area `X` there are up to four kinds of modules:
`Verif/X/Model.lean` (the code), `Verif/X/Spec.lean` (small vocabulary in which the property is stated, independent of the
model's helpers), `Verif/X/Lemmas.lean` (proof internals) and `Verif/X/Props.lean` (the property theorems, named `Cnn_...`,
followed by an `example` which exhibits a non-trivial case meeting the hypotheses). Larger areas have several of each.
A property that is false of the code has a theorem `Cnn_..._fails` with a witness (or for all inputs of a kind) and, where something
weaker is true, a theorem with the suffix `_partial`, whose comment says what is missing. The full statement stays in
`properties.jsonl`.

`seeded/LOG.jsonl` records what happened when the model was changed as a realistic bug would: the definition, the change, the claim
that it breaks, the theorems that no longer hold, and which theorems were tightened when none failed.

## What is modelled

| source | model | not modelled |
|--------|-------|--------------|
| `system/cache.py` | `Cache` (wrapper as a transition system), `CacheKey` (`_make_token`, `_build_key`), `PerInstance` (descriptor; `Race`: first access by threads) | logging, `repr` of unsupported types |
| `hypothesis_testing/test_statistics.py`, `distributions.py`, `utils.py`, `asymptotic_calculator.py`, `toy_calculator.py` | `Stats` | progress bar, import of plotting |
| `hypothesis_testing/upper_limits.py` | `UpperLimit` | log messages |
| `base/hypotest_base.py` | `Hypotest` (`_prepare_for_hypotest`, `exclusion_confidence_level`, `significance`, `poi_upper_limit`, `sigma_mu`, with all calls of the model), `Stats` and `UpperLimit` (their numerical part), `Chi2` (`chi2_test`), `Interface/Ratio` (`chi2`, `pull`), `Interface` (`sigma_mu`) | abstract declarations, log messages |
| `base/utils.py` | `Chi2` | |
| the above put together: `backends/default_pdf/*` inside `StatisticalModel`, with all fits of the tests | `Chain`, `Toys` (tests with toys), `Uncertain` (signal uncertainties, signal parameters) | toys with signal uncertainties |
| the tests of `UncorrelatedBackground` and `Poisson` as functions of the bins | `Uncorrelated` | negative signal strengths, correlations |
| levels and limits of models with linear backgrounds, and of combinations of different kinds of models, through the concavity of their profile likelihoods | `Linear` | third moments and asymmetric uncertainties (their backgrounds are not linear) |
| bounds on levels and limits of all simplified likelihoods, and of their combinations, from their yields | `Chain` (C163), `Reach` | Gaussian models |
| `excluded_cross_section`, `s95exp`, `s95obs` (`interface/statistical_model.py`) | `CrossSection` | |
| the same inside `combiner/uncorrelated_statistics_combiner.py` | `Joint` | `statistical_model_options`, optimiser arguments, two models that share a backend |
| `base/model_config.py` | `Config` | |
| `optimizer/core.py`, `scipy_tools.py`, `minuit_tools.py` | `Optimizer`, `Minimisers`, `Tools` (choice of the minimiser) | the minimisers themselves, gradients and Hessians that are only passed on |
| `combiner/uncorrelated_statistics_combiner.py` | `Combiner` | |
| `__init__.py`, `base/backend_base.py` | `Registry`, `Interface`, `Tools` (settings, messages, citations) | `help` texts |
| `helper_functions.py` | `Helpers` | |
| `backends/default_pdf/*` | `Backend`, `Synth`, `ThirdMoment` | automatic differentiation (taken as exact derivative), random numbers |
| `backends/distributions.py` | `Backend`, `Dist` | scipy's densities (their formulas are used) |
| `interface/statistical_model.py` | `Interface` (without its caches), `Memo` (with its caches, and the tests on top) | `__repr__` |
| `math.py` | `Interface` (signs of gradient and Hessian) | |
| `multiparameter/contour.py` | `Contour` | thread scheduling of the pool beyond result order, log messages |
| the same on a statistical model: the primary fit, the profiled NLL and the search together | `Region` | automatic differentiation, the minimisers themselves |
| `system/logger.py` | `Logger` | thread locks of `logging` |
| `system/webutils.py` | `Web` (the cache of `_get_pypi_info`), `Tools` | texts of messages, network protocol |
| `utils.py` | `Expectation` | |
| `multiparameter/multiparam.py` | `MultiParam` | (imports a module that does not exist; no code uses it) |
| `about.py`, `_version.py`, `system/exceptions.py` | exceptions are values; `Tools` (`warning_tracker`) | texts |

## Result per property

The theorems of a property are listed in `MANIFEST.json`; here their names without namespace.

| id | claim | status | theorems | remarks |
|----|-------|--------|----------|---------|
| C01 | A cached call only ever returns a value the function produced for that key | proved | C01_returned_values_were_computed, C01_stored_values_were_computed, C01_deterministic_function_is_transparent (`Verif.Cache`) | All schedules, all cache sizes. |
| C02 | Each unique input is computed exactly once, also under contention | partial | C02_single_flight_partial, C02_call_does_not_recompute_partial, C02_single_flight_fails, C02_single_flight_fails_with_clear (`Verif.Cache`) | Holds while the distinct keys fit in maxsize and nobody clears; false otherwise: an in-flight entry can be evicted (every maxsize >= 1) or cleared, then the same key is computed twice. |
| C03 | No caller of a cached function waits forever | partial | C03_waiters_are_woken_partial, C03_calls_end_partial, C03_no_lost_waiter_fails, C03_no_lost_waiter_fails_with_clear (`Verif.Cache`) | Holds without eviction of in-flight entries and clear; false otherwise (witness for every maxsize >= 1). |
| C04 | A failing computation leaves no trace and is retried | partial | C04_failure_leaves_no_trace, C04_failure_is_retried_partial, C04_waiter_takes_over, C04_next_call, C04_waiter_fails (`Verif.Cache`) | No trace and recomputation by the next call: all schedules. A thread that already waits takes over while the keys fit in the cache and nobody clears it; after cache_clear a waiter may wait forever (C04_waiter_fails). |
| C05 | The cache is a bounded FIFO map | partial | C05_sequential_fifo, C05_sequential_bound, C05_concurrent_bound_partial, C05_quiescent_size_partial, C05_concurrent_bound_fails (`Verif.Cache`) | Sequential use is a bounded FIFO map; with threads the bound can be exceeded. |
| C06 | The cache's own bookkeeping never raises | partial | C06_no_key_or_value_error, C06_no_internal_error_partial, C06_sequential, C06_no_internal_error_fails, C06_negative_maxsize_fails (`Verif.Cache`) | KeyError/ValueError never; IndexError from popleft on an empty deque is possible. |
| C07 | Cache keys identify the arguments | partial | C07_same_arguments_same_key, C07_different_arguments_partial, C07_different_arguments_fails, C07_number_types_collide_fails, C07_refused_calls (`Verif.CacheKey`) | Calls binding the same values have the same key. Different contents give different keys for arguments of one type per parameter, with SHA-256 injective; false in general: a list and a tuple, a dict and a list of pairs, an array and a tuple of its parts, True and 1 and 1.0 collide. |
| C08 | Two instances never share cached results | partial | C08_result_belongs_to_the_object_partial, C08_caches_are_separate_partial, C08_copied_object_fails (`Verif.PerInstance`) | Proved for every history of creations, deletions with address reuse, collections and calls that does not copy an object carrying its wrapper in its __dict__; false for such copies (negation proved): the copy shares the wrapper bound to the original. |
| C09 | Test statistics are non-negative and vanish on the side that is not tested | proved | C09_never_negative, C09_finite_and_nonneg, C09_zero_side, C09_zero_at_best_fit (`Verif.Stats`) | Also for nan and infinite likelihood values. |
| C10 | q_mu_tilde is the capped profile likelihood ratio | proved | C10_ratio, C10_ratio_unimodal, C10_agrees, C10_below, C10_below_needs_maximum (`Verif.Stats`) |  |
| C11 | p-values are ordered probabilities | proved | C11_observed, C11_expected, C11_significance (`Verif.Stats`) | Infinite shifts included. |
| C12 | The expected p-value band is ordered | proved | C12_expected_ordered, C12_background_values (`Verif.Stats`) | Uses log-concavity of the normal distribution function, proved in Verif/Py/Normal.lean. |
| C13 | exclusion_confidence_level returns probabilities, in a fixed shape | partial | C13_range_and_shape, C13_all_partial, C13_expected_monotone, C13_all_fails, C13_toy_monotone_fails (`Verif.Stats`) | Range and shape: all inputs for expected != "all". False for expected="all" (nan is returned) and monotonicity is false for toys. |
| C14 | A vanishing Asimov test statistic is reported, not divided by | proved | C14_raises_iff, C14_caller, C14_significance_never_raises (`Verif.Stats`) |  |
| C15 | The teststatistic shift is continuous and monotone | proved | C15_shift_is_eq66, C15_continuous, C15_strictly_increasing, C15_larger_statistic_excludes_more (`Verif.Stats`) |  |
| C16 | Toy p-values are empirical tail fractions | proved | C16_probability, C16_one_below, C16_zero_above, C16_antitone, C16_order_irrelevant, C16_counts (`Verif.Stats`) |  |
| C17 | Unknown test statistics are rejected, known aliases agree | proved | C17_unknown, C17_known, C17_accepts_iff (`Verif.Stats`) |  |
| C18 | Bracketing for the upper limit terminates and brackets | partial | C18_terminates_and_brackets_partial, C18_crossing_is_bracketed_partial, C18_poi_upper_limit_ends_partial, C18_never_ends_fails, C18_poi_upper_limit_never_ends_fails (`Verif.UpperLimit`) | Holds for positive upper starting points, with logarithmic evaluation counts. False for hig_ini <= 0: multiplying by 5 never leaves the non-positive numbers, so poi_upper_limit(low_init=1, hig_init=0) never returns. |
| C19 | A finite upper limit is a point where the exclusion level equals the requested one | partial | C19_finite_limit, C19_level_attained, C19_limit_exists, C19_start_on_the_limit_fails, C19_positive, C19_limit_exists_start (`Verif.UpperLimit`) | Finite limits are crossings up to the root finder tolerance, shapes are as documented. False in one corner: equal starting points exactly on the limit make the root finder raise. |
| C20 | A model without signal has no upper limit | proved | C20_no_signal (`Verif.UpperLimit`) | For every backend, solver and starting point. |
| C21 | Upper-limit bands are ordered | proved | C21_bands_ascending, C21_nominal_in_the_middle (`Verif.UpperLimit`) | For levels that grow with mu and are not above the confidence level at 1e-10; up to the root finder tolerance. |
| C22 | chi2_test returns genuine crossings in ascending order on the requested side | proved | C22_crossings, C22_nan_in_interval_fails, C22_left_above_minimum_fails (`Verif.Chi2`) | Proved for the values found by the scan, for every profile, scan size and tolerance. The fallback used when the scan finds nothing can return nan, and a left limit above the minimum: both with a concrete profile. |
| C23 | chi2_test returns every crossing | partial | C23_scan_complete_partial, C23_two_sided_partial, C23_default_at_most_two, C23_every_crossing_fails, C23_windows (`Verif.Chi2`) | Complete for profiles that the scan grid resolves. False in general: with the default of three scan points at most two values are returned, and a continuous profile has four crossings in the window. |
| C24 | Re-anchoring never makes the fit worse | partial | C24_anchor, C24_below_scanned_partial, C24_nan_minimum_is_kept_fails (`Verif.Chi2`) | Proved for fitted minima that are numbers. A nan minimum is never replaced. |
| C25 | Bounds for a fixed POI contain the tested value | partial | C25_contains_partial, C25_no_value, C25_contains_fails (`Verif.Config`) | Proved for values not below the least signal strength (strict except at zero). False at zero with suggested bounds (0, 10) and below the least signal strength. |
| C26 | Bounds for several fixed parameters are valid intervals containing the values | partial | C26_contains_partial, C26_succeeds, C26_proper_fails (`Verif.Config`) | Proved for values that are not negative or not below the least signal strength. A nuisance parameter fixed at -6 with bounds (-5, 5) gets the bounds (-1, -5). |
| C27 | Renaming parameters keeps names unique and renames simultaneously | partial | C27_rename_partial, C27_rename_fails (`Verif.Config`) | Proved for new names that are not in use. Exchanging names does nothing, names in use can be duplicated, and a failing call leaves a half-renamed list. |
| C28 | Parameter lookup by name or index is consistent | partial | C28_resolve, C28_resolve_value, C28_resolve_rejects, C28_resolve_error, C28_parameter_partial, C28_poi_by_name_fails (`Verif.Config`) | Everything except that resolve_parameter_index accepts the name of the parameter of interest. |
| C29 | rescale_poi_bounds returns well-formed bounds | partial | C29_rescale_partial, C29_default_fails (`Verif.Config`) | Proved when an upper bound other than zero is given; otherwise the result contains the old pair instead of a number. |
| C30 | Optimiser options are filtered soundly | proved | C30_validate (`Verif.Optimizer`) | Result of option validation for all option lists and user dictionaries; a mandatory option that is also listed for removal would be dropped, which no shipped interface does. |
| C31 | A fit keeps the fixed parameters fixed | partial | C31_fit_partial, C31_scipy_partial, C31_scipy_keeps, C31_fixed_not_kept_fails (`Verif.Optimizer`) | For every minimiser that keeps masked parameters, fit returns the requested values. scipy keeps them when the last trial is successful and the method takes constraints into account; otherwise the claim is false (proved). |
| C32 | A fit does not change its inputs | partial | C32_inputs_partial, C32_inputs_changed_fails (`Verif.Optimizer`) | False as stated: the caller's initial values or the configuration's suggested_init are overwritten at fixed indices. Proved: nothing else changes, and nothing at all without fixed values. |
| C33 | Fit retries are bounded and stop at the first success | partial | C33_retries_partial, C33_region_lost_fails (`Verif.Optimizer`) | Number of trials, chaining and result proved for all inputs; the search region only grows when no upper bound is negative; false for negative upper bounds, and a missing bound raises TypeError. |
| C34 | Analyses in a combination have unique names | partial | C34_names_distinct_partial, C34_operations, C34_insertion_order, C34_renaming_fails (`Verif.Combiner`) | Proved for all histories of creation, append, remove and @. False when the attribute analysis of a member is assigned to (proved). |
| C35 | The joint likelihood is the product of the individual ones | proved | C35_product, C35_order_and_nan, C35_asimov, C35_maximize, C35_exceptions_depend_on_order_fails (`Verif.Combiner`) | Sum/product, order independence, nan and the routing of data and options proved whenever the individual values exist. Exceptions other than NegativeExpectedYields do depend on the order (proved). |
| C36 | The combined minimum POI is feasible for every member | proved | C36_minimum_poi, C36_empty (`Verif.Combiner`) | For all non-empty combinations without nan minima; an empty combination raises ValueError. |
| C37 | find_most_sensitive returns the analysis with the smallest expected limit | partial | C37_find_most_sensitive_fails, C37_position_partial (`Verif.Combiner`) | False of every combination: the call always raises. The computed position is right (proved). |
| C38 | Looking up an analysis by name or position | partial | C38_lookup_partial, C38_index_error_fails (`Verif.Combiner`) | Lookup by name, position and slice proved; positions below -len raise IndexError instead of AnalysisQueryError (proved). |
| C39 | Combining does not modify the operands | proved | C39_matmul, C39_independent (`Verif.Combiner`) | All operands, including later changes of the result; the number of toys of the left operand is not carried over (not modelled). |
| C40 | The combined fit starts inside its bounds at a weighted mean | partial | C40_start_partial, C40_start_fails (`Verif.Combiner`) | Weighted mean proved between the individual best fits; the start may lie below the lower bound or be nan (proved). |
| C41 | Backend registration validates and is all-or-nothing | partial | C41_all_or_nothing, C41_exceptions, C41_history, C41_stays, C41_replaced_by_scan_fails (`Verif.Registry`) | register_backend is all-or-nothing and accepts exactly the admissible classes; every class in the registry was admitted under its name. Not true: reset_backend_entries may replace a registered class by an entry point of the same name. |
| C42 | A registered backend can be used | partial | C42_registered_not_usable_fails, C42_installed_usable_partial (`Verif.Registry`) | False of the code: for every registered class without a method load of its own, get_backend and get_backend_metadata raise AttributeError. True for installed entry points. |
| C43 | Unknown or incompatible backends are refused | partial | C43_only_compatible, C43_refusals, C43_refused_names_class_fails (`Verif.Registry`) | All refusals proved; a refused call may however set the name of the class. |
| C44 | Covariance and correlation conversions are inverse | partial | C44_entries, C44_correlations, C44_inverse, C44_zero_variance_fails (`Verif.Helpers`) | Proved for positive variances; a bin without variance makes its row nan. |
| C45 | Merging bins conserves yields and total covariance | partial | C45_succeeds, C45_bins, C45_totals, C45_conserved_partial, C45_overlap_accepted_fails, C45_negative_index_fails (`Verif.Helpers`) | Conservation proved for disjoint groups of non-negative indices, and exact accounting for all groupings. Overlapping groups are not rejected by the code. |
| C46 | Merging bins keeps the covariance a covariance | proved | C46_covariance, C46_correlations (`Verif.Helpers`) |  |
| C47 | Signal-uncertainty parameters occupy disjoint consecutive slots | proved | C47_layout, C47_append, C47_accepted, C47_names_fails, C47_names_partial (`Verif.Synth`) | The names of the parameters are not part of the property; they can clash (C47_names_fails). |
| C48 | Signal-uncertainty factors are positive, neutral at 0 and monotone | partial | C48_product, C48_positive_monotone, C48_at_zero, C48_own_parameters, C48_no_signal, C48_one_sigma, C48_infinite_fails, C48_nan (`Verif.Synth`) | Proved for finite uncertainties; an infinite uncertainty is not replaced and makes the factor nan. At -1 the factor is the inverse of the relative lower variation. |
| C49 | The third moment expansion reproduces the moments | proved | C49_moments, C49_symmetric, C49_correlation_symmetric, C49_covariance_partial, C49_unit_diagonal_fails, C49_covariance_fails (`Verif.ThirdMoment`) | The property as stated is proved, with the moments as integrals over the normal distribution. Beyond it: the correlation matrix reproduces covariances only up to the regularisation and not for a negative discriminant, and its diagonal is below 1. |
| C50 | Effective sigma reduces to the symmetric uncertainty | partial | C50_width, C50_symmetric, C50_small_fails, C50_vanishes, C50_one_sigma_fails (`Verif.Backend`) | The width formula and its values are proved as a function of the nuisance parameter, with the cut-off 1e-5. The claim fails as physics: the nuisance parameter has mean zero, but the background is subtracted from it, so that the width is 1e-5 for backgrounds larger than about up*dn/(up-dn). |
| C51 | Parameter vector layout is consistent | partial | C51_sizes, C51_partition, C51_rate, C51_simple_rate, C51_mismatch_fails, C51_bounds_names (`Verif.Backend`) | Proved for all seven models when background and signal have one entry per observation. Nothing in the code checks this for the data: C51_mismatch_fails. |
| C52 | Expected yields stay non-negative above minimum_poi | partial | C52_minimum, C52_function, C52_rates_partial, C52_negative_signal_fails, C52_modifiers_fails (`Verif.Backend`) | minimum_poi is proved to be the smallest value for bins with non-negative signal and background. Fails for bins with negative signal and when signal uncertainties enlarge the signal. |
| C53 | The log-likelihood is main term plus constraint terms, independent of grouping | proved | C53_loglik_uncorrelated, C53_loglik_matrix, C53_loglik_gaussian, C53_loglik_multivariate, C53_order, C53_split, C53_grouping, C53_expected_data, C53_loglik_common, C53_expected_simple (`Verif.Backend`) | gammaln, matrix inverse and log-determinant are external functions; the theorems use of them only what their hypotheses say. |
| C54 | The Poisson positivity constraint implements the documented expression | partial | C54_rate_fails, C54_small_uncertainty_partial (`Verif.Backend`) | The registered expression is b + theta*b instead of b + theta*sigma. Holds only for uncertainties not above the background. |
| C55 | Calculator availability reflects the backend | partial | C55_fails, C55_overrides_partial, C55_listed, C55_exact (`Verif.Interface`) | False: a bound method is compared with a function of the base class, so the calculators are available for every backend. Proved: classes that override the methods have the calculators; the list is always the same. |
| C56 | Preparing a fit does not modify caller-supplied constraints | partial | C56_default, C56_grows_fails, C56_same_set_partial, C56_loop, C56_same_list_fails (`Verif.Interface`) | False when the caller passes a list: it grows by the constraints of the backend in every call, and never ends if it is the backend's own list. Proved: holds without caller's list; the set of constraints stays right. |
| C57 | The excluded cross section is limit times cross section | proved | C57_unknown, C57_product, C57_meaning, C57_variants (`Verif.Interface`) | excluded_cross_section uses one nominal limit for every expectation, so there is one entry. |
| C58 | return_nll only changes the scale | partial | C58_scale, C58_hook_fails (`Verif.Interface`) | Proved for backends without own likelihood routines; false for backends with such routines, which are not told about return_nll. |
| C59 | Expectation selects the data set | proved | C59_data, C59_differs (`Verif.Backend`) | For the log-likelihood, the objective, its gradient and the Hessians of all seven models. |
| C60 | Comparing expectation types is consistent | partial | C60_compare, C60_distinct, C60_names, C60_dict, C60_bool_fails (`Verif.Expectation`) | Comparison is characterised for every value; members and names agree with hashes. Booleans equal a member but have other hashes, so the last clause fails for them. |
| C61 | The contour level is the documented one | partial | C61_level_partial, C61_level_fails, C61_coverage_fails, C61_two_fails (`Verif.Contour`) | False of the code: the level is NLL_min + Delta, not NLL_min + Delta/2 as documented, so contours have too large a confidence level (for two parameters 1-(1-CL)^2). Proved for every result of the modelled find_contour. |
| C62 | Contour points respect the parameter bounds | partial | C62_ray, C62_radial_partial, C62_gap_partial, C62_walk_partial, C62_find_partial, C62_start_fails, C62_nan_fails, C62_anchor_fails, C62_bracket_fails (`Verif.Contour`) | False of the code in four ways (primary fit ignores the bounds of the user, reversed bracket, first point of a walk unchecked, nan). Where it holds, proved for the whole result; missing are these cases. |
| C63 | RATTLE moves stay tangent and project to the level set | proved | C63_project, C63_fixed, C63_affine, C63_tangent, C63_position, C63_momentum (`Verif.Contour`) | Over exact reals; nan is a separate value. |
| C64 | Basin enumeration keeps the best minimum and separated representatives | proved | C64_sorted, C64_apart, C64_candidate, C64_covers, C64_best, C64_starts, C64_inside (`Verif.Contour`) | The minimiser is a parameter. |
| C65 | Contour results do not depend on the number of jobs | proved | C65_pool, C65_parallel, C65_chains, C65_find, C65_seeds (`Verif.Contour`) | Jobs are functions of their index and seed; side effects of a likelihood in the worker are not modelled. |
| C66 | Embedding contour parameters keeps every coordinate | partial | C66_partition_partial, C66_duplicates_fails, C66_assemble, C66_unique, C66_insert, C66_bounds, C66_split, C66_outside (`Verif.Contour`) | False for an index given twice, which is accepted. Proved for all other selections. |
| C67 | Log capture restores the logger and prints each message once | partial | C67_restored, C67_any_body, C67_once, C67_exception_fails, C67_exception_partial, C67_level_zero_fails, C67_added_handler_fails (`Verif.Logger`) | Settings restored for every nesting and exception; each message once in order of first occurrence on normal exit. Captured messages are lost when the block is left by an exception; level 0 and handlers added inside are exceptions. |
| C68 | The update check queries the network at most once per 24 hours | partial | C68_cached, C68_found, C68_once, C68_expires, C68_null_fails, C68_stale_fails (`Verif.Web`) | Holds for stored results other than JSON null with other files removable or earlier; fails for null and for an unremovable stale file with a later name. |
| C69 | Concurrent update checks leave one cache file | partial | C69_race_fails, C69_last_partial, C69_same_name, C69_old_files (`Verif.Web`) | Two processes can delete each other's file. The file of a process that writes after all others have listed the directory survives every interleaving. |
| C70 | The objective handed to the minimiser is the negative log-likelihood | proved | C70_objective, C70_gradient, C70_hessian, C70_hessian_entries (`Verif.Backend`) | autograd is taken to compute exact derivatives. |
| C71 | Every calculator excludes hypotheses that the data rule out | partial | C71_asymptotic, C71_chi_square_qtilde, C71_chi_square_q_fails, C71_divisor (`Verif.Stats`) | False for chi_square with allow_negative_signal=True: the level never exceeds Phi(sqrt(ts_b)). The toy calculator is not covered (depends on the toys). |
| C72 | A likelihood that cannot be evaluated never excludes | partial | C72_nan_not_excluded_partial, C72_nan_not_excluded_fails (`Verif.Stats`) | False for toys: a nan statistic gives exclusion level 1. |
| C73 | Cached methods do not keep dropped objects in memory | partial | C73_dict_object_is_freed_partial, C73_slots_object_is_freed_fails, C73_entries_are_bounded_fails (`Verif.PerInstance`) | Holds for objects with a __dict__; false for slots-only classes such as StatisticalModel (negation proved): the stored wrapper references the object, so it is never freed, the weak-reference cleanup never runs and the entries are unbounded. |
| C74 | An infinite upper limit means that no signal strength is excluded | partial | C74_strong_signal_reported_unbounded_fails, C74_infinite_means_not_excluded_partial (`Verif.UpperLimit`) | False for a signal excluded already at 1e-10: the answer is infinity. Holds when the level at 1e-10 is not above the confidence level. |
| C75 | chi2_test always ends | proved | C75_ends (`Verif.Chi2`) | For the parameter of interest and for nuisance parameters with finite bounds. |
| C76 | Third moments from asymmetric uncertainties have the closed form of the bifurcated Gaussian | partial | C76_value, C76_sign, C76_central_fails (`Verif.ThirdMoment`) | Closed form, sign and antisymmetry proved with quad taken as exact. The value is the moment about zero, not the central moment that the documentation names. |
| C77 | Samples can be drawn with auxiliary data | partial | C77_modifiers_fails, C77_sampler_partial (`Verif.Backend`) | Fails for every model with signal uncertainties (IndexError), because the constraint terms get all parameters but the first. Random numbers are not modelled. |
| C78 | The positivity constraint of the simplified likelihoods is the rate without signal | proved | C78_positivity (`Verif.Backend`) | All four simplified models. |
| C79 | Queries do not influence each other | partial | C79_left_behind, C79_history_fails, C79_own_start_partial, C79_asimov_start_fails, C79_start_free_partial (`Verif.Interface`) | False: fits with fixed POI overwrite the shared initial values, and the start of the second fit in Asimov maximisations. Proved: only the POI entry changes; queries with own initial values and start-independent minimisers are unaffected. |
| C80 | Asimov queries use the expectation at the right hypothesis | proved | C80_data, C80_profiled, C80_queries, C80_nonnegative (`Verif.Interface`) | Minimiser contracts as hypotheses. |
| C81 | The shortcut for models with one parameter agrees with the fit | proved | C81_shortcut, C81_value (`Verif.Interface`) |  |
| C82 | Requested estimates are those of the named parameters | proved | C82_estimates, C82_poi, C82_errors (`Verif.Interface`) |  |
| C83 | The uncertainty from the Hessian is the profile likelihood uncertainty | proved | C83_sigma, C83_unavailable, C83_variance_fails (`Verif.Interface`) | C83_variance_fails records that the docstring calls the result a variance. |
| C84 | A combination keeps what is known about its parts | partial | C84_combine, C84_cross_section_fails, C84_toys_fails (`Verif.Interface`) | False for cross section and number of toys, which are dropped. |
| C85 | The Asimov approximation of sigma_mu is eq. 31 | partial | C85_priority, C85_parabola_partial, C85_distance_fails, C85_default_fails, C85_discovery_fails (`Verif.Interface`) | False: mu instead of \|mu - mu'\| in the numerator. Proved for Asimov data with best fit zero. |
| C86 | likelihood is the profile likelihood, maximize_likelihood its maximum | proved | C86_profile, C86_maximum, C86_ratio (`Verif.Interface`) | Global minimiser as hypothesis; configuration without suggested fixed parameters. |
| C87 | POI bounds follow the request | partial | C87_poi_bounds_partial, C87_negative_fails (`Verif.Backend`) | Upper bound and non-negative signals as requested; with another upper bound than 10, negative signals are refused although allowed (proved with a witness). |
| C88 | Initialising the logger leaves one handler | partial | C88_init_fails, C88_init_partial, C88_root_fails (`Verif.Logger`) | init removes only every second handler (list changed while iterating) and adds a root handler per call; holds for at most one handler. |
| C89 | An expectation may be given by anything equal to it | partial | C89_limit_fails, C89_limit_partial (`Verif.Expectation`) | The code compares with == in one place and with is in another: the name "observed" raises IndexError; holds for the expected limits. |
| C90 | Only answers of the package index are stored | partial | C90_status_fails, C90_failed_partial (`Verif.Web`) | The status is not looked at: an error page in JSON is stored for a day. |
| C91 | Contour points are on the level | partial | C91_radial, C91_chain_partial, C91_chain_fails (`Verif.Contour`) | False on chains: a projection that has not converged is returned as a contour point. On rays proved for continuous functions under the contract of Brent's method. |
| C92 | Gaps are the directions covered least | proved | C92_coverage, C92_gaps, C92_none, C92_candidates, C92_nearest, C92_starts (`Verif.Contour`) | Under the contract of argsort. |
| C93 | Seeds of the coverage passes are the most isolated points | partial | C93_seeds_partial, C93_zero_fails, C93_nan_fails, C93_distance, C93_few (`Verif.Contour`) | False for no seeds ([-0:] is the whole list) and when a point is nan (ValueError). |
| C94 | Whitening turns the quadratic approximation into a sphere | partial | C94_sphere, C94_regular, C94_floor, C94_profiled, C94_identity, C94_docs_fails, C94_eigh_fails, C94_block (`Verif.Contour`) | The documented inverse phi = L(theta - anchor) is false (L^T is right), and a failing eigh is not caught. The rest is proved under the contracts of eigh and cholesky. |
| C95 | No crossing along a ray is missed | partial | C95_found_partial, C95_none, C95_missed_fails, C95_above, C95_raises (`Verif.Contour`) | False: a crossing between the radii looked at is missed. Found whenever the function is below the level at 1e-8 and above it at the largest radius. |
| C96 | The profiled NLL is the minimum over the profile parameters | partial | C96_profile_partial, C96_problem, C96_object_fails, C96_failure_fails (`Verif.Contour`) | False for constraints that are objects (TypeError) and when the inner minimiser fails. |
| C97 | The contour result is consistent | proved | C97_mask, C97_minimum, C97_active, C97_count (`Verif.Contour`) |  |
| C98 | Toys are drawn at the parameters of the fit | proved | C98_sampler, C98_poi (`Verif.Interface`) | The backend computes no likelihood itself; the POI agrees up to the tolerance of the minimiser. The fit is made before the sampler is looked for. |
| C99 | chi2 of two points is a difference | proved | C99_antisymmetric, C99_additive, C99_model (`Verif.Interface`) | Same keywords for both kinds of fits; answers independent of earlier queries, which holds for StatisticalModel with a minimiser that ignores the start (model_stateless). |
| C100 | chi2 relative to the best fit is never negative | partial | C100_nonneg_partial, C100_negative_fails, C100_beyond_fails (`Verif.Interface`) | True for a POI strictly inside the bounds of both fits and a perfect minimiser. False by default for negative POI (allow_negative_signal=False applies to the best fit only) and beyond the upper bound. |
| C101 | A scan gives the value of every point | partial | C101_list_partial, C101_table_partial, C101_failure, C101_two, C101_round_fails (`Verif.Interface`) | True up to the rounding of likelihoods to float32; as an equality false. |
| C102 | The square of the pull is chi2 | partial | C102_pull_partial, C102_dict_fails (`Verif.Interface`) | True for numbers with chi2 >= 0 (nan if chi2 < 0). False for dicts, which always end in an exception. |
| C103 | A message shows its severity once | partial | C103_format, C103_distinct, C103_written_partial, C103_twice_fails (`Verif.Logger`) | False with two handlers: formatting changes the record, so the second handler shows the heading twice. |
| C104 | Signal strengths up to the best fit are not excluded | partial | C104_asymptotic, C104_toys_partial, C104_toys_fails, C104_chi_square_partial, C104_chi_square_fails (`Verif.Stats`) | Proved in full for the asymptotic calculator. Toys: proved if the statistics are numbers, refuted for NaN background toys. Chi-square: proved for finite likelihoods, refuted when the background alone cannot give the data. |
| C105 | For a Gaussian measurement the exclusion level is the exact CLs | proved | C105_observed, C105_expected, C105_unique_limit (`Verif.Stats`) | Closed form of the observed and expected levels and uniqueness of the limit. |
| C106 | Fitting Asimov data gives back the hypothesis that made them | partial | C106_simple, C106_refit_partial, C106_apriori, C106_refit_fails (`Verif.Backend`) | Proved for the models without constraint terms and, for the simplified models, for vanishing nuisance parameters (which includes the pre-fit Asimov data); refuted for pulled nuisance parameters. |
| C107 | Levels and significances are those of the fits of the model | proved | C107_levels, C107_significance, C107_profile, C107_arguments (`Verif.Hypotest`) | From the calls of the methods of the model (C107_levels, C107_significance) down to the likelihood of the backend (C107_profile, for minimisers that return a global minimum). |
| C108 | Toy levels are counts of toys | proved | C108_draws, C108_counts, C108_size_fails, C108_model (`Verif.Hypotest`) | A number of toys that is not an int (e.g. numpy integer) never gives a level: the sampler returns a function instead of data (C108_size_fails). |
| C109 | The tested value may be any number that is documented | partial | C109_numbers_partial, C109_scalar_fails, C109_dict_fails (`Verif.Hypotest`) | float, int and one-entry lists agree. numpy scalars that are neither float nor int raise IndexError, dictionaries TypeError, although the annotations allow them. |
| C110 | Hypothesis tests do not depend on earlier calls | proved | C110_steady, C110_model, C110_history_fails (`Verif.Hypotest`) | C110_history_fails: with a minimiser that depends on its start the same call gives two levels, depending on whether the likelihood was asked for before. C173 adds the caches. |
| C111 | Failed fits are not reported as no exclusion | proved | C111_best_fit, C111_asymptotic, C111_model (`Verif.Hypotest`) | C111_asymptotic needs likelihoods that do not raise AsimovTestStatZero themselves; C111_model shows that those of a model never do. |
| C112 | A Gaussian measurement has the levels of a Gaussian measurement | partial | C112_levels_partial, C112_discovery_partial, C112_bound_fails, C112_bounds (`Verif.Hypotest`) | For best-fit values inside the bounds of the POI (upper bound 10 by default) and, for the level, v not below the best fit. Above the bound the significance is underestimated (C112_bound_fails). |
| C113 | An upper limit is a signal strength that the model excludes at the requested level | proved | C113_level, C113_steady, C113_agrees, C113_model, C113_failure, C113_available, C113_zero_start (`Verif.Hypotest`) | Exceptions of the fits, of the estimate of sigma and of the likelihood at the first point end the call. |
| C114 | The upper limit of a Gaussian measurement is the exact CLs limit | partial | C114_limit_partial, C114_bound_fails, C114_limit_fails, C114_start_fails (`Verif.Hypotest`) | For measured values up to the upper bound of the POI (10 by default), and starting points that are not both the limit. Otherwise false. |
| C115 | sigma_mu accepts the same values as the tests | partial | C115_types_partial, C115_int_fails, C115_hessian, C115_arguments (`Verif.Hypotest`) | False for int without a Hessian. |
| C116 | The optimiser arguments apply to all fits of the upper limit | partial | C116_given_partial, C116_arguments_fails (`Verif.Hypotest`) | False if a starting point is None and the best fit is positive. |
| C117 | The tests of the simplified likelihoods always have an answer, the profile likelihood one | proved | C117_levels, C117_answers, C117_significance (`Verif.Chain`) | Conditions, in the claim: signal given as yields, without parameters or uncertainties; backgrounds not negative; at least one positive yield; the inverse of the correlation matrix is positive definite; the minimiser finds global minima inside bounds and constraints whenever there are any. |
| C118 | The Gaussian models test the strength of generalised least squares | proved | C118_levels, C118_significance (`Verif.Chain`) | Conditions in the claim: least-squares strength at most 10, exact minimiser, backgrounds not negative, a positive yield. |
| C119 | The significance of a counting experiment is the known formula | proved | C119_significance (`Verif.Chain`) | Conditions in the claim: (n-b)/s at most 10, b at least 1e-20, exact minimiser. |
| C120 | The exclusion level of a counting experiment is the known formula | proved | C120_levels (`Verif.Chain`) | Conditions in the claim: (n-b)/s at most 10, b at least 1e-20, exact minimiser; test statistic without negative strengths. |
| C121 | The uncertainty and the upper limit of the Gaussian models are exact | proved | C121_sigma, C121_limit (`Verif.Chain`) | Conditions in the claim. numpy.linalg.inv is assumed to invert 1x1 matrices. |
| C122 | The tests of a combination are those of the joint likelihood | proved | C122_levels, C122_significance (`Verif.Joint`) | For every number of models; models of spey as in C117, C118 and Poisson models with any number of bins. The starting value is assumed to be a number in one state; the minimisers are assumed exact. |
| C123 | A combination of Gaussian models tests the weighted mean | proved | C123_levels, C123_significance (`Verif.Joint`) | For every number of models, with the conditions of the statement. |
| C124 | The upper limit of a combination of Gaussian models is exact | proved | C124_sigma, C124_limit (`Verif.Joint`) | For every number of models, with the conditions of the statement. |
| C125 | Toys of a Gaussian measurement are counted up to the measured value | proved | C125_bounds, C125_toys (`Verif.Hypotest`) | Exact minimiser; the sampler is arbitrary, as long as it draws as many values as asked for. C125_bounds: with par_bounds of the caller; C125_toys: with the bounds of the model. |
| C126 | A covariance given by a function gives the normal density with that matrix | partial | C126_density_partial, C126_callable_fails (`Verif.Dist`) | Proved for matrices, and for functions whose log-determinant is at least 1e-20. False for functions with determinant below one: the log-determinant is clipped at 1e-20. |
| C127 | Evaluations in several threads do not disturb each other | partial | C127_threads_partial, C127_alone, C127_shared_fails (`Verif.Dist`) | Proved for Poisson and normal models and, with one thread, for all. False for multivariate normal models with a constant matrix: all evaluations share one object whose mean is overwritten. |
| C128 | A mixture is drawn from the distribution whose density it reports | partial | C128_density_partial, C128_sample, C128_density_fails, C128_sample_fails (`Verif.Dist`) | sample draws from the average; log_prob is its logarithm for one distribution only, for more it is the logarithm of the product. Distributions of the module have no attribute shape, so sample fails. |
| C129 | Names of distributions are read without regard to case | partial | C129_names_partial, C129_case_fails (`Verif.Dist`) | Proved for the exact names and for unknown ones. Known names in another case pass the check and end with a KeyError. |
| C130 | Integer and float data have the same Poisson likelihood | proved | C130_counts (`Verif.Dist`) |  |
| C131 | A fit uses the minimiser that was asked for | partial | C131_set_partial, C131_option, C131_names_fails (`Verif.Tools`) | Proved for the names scipy and minuit and any sequence of settings. False for the names: iminuit and names in another case are known in one of the three places only. |
| C132 | A message of log_once is written once | partial | C132_exact, C132_once_partial, C132_again_fails (`Verif.Tools`) | Exact condition for each call; once for at most ten different messages. False for more: the cache holds ten messages. |
| C133 | Tracked warnings are written once | partial | C133_warnings_partial, C133_exact, C133_raise_fails (`Verif.Tools`) | Proved if all functions return. The warnings of a function that raises are lost. |
| C134 | Each reference of a backend has the entry of the first place that knows it | proved | C134_entries, C134_offline (`Verif.Tools`) |  |
| C135 | cite changes nothing but the key | partial | C135_cite_partial, C135_offline, C135_key_fails, C135_other (`Verif.Tools`) | Proved if the key occurs once in the entry. False otherwise: all occurrences are replaced. |
| C136 | A newer version is announced | partial | C136_updates_partial, C136_silent, C136_unreadable_fails (`Verif.Tools`) | Proved if versions and requirement can be read. Otherwise nothing is said, for example with a release candidate of Python. |
| C137 | SPEY_LOGLEVEL does not stop the import | partial | C137_level_partial, C137_default, C137_import_fails (`Verif.Tools`) | Proved for numbers up to 3. Larger numbers raise KeyError, other texts ValueError. |
| C138 | The options of a fit reach the minimiser | partial | C138_options, C138_unknown, C138_method_fails (`Verif.Minimisers`) | Proved except the last part, which is false: `method` is the only option with different values for the two minimisers, and Minuit raises for those of scipy. |
| C139 | Both minimisers honour bounds, constraints and fixed parameters | partial | C139_scipy_partial, C139_minuit_partial, C139_minuit_ignores, C139_constraints_fails, C139_fixed_fails (`Verif.Minimisers`) | For scipy proved for methods that know constraints, one trial and reported success. For Minuit constraints are ignored, and a parameter fixed outside of bounds given by the caller is moved into them. |
| C140 | A cached method of one object has one cache for all threads | partial | C140_slots, C140_dict_partial, C140_race_fails (`Verif.PerInstance.Race`) | Holds under every schedule for objects without __dict__, where the registry is locked. For objects with __dict__ it holds when the first access is over before another thread starts; it is false for first accesses at the same time. |
| C141 | qmu_left is the mirror image of q | partial | C141_mirror, C141_shift_partial, C141_shift_fails, C141_positive_fails (`Verif.Stats`) | The statistic is the mirror image; the shift only as long as the statistic is not above that of the Asimov data. With background-only Asimov data no positive signal strength is excluded. |
| C142 | Without skewness the third-moment expansion is the correlated-background model | partial | C142_reduces_partial, C142_matrix_partial, C142_definite_fails (`Verif.ThirdMoment`) | Coefficients, rates, positivity constraints and configuration are identical; the matrix of the constraint term is close to the correlation matrix, with a bound, for standard deviations whose product is at least 8e-10; it is never equal, and for smaller ones it may not be positive. |
| C143 | The tests of binned models are functions of the bins in closed form | proved | C143_levels, C143_significance, C143_determined, C143_sensitive (`Verif.Uncorrelated`) | Conditions, in the claim: exact minimisers; backgrounds at least 1e-20, yields, uncertainties and data not negative, at least one positive yield; signal strengths not negative. The solutions are between zero and the default bound 10 of the signal strength. |
| C144 | The order of the bins does not matter | proved | C144_levels, C144_significance (`Verif.Uncorrelated`) | Conditions as for C143; the two models may use different exact minimisers. |
| C145 | Bins without signal do not matter | proved | C145_levels, C145_significance (`Verif.Uncorrelated`) | Conditions as for C143. |
| C146 | Without uncertainties the model is the Poisson model | proved | C146_levels, C146_significance (`Verif.Uncorrelated`) | Conditions as for C143. |
| C147 | Bins with the same ratio of signal and background can be merged | proved | C147_levels, C147_significance (`Verif.Uncorrelated`) | Conditions as for C143; the other bins may have uncertainties. |
| C148 | Larger test statistics never exclude less | proved | C148_levels, C148_strict (`Verif.Stats`) | Across the switch of equation (66), by Gordon's inequality. |
| C149 | A larger signal is excluded at least as strongly | proved | C149_levels (`Verif.Uncorrelated`) | With exact minimisers; test statistic qtilde. |
| C150 | More events never exclude more | proved | C150_levels, C150_significance (`Verif.Uncorrelated`) | With exact minimisers; test statistic qtilde. |
| C151 | Larger background uncertainties never improve the expected sensitivity | proved | C151_levels (`Verif.Uncorrelated`) | With exact minimisers; test statistic qtilde, positive strengths. |
| C152 | Only the product of strength and signal yield matters | partial | C152_levels_partial, C152_significance_partial, C152_bound_fails, C152_limit_partial (`Verif.Uncorrelated`) | False for strong excesses, because of the default bound 10 of the signal strength; proved if a strength of at most 10 explains all events. |
| C153 | The upper limit separates what is excluded from what is not | proved | C153_limit, C153_exists (`Verif.Uncorrelated`) | With exact minimisers and a sound root finder. |
| C154 | Combining binned models is joining their bins | proved | C154_levels, C154_significance, C154_limit (`Verif.Uncorrelated`) | The minimisers are exact, and the starting value of the combination (from the individual fits) is a number; `start_counts` shows this for a first model without uncertainties. |
| C155 | The upper limit is a function of the bins, monotone in data and uncertainties | proved | C155_unique, C155_data, C155_uncertainty (`Verif.Uncorrelated`) | Exact minimisers (Exact, Finds, StartFree, Constrained) and sound root finders; finite limits. Positive confidence level. |
| C156 | The upper limit of a combination means that the combination reaches the level | proved | C156_limit, C156_exists (`Verif.Joint`) | Contracts Reliable, Exact, Finds, Constrained for the minimisers; the root finder evaluates only inside its interval. |
| C157 | Levels grow with the strength, with correlated backgrounds, too | proved | C157_levels, C157_counts, C157_prior, C157_sensitive (`Verif.Linear`) | Exact minimisers (Exact, Finds, Constrained). `Regular` is the condition on the numbers of events; C157_counts and C157_prior state it for the inputs. |
| C158 | Upper limits with correlated backgrounds separate the strengths and are unique | proved | C158_limit, C158_exists, C158_unique (`Verif.Linear`) | Exact minimisers and a sound root finder; finite limits and a positive confidence level for uniqueness. |
| C159 | Levels and limits of combinations of models of different kinds | proved | C159_levels, C159_limit, C159_exists, C159_unique (`Verif.Linear`) | The minimisers are exact, and the starting value of the combination (from the individual fits) is a number, as in C154. |
| C160 | The minimum of a contour is the best admissible point of the model | partial | C160_primary, C160_exists, C160_minimum_partial, C160_profile_fails, C160_constraints_fails (`Verif.Region`) | the primary fit gives the best admissible point, and exists for every simplified likelihood; the minimum of the whole search is the best admissible point for models without constraints. False with constraints: with profiled parameters a TypeError is raised whatever the likelihood, without them the basin search leaves the constraints and reports a minimum below the NLL of every admissible point. |
| C161 | Points found on rays are on the contour of the profile likelihood | proved | C161_radial (`Verif.Region`) | for models without constraints (with constraints nothing is returned or the minimum is wrong, C160), exact SLSQP, Brent's accuracy and a continuous profile likelihood. |
| C162 | grad_nll is the gradient of the profile NLL | proved | C162_gradient (`Verif.Region`) | exact SLSQP and exact automatic differentiation; models without constraints, because with constraints and profile parameters nothing is returned (C160). |
| C163 | Upper limits of all simplified likelihoods | proved | C163_limit, C163_exists (`Verif.Chain`) |  |
| C164 | Few signal events cannot be excluded, and many are | proved | C164_few, C164_many (`Verif.Reach`) |  |
| C165 | Where upper limits lie | proved | C165_limit, C165_exists (`Verif.Reach`) |  |
| C166 | The excluded cross section | proved | C166_unknown, C166_dead, C166_means, C166_exists, C166_separates, C166_normalisation (`Verif.CrossSection`) | The bound 10 of the fits limits the scaling (C152_bound_fails). |
| C167 | Few and many signal events in combinations, and where their limits lie | proved | C167_few, C167_many, C167_limit, C167_exists (`Verif.Reach`) |  |
| C168 | Levels from toys compare numbers of toys that are at least as extreme as the data | proved | C168_profile, C168_levels, C168_zero, C168_count, C168_auxiliary (`Verif.Toys`) | The random numbers are any whole numbers, as many as there are rates; their distribution is not modelled. Signals with parameters or uncertainties of their own are left out (with signal uncertainties sampling fails, C77). |
| C169 | Tests and limits of models whose signal has uncertainties or parameters | proved | C169_levels, C169_answers, C169_significance, C169_limit, C169_exists (`Verif.Uncertain`) | The minimiser is exact (Exact, Finds, Constrained: contracts of scipy.optimize), the root finder keeps to its contract. Examples: yields with three sources of uncertainties, and a signal that is a function of a bounded parameter. |
| C170 | Where limits with signal uncertainties lie | proved | C170_signal, C170_few, C170_many, C170_limit, C170_exists (`Verif.Uncertain`) | Same contracts. Example: a normalisation uncertainty of 20 %, whose limits exist and lie between 0.001 and 84. |
| C171 | A signal that can vanish is never excluded | proved | C171_hidden, C171_never (`Verif.Uncertain`) | Same contracts. Example: a signal with a free fraction between 0 and 1. |
| C172 | What uncertainties of the signal change: significances grow, expected levels fall | proved | C172_asimov, C172_discovery, C172_sensitivity (`Verif.Uncertain`) | Same contracts. The expected levels are compared for backgrounds that are the given ones at zero nuisance parameters (uncorrelated and correlated backgrounds) and not below 1e-20. |
| C173 | The caches of a statistical model cannot be seen | proved | C173_calls, C173_tests, C173_again, C173_any, C173_start_fails (`Verif.Memo`) | Contract of the keys: equal keys mean equal arguments (C07 for the real ones). Calls with starting points or constraints of the caller are left out. C173_start_fails: with a minimiser that depends on its start, clearing the cache changes the result of the same call. |
| C174 | The scan over several parameters uses the most sensitive model | partial | C174_first_partial, C174_limits_ignored, C174_best_fails, C174_refused (`Verif.MultiParam`) | False: numpy takes the minimum of a generator as that of an array with one entry, so the first model is always taken and no limit is computed. Proved: number, order and content of the entries, refusals. The module cannot be imported at this commit (its import of spey.multiparameter.templates fails). |
| C175 | The caches of the members of a combination cannot be seen | proved | C175_tests (`Verif.Memo`) | Same contracts as C173. The minimiser of the combination is any procedure that asks for values of the likelihood and then stops. |
| C176 | The caches accept every call that the methods accept | partial | C176_keys, C176_mixed_fails (`Verif.CacheKey, Verif.Memo`) | The key of a call raises exactly if some argument contains, at some depth, a dictionary with both integers and strings as keys. The claim is false of the code for those: C176_mixed_fails gives a fit that works without the cache and raises with it. |
| C177 | The keys of the caches tell calls apart that do different things | partial | C177_keys, C177_tests, C177_order_fails (`Verif.Memo`) | For calls whose fixed_poi_value is a number or a dictionary with at most one entry. The claim is false of the code for dictionaries with several entries: C177_order_fails shows the cache returning the wrong fit. |
| C178 | Expected levels from toys compare quantiles of the background toys | partial | C178_profile, C178_levels, C178_expected, C178_order_fails (`Verif.Toys`) | Levels of every expectation, rates of the toys and the numbers of background toys on either side of each quantile are proved, and that the quantiles grow. The levels need not fall from two standard deviations up to two down: with three toys each, signal is expected to be excluded at 1/2 without fluctuation and at 0 one and two standard deviations up (C178_order_fails). The percentile of numpy is taken as linear interpolation between order statistics. |
| C179 | Levels from toys of Gaussian models compare measured strengths | proved | C179_levels, C179_measured, C179_zero (`Verif.Toys`) | Random numbers are any function with the right number and lengths of data sets; minimisers are exact; the percentile of numpy is linear interpolation between order statistics. |
| C180 | Levels from many toys converge to those of the asymptotic formula | partial | C180_gaussian, C180_expected, C180_count, C180_expected_fails, C180_bins (`Verif.Toys`) | Convergence is shown for the observed level of Gaussian models and of counts in any number of independent bins, and for all expected levels of Gaussian models except where the deviation down exceeds the tested strength: there toys converge to zero, the formula does not (C180_expected_fails). The generator gives independent toys with the stated distribution; such generators are shown to exist (infinite products). |
| C181 | More bins or models never weaken the exclusion expected before the measurement | proved | C181_bins, C181_strength, C181_combination, C181_limit, C181_data, C181_observed_fails (`Verif.Uncorrelated`) | The last sentence of the statement is C181_observed_fails. |
| C182 | A true signal is excluded with probability 1 - CL at most | proved | C182_excluded, C182_low_fails, C182_discovery, C182_band, C182_limit, C182_counts (`Verif.Toys`) | C182_low_fails shows that the condition on the confidence level is needed. |
| C183 | Methods that override a cached method do what they would do without caches | partial | C183_slots, C183_dict_partial, C183_lost_fails, C183_waits_fails, C183_deep_fails (`Verif.Override`) | Proved for objects without __dict__, and for those with one if super() never leads to a cached method (calls through the base class are fine). False otherwise: the override is skipped from the second call on, or waits for itself forever, or recurses without end. |
| C184 | chi2_test returns the central interval of the measured strength | partial | C184_interval_partial, C184_bound_fails, C184_right, C184_coverage, C184_sound (`Verif.Interval`) | chi2_test end to end (fits, uncertainty, search) on the Gaussian models, for all data: the two-sided interval is estimate ± z σ up to the tolerance of the root finder, for estimates up to 10 in the physical range; above 10 it is proved to be too wide. Upper end with limit_type right; coverage of the two-sided interval. These are for n_scan=3 (the default); C184_sound: for any n_scan, number of starts and side, whatever is returned is nan, a limit of the search, or an end of the interval. The profile is evaluated in the state after sigma_mu (see the comment of the model). |
| C185 | sigma_mu of counts is the inverse square root of their information | proved | C185_sigma, C185_limit (`Verif.Uncorrelated`) | C185_sigma: the uncertainty from the Hessian of `default.poisson`. C185_limit: limits without starting points (`low_init=None`, `hig_init=None`); the information is assumed to be at least 1e-9, so that the second starting point is below 1e5. |
| C186 | Upper limits from chi2_test of the binned models | proved | C186_value, C186_found (`Verif.Interval`) | C186_value: soundness for all sizes of the scan. C186_found: completeness for the default number of points and the first window; that `sigma_mu` is a positive number is a hypothesis (proved for counts in C185). Both assume that the fitted strength is not limited by the bound 10. |
| C187 | chi2_test for a nuisance parameter returns crossings of its profile likelihood | proved | C187_crossings, C187_interval (`Verif.Nuisance`) | Exact global minimisers that respect the constraints; the Gaussian case needs the interval inside the first scan, and the scan inside the suggested bounds |
| C188 | chi2_test for the signal strength of any model returns crossings of its profile likelihood | proved | C188_crossings, C188_interval (`Verif.Nuisance`) | Fits that find global minima; the Gaussian case without lower limit of the signal strength (minimum_poi = -inf). |
| C189 | chi2_test of a combination returns the interval of the weighted mean | proved | C189_sigma, C189_interval, C189_sound (`Verif.Interval`) | Weighted means that the fit allows. C189_interval is for the default number of points of the scan, C189_sound for all. |
| C190 | A decorated function returns results of the object it was called on, however it is called | partial | C190_methods, C190_functions_partial, C190_equal_objects_fails, C190_self_function_fails (`Verif.Decorate`) | Proved for methods. Functions with a shared cache need tokens that tell objects apart (C190_equal_objects_fails); functions outside classes whose first parameter is named self are not callable (C190_self_function_fails). |
| C191 | In a session with several models and combinations every test gives what it gives alone | proved | C191_sessions, C191_code (`Verif.Memo`) | For minimisers that do not depend on the starting point (otherwise C173_start_fails). C191_code has the keys of the code, for calls of maximize_likelihood by the user whose fixed_poi_value is not a dictionary with several entries (otherwise C177_order_fails). |
| C192 | Asimov data of combinations whose members were renamed | partial | C192_last, C192_own_partial, C192_renamed_fails (`Verif.Combiner`) | Holds for histories without assignments to analysis (C192_own_partial). After an assignment that makes two names equal the members with that name are evaluated with the Asimov data of the last of them (C192_last for all lists of models), so the full statement is false (C192_renamed_fails). |
| C193 | A combination excludes a true signal, claims a discovery or misses the strength no more often than stated | proved | C193_excluded, C193_discovery, C193_interval, C193_limit, C193_low_fails, C193_band (`Verif.Interval, Verif.Joint`) | Together: independent normal data of every model with its own covariance matrix and a common strength. The weighted mean of the estimates is normal around the strength (Together.strength). C193_interval is the statement for chi2_test in the conditions of C189_interval. |
| C194 | Adding an independent Gaussian model to a combination raises what it expects to exclude or discover | proved | C194_expected, C194_discovery, C194_observed_fails, C194_limit (`Verif.Joint`) | Expected levels and p-values are compared entry by entry, strictly. C194_observed_fails is the witness that observed levels may fall. |

## Axioms

As printed by `#print axioms`, for the theorems above:

* none: C136_silent, C137_default, C60_distinct.
* `propext`: C02_single_flight_fails_with_clear, C04_waiter_takes_over, C05_concurrent_bound_fails, C06_no_internal_error_fails, C128_sample_fails, C129_case_fails, C133_exact, C133_raise_fails, C133_warnings_partial, C134_entries, C134_offline, C136_unreadable_fails, C136_updates_partial, C190_equal_objects_fails, C55_fails, C55_listed, C55_overrides_partial, C60_bool_fails, C60_dict, C60_names, C89_limit_fails.
* `Quot.sound`, `propext`: C06_negative_maxsize_fails, C08_copied_object_fails, C137_import_fails, C137_level_partial, C140_race_fails, C140_slots, C183_dict_partial, C183_slots, C190_functions_partial, C34_insertion_order, C34_names_distinct_partial, C34_operations, C34_renaming_fails, C38_index_error_fails, C39_independent, C39_matmul, C43_only_compatible, C43_refusals, C56_same_list_fails, C60_compare, C65_parallel, C65_pool, C66_outside, C67_added_handler_fails, C67_exception_fails, C67_exception_partial, C67_level_zero_fails, C67_restored, C69_last_partial, C69_old_files, C69_race_fails, C69_same_name, C73_entries_are_bounded_fails, C89_limit_partial.
* `propext`, `Classical.choice`, `Quot.sound`: all others.

## Disagreements between code and documentation found while modelling

Each of these is backed by a theorem, whose number is given.

**Cache.** An entry under computation can be evicted, or dropped by `cache_clear()`; then the same key is computed twice (C02), waiting
threads block forever (C03, C04), the number of stored results exceeds `maxsize` (C05), and `popleft` on an empty deque raises
`IndexError` (C06; also with a negative `maxsize`). Keys collide for a list and a tuple, a dict and a list of pairs, an array and a
tuple of its parts, and for `True`, `1`, `1.0` (C07). A shallow copy of an object shares the cached wrapper of the original (C08).
Objects of classes with only `__slots__`, such as `StatisticalModel`, are never freed, since the stored wrapper refers to them, and
the number of entries is unbounded (C73). Threads that access a method of an object with `__dict__` for the
first time together get wrappers, and caches, of their own (C140). A dictionary with integers and strings as keys is fine for a fit but makes
the cache raise (C176), and the order of its entries is not part of the key although it matters if two entries name one parameter
(C177). The wrapper is stored in `__dict__` under the name of the method alone: a subclass of `StatisticalModel` whose
`maximize_likelihood` calls `super().maximize_likelihood(...)` is bypassed from the second call on, and if both methods are cached the
call waits for itself forever (C183). A method whose first parameter has another name than `self` shares one cache among all objects, so equal
objects get each other's results; a function outside classes whose first parameter is named `self` becomes an object that cannot be called
(C190).

**Exclusion.** With `expected="all"` NaN reaches the user (C13). Expected levels from toys are not monotone (C13). The `chi_square`
calculator uses the condition of eq. 66 the other way round, so its power is bounded with `q` (C71). A NaN statistic counts as fully
excluded for toys (C72). `qmu_left` uses the shift of `qtilde` and not that of `q`, and with background-only
Asimov data no positive signal strength can be excluded with it (C141). `docs/exclusion.md` speaks of other numbers of values; a
`ZeroDivisionError` branch is dead (C71). `sigma_mu` of a combination is 1 for strengths that are not
positive, whatever the uncertainty; `chi2_test` takes its window from it (C189).

**Upper limits.** A non-positive `hig_init` never ends (C18). Starting points that are equal and on the limit make the root finder
raise (C19). A strong signal that is excluded already at 1e-10 is reported as unbounded (C74). The availability of the asymptotic
calculator is not checked by `poi_upper_limit` (C113).

**chi2_test.** Documented defaults (121 and 9) differ from those of the code (3 and 2); with them at most two crossings are found
(C23), the scan window is not extended beyond a minimum at its edge, and a NaN fit value is never replaced (C24). On a Gaussian model whose best
strength is above 10, where the fit ends, the interval is with the defaults `est ± √(z²σ² + (est-10)²)` instead of `est ± zσ` (C184).
Upper limits of the binned models separate the strengths by their statistics whatever the size of the scan (C186); the fallback may in principle return the crossing below the fitted strength, about which C186 says nothing.
Intervals of nuisance parameters (C187) are for parameters with finite suggested bounds or without any; infinite bounds count as missing; the fits of the search are modelled in the state after the first fit. C188 is the same for the signal strength; models with one parameter have no constraints there, since the code evaluates their likelihood without a fit.

**Model configuration.** Zero is not strictly inside suggested bounds (C25); values below the least signal strength get bounds that do
not contain them (C25), or reversed ones such as (-1, -5) (C26). Exchanging two names does nothing, names can be duplicated, and a
failing call renames half of them (C27). The POI is accepted by name although documented otherwise (C28). `rescale_poi_bounds`
returns a nested pair by default (C29).

**Optimiser.** Fixed parameters are not always kept (C31). Initial values of the caller, or of the configuration, are overwritten
(C32). Negative upper bounds shrink on retry, and missing bounds raise `TypeError` (C33). A `method` of scipy makes the same fit raise with
Minuit (C138). Minuit is not told the constraints, so rates may become negative; and a parameter fixed outside of bounds given by the
caller is moved into them, so the likelihood of another signal strength is returned (C139).

**Combiner.** `find_most_sensitive` always raises (C37). A position below `-len` raises `IndexError` (C38). The attribute `analysis`
of a member can be assigned, which makes names equal (C34). The start of the combined fit may lie outside its bounds or be NaN (C40).

**Registry.** A class registered by the user cannot be used: `AttributeError` on `load` (C42). A new scan of entry points replaces
registered classes (C41). A refused look-up sets the name of the class (C43).

**Helpers.** No variance means a row of NaN (C44). Overlapping groups are accepted, and negative indices are counted twice (C45).

**Default backends.** Names of synthesised parameters may clash (C47). An infinite uncertainty is not replaced despite the
docstring and gives NaN (C48). The effective sigma subtracts the background from a nuisance parameter of mean zero; its width is 1e-5
for usual backgrounds (C50). Data and bins of different number are accepted (C51). Bins with negative signal, and signal
uncertainties, make rates negative above `minimum_poi` (C52). The positivity constraint of the Poisson model uses `b + theta*b`
instead of `b + theta*sigma` (C54). `compute_third_moments` returns the moment about zero instead of the central one (C76). Sampling
raises `IndexError` with signal uncertainties (C77). `config(allow_negative_signal=True, poi_upper_bound=u)` with `u` other than 10
refuses negative signals (C87). A correlation matrix computed for the third-moment model has a diagonal below one, and a negative
discriminant is hidden by `abs` (C49). So without skewness the expansion is not identical to `CorrelatedBackground`, as documented: with
standard deviations whose product is of the order of 1e-9 the matrix need not even be positive (C142). The constraint terms stay centred at zero when Asimov data are fitted, so data made with
a pulled nuisance parameter are fitted best by another signal strength: background 4 ± 1 with 10 events gives background-only Asimov
data whose best fit has signal strength 1 (C106).

**Exclusion of the best fit.** With the chi-square calculator, data that are impossible without signal (no background, some events)
exclude every signal strength up to the best fit with certainty; the same happens with toys when the statistics of all background
toys are NaN (C104).

**StatisticalModel.** The calculators count as available for every backend (C55). Constraints given by the caller grow with each
call, and the call never ends if they are the backend's own list (C56). Likelihood hooks of backends are not told `return_nll` (C58).
Earlier queries change the start of later fits, and the Asimov maximisation overwrites the caller's initial POI (C79). A combination
drops cross section and number of toys (C84). `sigma_mu` uses mu instead of |mu - mu'| (C85).

**chi2 and pull.** `chi2` documents `allow_negative_signal=True` but the default is `False`, while the numerator always allows
negative signals: the result is negative for negative POI (C100), and beyond the upper bound of the POI (C100), where the pull is NaN.
Values of scans are rounded to single precision and differ from single values (C101). `pull` documents dicts and iterables, but
dicts always end in an exception (C102).

**Hypothesis tests.** Numpy scalars that are neither `float` nor `int` (`np.float32`, `np.int64`) raise `IndexError` unless the best fit
is above them, dictionaries raise `TypeError`, although the annotation of `poi_test` allows both (C109). A number of toys that is not an
`int` always ends in an exception (C108). With a minimiser that depends on its start the same call gives another level the second time
(C110). A best fit above the default upper bound of the POI, 10, makes the significance too small (C112) and the observed upper limit
wrong: it is at least 30 for the measurement 20 ± 1 (C114). `poi_upper_limit` calls `sigma_mu` without the optimiser arguments (C116).
`sigma_mu` raises `TypeError` for an `int`, which the tests accept (C115).

**From the backend to the level.** `Chain` plugs the backends of `default_pdf` into `StatisticalModel` and follows the tests through all
fits. With an exact minimiser the fits always exist and the levels are those of the profile likelihood (C117), of generalised least squares
(C118) and of counting experiments (C119, C120). The bound 10 on the signal strength is part of these claims.

**Toys.** Toys are drawn at the yields that fit the data best for the tested strength and without signal; random numbers are any function that returns as many data sets of the right shape as asked for. For the distribution of the results (C182) data are assumed to have the distribution of the model: every linear combination of the bins is normal with the covariance matrix whose inverse the model uses, or independent Poisson counts.
For single counts and for Gaussian models the observed level compares numbers of toys with at most as many events, or at most the measured strength (C168, C179). The expected levels use the quantiles of
the toys without signal; with few toys they need not be in order (C178). For generators of independent numbers (a probability space, with a law of large numbers from Mathlib) the levels converge with the
number of toys (C180): for Gaussian models to those of the asymptotic formula, except expected levels at deviations down by more than the tested strength, where toys give zero and the formula does not. For
counts in any number of independent bins the observed level converges to one minus the exact ratio of Poisson probabilities. The contracts `Normals` and `Counts` are met by infinite products of distributions (`exGenerator_normals`, `exEvents_counts`).

**The bins of a model.** `Uncorrelated` eliminates the nuisance parameters of `default.uncorrelated_background` in closed form (C143), so that
the tests can be compared for different bins: their order, bins without signal, uncertainties zero and merged bins (C144 to C147). With Gordon's inequality for the normal distribution the levels grow with the test
statistics (C148), so that they grow with the strength (C149), fall with the data (C150) and, expected, with the uncertainties (C151), and
an upper limit separates the strengths (C153), and is a function of the bins alone: two calls agree up to the tolerances, whatever starting points, minimisers and root finders (C155). Combining such models is the same as joining their bins (C154), for upper limits too. The signal strength of a fit is at most 10 by default: a signal that explains the data
only with a larger strength has another significance than the same signal with yields 100 times as large (C152).

**Concavity** (`Linear`). If the background is linear in the nuisance parameters, the logarithm of the likelihood is concave in the signal strength and these parameters together, although the code
clips the Poisson rates at `1e-20`, provided no bin has a number of events that is positive and smaller than about `1e-19` of everything (`Clear`): then the largest likelihoods are attained where
nothing is clipped that matters. Profile likelihoods are then concave functions of the strength (`Curves`), so levels cannot fall (C157), limits are unique (C158), and both hold for combinations (C159),
as sums of concave functions are concave. The condition holds if each bin has an event and its background is at least `1e-8` of everything (`C157_counts`), and before the measurement if the latter
holds (`C157_prior`). For bins without correlations C149 to C155 prove the same without it.

**From the models to a combination.** `Joint` follows the tests of `UnCorrStatisticsCombiner` through the fits of its models and the
minimiser of the one common signal strength. With exact minimisers the levels are those of the joint likelihood (C122), and of the weighted
mean for Gaussian models (C123, C124). An upper limit of a combination is a strength at which it reaches the confidence level (C156). The minimiser of one variable has the contract `Reliable`: from any starting value that is a number
it finds a smallest value inside the bounds. `UnCorrStatisticsCombiner` keeps the Asimov data under the names of the models; the names
are different when the models are added, and the claims need that they still are.

**Distributions.** For a covariance given by a function the log-determinant is clipped at 1e-20, so a determinant below one counts as
one (C126). All evaluations of a multivariate normal model share one object, so two threads can get each other's likelihood (C127).
`MixtureModel.log_prob` multiplies the densities while `sample` averages them, and `sample` needs attributes that the classes of the
module lack (C128). Known distribution names in another case pass the check and then raise `KeyError` (C129).

**Expectation types.** Booleans equal a member but have other hashes (C60). The name "observed" instead of the member raises
`IndexError` in the upper limit (C89).

**Logger.** Captured messages are lost when the block raises, level 0 means the level of the root logger, handlers added inside stay
and come first (C67). `init` removes only every second handler and adds a root handler per call (C88). Formatting changes the record,
so with two handlers the heading is shown twice (C103).

**Update check.** A stored JSON `null` never counts, an unremovable stale file with a later name hides the new one (C68). Two
processes delete each other's file (C69). An error page in JSON is stored for a day (C90).

**Tools.** `iminuit` is known to `set_optimiser` only, other cases to `SPEY_OPTIMISER` only; elsewhere scipy is used instead (C131).
`log_once` repeats a message after ten others (C132). Warnings of a tracked function that raises are lost (C133). `cite` replaces every
occurrence of the key in the entry (C135). A Python version such as 3.14.0rc1, or a missing requirement, silences the update check (C136).
`SPEY_LOGLEVEL=4` or `debug` makes the import fail (C137).

**Contours.** The level is `NLL_min + Delta` instead of `NLL_min + Delta/2`; for two parameters the confidence level is
`1-(1-CL)^2` (C61). The primary fit ignores the bounds of the user, brackets can be reversed, the first point of a walk is not checked,
NaN points are appended (C62). An index given twice is accepted (C66). A projection that has not converged is returned as a contour
point (C91). No seeds means all seeds (C93). The documented inverse `phi = L(theta - anchor)` should have `L^T`; a failing `eigh` is
not caught (C94). Crossings between the radii looked at are missed (C95). Constraint objects, which the default backends use, raise
`TypeError` when profiling, and a failing inner minimiser is ignored (C96). So for every built-in model with constraints
`find_contour` with some parameters profiled never returns a result; without profiled parameters the search for basins ignores the
constraints, so that the reported minimum is below the NLL of every admissible point (C160).
