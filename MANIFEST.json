{
 "claims": [
  {
   "property": "C01",
   "status": "proved",
   "theorems": [
    "Verif.Cache.C01_returned_values_were_computed",
    "Verif.Cache.C01_stored_values_were_computed",
    "Verif.Cache.C01_deterministic_function_is_transparent"
   ],
   "note": "All schedules, all cache sizes."
  },
  {
   "property": "C02",
   "status": "partial",
   "theorems": [
    "Verif.Cache.C02_single_flight_partial",
    "Verif.Cache.C02_call_does_not_recompute_partial",
    "Verif.Cache.C02_single_flight_fails",
    "Verif.Cache.C02_single_flight_fails_with_clear"
   ],
   "note": "Holds while the distinct keys fit in maxsize and nobody clears; false otherwise: an in-flight entry can be evicted (every maxsize >= 1) or cleared, then the same key is computed twice."
  },
  {
   "property": "C03",
   "status": "partial",
   "theorems": [
    "Verif.Cache.C03_waiters_are_woken_partial",
    "Verif.Cache.C03_calls_end_partial",
    "Verif.Cache.C03_no_lost_waiter_fails",
    "Verif.Cache.C03_no_lost_waiter_fails_with_clear"
   ],
   "note": "Holds without eviction of in-flight entries and clear; false otherwise (witness for every maxsize >= 1)."
  },
  {
   "property": "C04",
   "status": "partial",
   "theorems": [
    "Verif.Cache.C04_failure_leaves_no_trace",
    "Verif.Cache.C04_failure_is_retried_partial",
    "Verif.Cache.C04_waiter_takes_over",
    "Verif.Cache.C04_next_call",
    "Verif.Cache.C04_waiter_fails"
   ],
   "note": "No trace and recomputation by the next call: all schedules. A thread that already waits takes over while the keys fit in the cache and nobody clears it; after cache_clear a waiter may wait forever (C04_waiter_fails)."
  },
  {
   "property": "C05",
   "status": "partial",
   "theorems": [
    "Verif.Cache.C05_sequential_fifo",
    "Verif.Cache.C05_sequential_bound",
    "Verif.Cache.C05_concurrent_bound_partial",
    "Verif.Cache.C05_quiescent_size_partial",
    "Verif.Cache.C05_concurrent_bound_fails"
   ],
   "note": "Sequential use is a bounded FIFO map; with threads the bound can be exceeded."
  },
  {
   "property": "C06",
   "status": "partial",
   "theorems": [
    "Verif.Cache.C06_no_key_or_value_error",
    "Verif.Cache.C06_no_internal_error_partial",
    "Verif.Cache.C06_sequential",
    "Verif.Cache.C06_no_internal_error_fails",
    "Verif.Cache.C06_negative_maxsize_fails"
   ],
   "note": "KeyError/ValueError never; IndexError from popleft on an empty deque is possible."
  },
  {
   "property": "C07",
   "status": "partial",
   "theorems": [
    "Verif.CacheKey.C07_same_arguments_same_key",
    "Verif.CacheKey.C07_different_arguments_partial",
    "Verif.CacheKey.C07_different_arguments_fails",
    "Verif.CacheKey.C07_number_types_collide_fails",
    "Verif.CacheKey.C07_refused_calls"
   ],
   "note": "Calls binding the same values have the same key. Different contents give different keys for arguments of one type per parameter, with SHA-256 injective; false in general: a list and a tuple, a dict and a list of pairs, an array and a tuple of its parts, True and 1 and 1.0 collide."
  },
  {
   "property": "C08",
   "status": "partial",
   "theorems": [
    "Verif.PerInstance.C08_result_belongs_to_the_object_partial",
    "Verif.PerInstance.C08_caches_are_separate_partial",
    "Verif.PerInstance.C08_copied_object_fails"
   ],
   "note": "Proved for every history of creations, deletions with address reuse, collections and calls that does not copy an object carrying its wrapper in its __dict__; false for such copies (negation proved): the copy shares the wrapper bound to the original."
  },
  {
   "property": "C09",
   "status": "proved",
   "theorems": [
    "Verif.Stats.C09_never_negative",
    "Verif.Stats.C09_finite_and_nonneg",
    "Verif.Stats.C09_zero_side",
    "Verif.Stats.C09_zero_at_best_fit"
   ],
   "note": "Also for nan and infinite likelihood values."
  },
  {
   "property": "C10",
   "status": "proved",
   "theorems": [
    "Verif.Stats.C10_ratio",
    "Verif.Stats.C10_ratio_unimodal",
    "Verif.Stats.C10_agrees",
    "Verif.Stats.C10_below",
    "Verif.Stats.C10_below_needs_maximum"
   ],
   "note": ""
  },
  {
   "property": "C100",
   "status": "partial",
   "theorems": [
    "Verif.Interface.C100_nonneg_partial",
    "Verif.Interface.C100_negative_fails",
    "Verif.Interface.C100_beyond_fails"
   ],
   "note": "True for a POI strictly inside the bounds of both fits and a perfect minimiser. False by default for negative POI (allow_negative_signal=False applies to the best fit only) and beyond the upper bound."
  },
  {
   "property": "C101",
   "status": "partial",
   "theorems": [
    "Verif.Interface.C101_list_partial",
    "Verif.Interface.C101_table_partial",
    "Verif.Interface.C101_failure",
    "Verif.Interface.C101_two",
    "Verif.Interface.C101_round_fails"
   ],
   "note": "True up to the rounding of likelihoods to float32; as an equality false."
  },
  {
   "property": "C102",
   "status": "partial",
   "theorems": [
    "Verif.Interface.C102_pull_partial",
    "Verif.Interface.C102_dict_fails"
   ],
   "note": "True for numbers with chi2 >= 0 (nan if chi2 < 0). False for dicts, which always end in an exception."
  },
  {
   "property": "C103",
   "status": "partial",
   "theorems": [
    "Verif.Logger.C103_format",
    "Verif.Logger.C103_distinct",
    "Verif.Logger.C103_written_partial",
    "Verif.Logger.C103_twice_fails"
   ],
   "note": "False with two handlers: formatting changes the record, so the second handler shows the heading twice."
  },
  {
   "property": "C104",
   "status": "partial",
   "theorems": [
    "Verif.Stats.C104_asymptotic",
    "Verif.Stats.C104_toys_partial",
    "Verif.Stats.C104_toys_fails",
    "Verif.Stats.C104_chi_square_partial",
    "Verif.Stats.C104_chi_square_fails"
   ],
   "note": "Proved in full for the asymptotic calculator. Toys: proved if the statistics are numbers, refuted for NaN background toys. Chi-square: proved for finite likelihoods, refuted when the background alone cannot give the data."
  },
  {
   "property": "C105",
   "status": "proved",
   "theorems": [
    "Verif.Stats.C105_observed",
    "Verif.Stats.C105_expected",
    "Verif.Stats.C105_unique_limit"
   ],
   "note": "Closed form of the observed and expected levels and uniqueness of the limit."
  },
  {
   "property": "C106",
   "status": "partial",
   "theorems": [
    "Verif.Backend.C106_simple",
    "Verif.Backend.C106_refit_partial",
    "Verif.Backend.C106_apriori",
    "Verif.Backend.C106_refit_fails"
   ],
   "note": "Proved for the models without constraint terms and, for the simplified models, for vanishing nuisance parameters (which includes the pre-fit Asimov data); refuted for pulled nuisance parameters."
  },
  {
   "property": "C107",
   "status": "proved",
   "theorems": [
    "Verif.Hypotest.C107_levels",
    "Verif.Hypotest.C107_significance",
    "Verif.Hypotest.C107_profile",
    "Verif.Hypotest.C107_arguments"
   ],
   "note": "From the calls of the methods of the model (C107_levels, C107_significance) down to the likelihood of the backend (C107_profile, for minimisers that return a global minimum)."
  },
  {
   "property": "C108",
   "status": "proved",
   "theorems": [
    "Verif.Hypotest.C108_draws",
    "Verif.Hypotest.C108_counts",
    "Verif.Hypotest.C108_size_fails",
    "Verif.Hypotest.C108_model"
   ],
   "note": "A number of toys that is not an int (e.g. numpy integer) never gives a level: the sampler returns a function instead of data (C108_size_fails)."
  },
  {
   "property": "C109",
   "status": "partial",
   "theorems": [
    "Verif.Hypotest.C109_numbers_partial",
    "Verif.Hypotest.C109_scalar_fails",
    "Verif.Hypotest.C109_dict_fails"
   ],
   "note": "float, int and one-entry lists agree. numpy scalars that are neither float nor int raise IndexError, dictionaries TypeError, although the annotations allow them."
  },
  {
   "property": "C11",
   "status": "proved",
   "theorems": [
    "Verif.Stats.C11_observed",
    "Verif.Stats.C11_expected",
    "Verif.Stats.C11_significance"
   ],
   "note": "Infinite shifts included."
  },
  {
   "property": "C110",
   "status": "proved",
   "theorems": [
    "Verif.Hypotest.C110_steady",
    "Verif.Hypotest.C110_model",
    "Verif.Hypotest.C110_history_fails"
   ],
   "note": "C110_history_fails: with a minimiser that depends on its start the same call gives two levels, depending on whether the likelihood was asked for before. C173 adds the caches."
  },
  {
   "property": "C111",
   "status": "proved",
   "theorems": [
    "Verif.Hypotest.C111_best_fit",
    "Verif.Hypotest.C111_asymptotic",
    "Verif.Hypotest.C111_model"
   ],
   "note": "C111_asymptotic needs likelihoods that do not raise AsimovTestStatZero themselves; C111_model shows that those of a model never do."
  },
  {
   "property": "C112",
   "status": "partial",
   "theorems": [
    "Verif.Hypotest.C112_levels_partial",
    "Verif.Hypotest.C112_discovery_partial",
    "Verif.Hypotest.C112_bound_fails",
    "Verif.Hypotest.C112_bounds"
   ],
   "note": "For best-fit values inside the bounds of the POI (upper bound 10 by default) and, for the level, v not below the best fit. Above the bound the significance is underestimated (C112_bound_fails)."
  },
  {
   "property": "C113",
   "status": "proved",
   "theorems": [
    "Verif.Hypotest.C113_level",
    "Verif.Hypotest.C113_steady",
    "Verif.Hypotest.C113_agrees",
    "Verif.Hypotest.C113_model",
    "Verif.Hypotest.C113_failure",
    "Verif.Hypotest.C113_available",
    "Verif.Hypotest.C113_zero_start"
   ],
   "note": "Exceptions of the fits, of the estimate of sigma and of the likelihood at the first point end the call."
  },
  {
   "property": "C114",
   "status": "partial",
   "theorems": [
    "Verif.Hypotest.C114_limit_partial",
    "Verif.Hypotest.C114_bound_fails",
    "Verif.Hypotest.C114_limit_fails",
    "Verif.Hypotest.C114_start_fails"
   ],
   "note": "For measured values up to the upper bound of the POI (10 by default), and starting points that are not both the limit. Otherwise false."
  },
  {
   "property": "C115",
   "status": "partial",
   "theorems": [
    "Verif.Hypotest.C115_types_partial",
    "Verif.Hypotest.C115_int_fails",
    "Verif.Hypotest.C115_hessian",
    "Verif.Hypotest.C115_arguments"
   ],
   "note": "False for int without a Hessian."
  },
  {
   "property": "C116",
   "status": "partial",
   "theorems": [
    "Verif.Hypotest.C116_given_partial",
    "Verif.Hypotest.C116_arguments_fails"
   ],
   "note": "False if a starting point is None and the best fit is positive."
  },
  {
   "property": "C117",
   "status": "proved",
   "theorems": [
    "Verif.Chain.C117_levels",
    "Verif.Chain.C117_answers",
    "Verif.Chain.C117_significance"
   ],
   "note": "Conditions, in the claim: signal given as yields, without parameters or uncertainties; backgrounds not negative; at least one positive yield; the inverse of the correlation matrix is positive definite; the minimiser finds global minima inside bounds and constraints whenever there are any."
  },
  {
   "property": "C118",
   "status": "proved",
   "theorems": [
    "Verif.Chain.C118_levels",
    "Verif.Chain.C118_significance"
   ],
   "note": "Conditions in the claim: least-squares strength at most 10, exact minimiser, backgrounds not negative, a positive yield."
  },
  {
   "property": "C119",
   "status": "proved",
   "theorems": [
    "Verif.Chain.C119_significance"
   ],
   "note": "Conditions in the claim: (n-b)/s at most 10, b at least 1e-20, exact minimiser."
  },
  {
   "property": "C12",
   "status": "proved",
   "theorems": [
    "Verif.Stats.C12_expected_ordered",
    "Verif.Stats.C12_background_values"
   ],
   "note": "Uses log-concavity of the normal distribution function, proved in Verif/Py/Normal.lean."
  },
  {
   "property": "C120",
   "status": "proved",
   "theorems": [
    "Verif.Chain.C120_levels"
   ],
   "note": "Conditions in the claim: (n-b)/s at most 10, b at least 1e-20, exact minimiser; test statistic without negative strengths."
  },
  {
   "property": "C121",
   "status": "proved",
   "theorems": [
    "Verif.Chain.C121_sigma",
    "Verif.Chain.C121_limit"
   ],
   "note": "Conditions in the claim. numpy.linalg.inv is assumed to invert 1x1 matrices."
  },
  {
   "property": "C122",
   "status": "proved",
   "theorems": [
    "Verif.Joint.C122_levels",
    "Verif.Joint.C122_significance"
   ],
   "note": "For every number of models; models of spey as in C117, C118 and Poisson models with any number of bins. The starting value is assumed to be a number in one state; the minimisers are assumed exact."
  },
  {
   "property": "C123",
   "status": "proved",
   "theorems": [
    "Verif.Joint.C123_levels",
    "Verif.Joint.C123_significance"
   ],
   "note": "For every number of models, with the conditions of the statement."
  },
  {
   "property": "C124",
   "status": "proved",
   "theorems": [
    "Verif.Joint.C124_sigma",
    "Verif.Joint.C124_limit"
   ],
   "note": "For every number of models, with the conditions of the statement."
  },
  {
   "property": "C125",
   "status": "proved",
   "theorems": [
    "Verif.Hypotest.C125_bounds",
    "Verif.Hypotest.C125_toys"
   ],
   "note": "Exact minimiser; the sampler is arbitrary, as long as it draws as many values as asked for. C125_bounds: with par_bounds of the caller; C125_toys: with the bounds of the model."
  },
  {
   "property": "C126",
   "status": "partial",
   "theorems": [
    "Verif.Dist.C126_density_partial",
    "Verif.Dist.C126_callable_fails"
   ],
   "note": "Proved for matrices, and for functions whose log-determinant is at least 1e-20. False for functions with determinant below one: the log-determinant is clipped at 1e-20."
  },
  {
   "property": "C127",
   "status": "partial",
   "theorems": [
    "Verif.Dist.C127_threads_partial",
    "Verif.Dist.C127_alone",
    "Verif.Dist.C127_shared_fails"
   ],
   "note": "Proved for Poisson and normal models and, with one thread, for all. False for multivariate normal models with a constant matrix: all evaluations share one object whose mean is overwritten."
  },
  {
   "property": "C128",
   "status": "partial",
   "theorems": [
    "Verif.Dist.C128_density_partial",
    "Verif.Dist.C128_sample",
    "Verif.Dist.C128_density_fails",
    "Verif.Dist.C128_sample_fails"
   ],
   "note": "sample draws from the average; log_prob is its logarithm for one distribution only, for more it is the logarithm of the product. Distributions of the module have no attribute shape, so sample fails."
  },
  {
   "property": "C129",
   "status": "partial",
   "theorems": [
    "Verif.Dist.C129_names_partial",
    "Verif.Dist.C129_case_fails"
   ],
   "note": "Proved for the exact names and for unknown ones. Known names in another case pass the check and end with a KeyError."
  },
  {
   "property": "C13",
   "status": "partial",
   "theorems": [
    "Verif.Stats.C13_range_and_shape",
    "Verif.Stats.C13_all_partial",
    "Verif.Stats.C13_expected_monotone",
    "Verif.Stats.C13_all_fails",
    "Verif.Stats.C13_toy_monotone_fails"
   ],
   "note": "Range and shape: all inputs for expected != \"all\". False for expected=\"all\" (nan is returned) and monotonicity is false for toys."
  },
  {
   "property": "C130",
   "status": "proved",
   "theorems": [
    "Verif.Dist.C130_counts"
   ],
   "note": ""
  },
  {
   "property": "C131",
   "status": "partial",
   "theorems": [
    "Verif.Tools.C131_set_partial",
    "Verif.Tools.C131_option",
    "Verif.Tools.C131_names_fails"
   ],
   "note": "Proved for the names scipy and minuit and any sequence of settings. False for the names: iminuit and names in another case are known in one of the three places only."
  },
  {
   "property": "C132",
   "status": "partial",
   "theorems": [
    "Verif.Tools.C132_exact",
    "Verif.Tools.C132_once_partial",
    "Verif.Tools.C132_again_fails"
   ],
   "note": "Exact condition for each call; once for at most ten different messages. False for more: the cache holds ten messages."
  },
  {
   "property": "C133",
   "status": "partial",
   "theorems": [
    "Verif.Tools.C133_warnings_partial",
    "Verif.Tools.C133_exact",
    "Verif.Tools.C133_raise_fails"
   ],
   "note": "Proved if all functions return. The warnings of a function that raises are lost."
  },
  {
   "property": "C134",
   "status": "proved",
   "theorems": [
    "Verif.Tools.C134_entries",
    "Verif.Tools.C134_offline"
   ],
   "note": ""
  },
  {
   "property": "C135",
   "status": "partial",
   "theorems": [
    "Verif.Tools.C135_cite_partial",
    "Verif.Tools.C135_offline",
    "Verif.Tools.C135_key_fails",
    "Verif.Tools.C135_other"
   ],
   "note": "Proved if the key occurs once in the entry. False otherwise: all occurrences are replaced."
  },
  {
   "property": "C136",
   "status": "partial",
   "theorems": [
    "Verif.Tools.C136_updates_partial",
    "Verif.Tools.C136_silent",
    "Verif.Tools.C136_unreadable_fails"
   ],
   "note": "Proved if versions and requirement can be read. Otherwise nothing is said, for example with a release candidate of Python."
  },
  {
   "property": "C137",
   "status": "partial",
   "theorems": [
    "Verif.Tools.C137_level_partial",
    "Verif.Tools.C137_default",
    "Verif.Tools.C137_import_fails"
   ],
   "note": "Proved for numbers up to 3. Larger numbers raise KeyError, other texts ValueError."
  },
  {
   "property": "C138",
   "status": "partial",
   "theorems": [
    "Verif.Minimisers.C138_options",
    "Verif.Minimisers.C138_unknown",
    "Verif.Minimisers.C138_method_fails"
   ],
   "note": "Proved except the last part, which is false: `method` is the only option with different values for the two minimisers, and Minuit raises for those of scipy."
  },
  {
   "property": "C139",
   "status": "partial",
   "theorems": [
    "Verif.Minimisers.C139_scipy_partial",
    "Verif.Minimisers.C139_minuit_partial",
    "Verif.Minimisers.C139_minuit_ignores",
    "Verif.Minimisers.C139_constraints_fails",
    "Verif.Minimisers.C139_fixed_fails"
   ],
   "note": "For scipy proved for methods that know constraints, one trial and reported success. For Minuit constraints are ignored, and a parameter fixed outside of bounds given by the caller is moved into them."
  },
  {
   "property": "C14",
   "status": "proved",
   "theorems": [
    "Verif.Stats.C14_raises_iff",
    "Verif.Stats.C14_caller",
    "Verif.Stats.C14_significance_never_raises"
   ],
   "note": ""
  },
  {
   "property": "C140",
   "status": "partial",
   "theorems": [
    "Verif.PerInstance.Race.C140_slots",
    "Verif.PerInstance.Race.C140_dict_partial",
    "Verif.PerInstance.Race.C140_race_fails"
   ],
   "note": "Holds under every schedule for objects without __dict__, where the registry is locked. For objects with __dict__ it holds when the first access is over before another thread starts; it is false for first accesses at the same time."
  },
  {
   "property": "C141",
   "status": "partial",
   "theorems": [
    "Verif.Stats.C141_mirror",
    "Verif.Stats.C141_shift_partial",
    "Verif.Stats.C141_shift_fails",
    "Verif.Stats.C141_positive_fails"
   ],
   "note": "The statistic is the mirror image; the shift only as long as the statistic is not above that of the Asimov data. With background-only Asimov data no positive signal strength is excluded."
  },
  {
   "property": "C142",
   "status": "partial",
   "theorems": [
    "Verif.ThirdMoment.C142_reduces_partial",
    "Verif.ThirdMoment.C142_matrix_partial",
    "Verif.ThirdMoment.C142_definite_fails"
   ],
   "note": "Coefficients, rates, positivity constraints and configuration are identical; the matrix of the constraint term is close to the correlation matrix, with a bound, for standard deviations whose product is at least 8e-10; it is never equal, and for smaller ones it may not be positive."
  },
  {
   "property": "C143",
   "status": "proved",
   "theorems": [
    "Verif.Uncorrelated.C143_levels",
    "Verif.Uncorrelated.C143_significance",
    "Verif.Uncorrelated.C143_determined",
    "Verif.Uncorrelated.C143_sensitive"
   ],
   "note": "Conditions, in the claim: exact minimisers; backgrounds at least 1e-20, yields, uncertainties and data not negative, at least one positive yield; signal strengths not negative. The solutions are between zero and the default bound 10 of the signal strength."
  },
  {
   "property": "C144",
   "status": "proved",
   "theorems": [
    "Verif.Uncorrelated.C144_levels",
    "Verif.Uncorrelated.C144_significance"
   ],
   "note": "Conditions as for C143; the two models may use different exact minimisers."
  },
  {
   "property": "C145",
   "status": "proved",
   "theorems": [
    "Verif.Uncorrelated.C145_levels",
    "Verif.Uncorrelated.C145_significance"
   ],
   "note": "Conditions as for C143."
  },
  {
   "property": "C146",
   "status": "proved",
   "theorems": [
    "Verif.Uncorrelated.C146_levels",
    "Verif.Uncorrelated.C146_significance"
   ],
   "note": "Conditions as for C143."
  },
  {
   "property": "C147",
   "status": "proved",
   "theorems": [
    "Verif.Uncorrelated.C147_levels",
    "Verif.Uncorrelated.C147_significance"
   ],
   "note": "Conditions as for C143; the other bins may have uncertainties."
  },
  {
   "property": "C148",
   "status": "proved",
   "theorems": [
    "Verif.Stats.C148_levels",
    "Verif.Stats.C148_strict"
   ],
   "note": "Across the switch of equation (66), by Gordon's inequality."
  },
  {
   "property": "C149",
   "status": "proved",
   "theorems": [
    "Verif.Uncorrelated.C149_levels"
   ],
   "note": "With exact minimisers; test statistic qtilde."
  },
  {
   "property": "C15",
   "status": "proved",
   "theorems": [
    "Verif.Stats.C15_shift_is_eq66",
    "Verif.Stats.C15_continuous",
    "Verif.Stats.C15_strictly_increasing",
    "Verif.Stats.C15_larger_statistic_excludes_more"
   ],
   "note": ""
  },
  {
   "property": "C150",
   "status": "proved",
   "theorems": [
    "Verif.Uncorrelated.C150_levels",
    "Verif.Uncorrelated.C150_significance"
   ],
   "note": "With exact minimisers; test statistic qtilde."
  },
  {
   "property": "C151",
   "status": "proved",
   "theorems": [
    "Verif.Uncorrelated.C151_levels"
   ],
   "note": "With exact minimisers; test statistic qtilde, positive strengths."
  },
  {
   "property": "C152",
   "status": "partial",
   "theorems": [
    "Verif.Uncorrelated.C152_levels_partial",
    "Verif.Uncorrelated.C152_significance_partial",
    "Verif.Uncorrelated.C152_bound_fails",
    "Verif.Uncorrelated.C152_limit_partial"
   ],
   "note": "False for strong excesses, because of the default bound 10 of the signal strength; proved if a strength of at most 10 explains all events."
  },
  {
   "property": "C153",
   "status": "proved",
   "theorems": [
    "Verif.Uncorrelated.C153_limit",
    "Verif.Uncorrelated.C153_exists"
   ],
   "note": "With exact minimisers and a sound root finder."
  },
  {
   "property": "C154",
   "status": "proved",
   "theorems": [
    "Verif.Uncorrelated.C154_levels",
    "Verif.Uncorrelated.C154_significance",
    "Verif.Uncorrelated.C154_limit"
   ],
   "note": "The minimisers are exact, and the starting value of the combination (from the individual fits) is a number; `start_counts` shows this for a first model without uncertainties."
  },
  {
   "property": "C155",
   "status": "proved",
   "theorems": [
    "Verif.Uncorrelated.C155_unique",
    "Verif.Uncorrelated.C155_data",
    "Verif.Uncorrelated.C155_uncertainty"
   ],
   "note": "Exact minimisers (Exact, Finds, StartFree, Constrained) and sound root finders; finite limits. Positive confidence level."
  },
  {
   "property": "C156",
   "status": "proved",
   "theorems": [
    "Verif.Joint.C156_limit",
    "Verif.Joint.C156_exists"
   ],
   "note": "Contracts Reliable, Exact, Finds, Constrained for the minimisers; the root finder evaluates only inside its interval."
  },
  {
   "property": "C157",
   "status": "proved",
   "theorems": [
    "Verif.Linear.C157_levels",
    "Verif.Linear.C157_counts",
    "Verif.Linear.C157_prior",
    "Verif.Linear.C157_sensitive"
   ],
   "note": "Exact minimisers (Exact, Finds, Constrained). `Regular` is the condition on the numbers of events; C157_counts and C157_prior state it for the inputs."
  },
  {
   "property": "C158",
   "status": "proved",
   "theorems": [
    "Verif.Linear.C158_limit",
    "Verif.Linear.C158_exists",
    "Verif.Linear.C158_unique"
   ],
   "note": "Exact minimisers and a sound root finder; finite limits and a positive confidence level for uniqueness."
  },
  {
   "property": "C159",
   "status": "proved",
   "theorems": [
    "Verif.Linear.C159_levels",
    "Verif.Linear.C159_limit",
    "Verif.Linear.C159_exists",
    "Verif.Linear.C159_unique"
   ],
   "note": "The minimisers are exact, and the starting value of the combination (from the individual fits) is a number, as in C154."
  },
  {
   "property": "C16",
   "status": "proved",
   "theorems": [
    "Verif.Stats.C16_probability",
    "Verif.Stats.C16_one_below",
    "Verif.Stats.C16_zero_above",
    "Verif.Stats.C16_antitone",
    "Verif.Stats.C16_order_irrelevant",
    "Verif.Stats.C16_counts"
   ],
   "note": ""
  },
  {
   "property": "C160",
   "status": "partial",
   "theorems": [
    "Verif.Region.C160_primary",
    "Verif.Region.C160_exists",
    "Verif.Region.C160_minimum_partial",
    "Verif.Region.C160_profile_fails",
    "Verif.Region.C160_constraints_fails"
   ],
   "note": "the primary fit gives the best admissible point, and exists for every simplified likelihood; the minimum of the whole search is the best admissible point for models without constraints. False with constraints: with profiled parameters a TypeError is raised whatever the likelihood, without them the basin search leaves the constraints and reports a minimum below the NLL of every admissible point."
  },
  {
   "property": "C161",
   "status": "proved",
   "theorems": [
    "Verif.Region.C161_radial"
   ],
   "note": "for models without constraints (with constraints nothing is returned or the minimum is wrong, C160), exact SLSQP, Brent's accuracy and a continuous profile likelihood."
  },
  {
   "property": "C162",
   "status": "proved",
   "theorems": [
    "Verif.Region.C162_gradient"
   ],
   "note": "exact SLSQP and exact automatic differentiation; models without constraints, because with constraints and profile parameters nothing is returned (C160)."
  },
  {
   "property": "C163",
   "status": "proved",
   "theorems": [
    "Verif.Chain.C163_limit",
    "Verif.Chain.C163_exists"
   ],
   "note": ""
  },
  {
   "property": "C164",
   "status": "proved",
   "theorems": [
    "Verif.Reach.C164_few",
    "Verif.Reach.C164_many"
   ],
   "note": ""
  },
  {
   "property": "C165",
   "status": "proved",
   "theorems": [
    "Verif.Reach.C165_limit",
    "Verif.Reach.C165_exists"
   ],
   "note": ""
  },
  {
   "property": "C166",
   "status": "proved",
   "theorems": [
    "Verif.CrossSection.C166_unknown",
    "Verif.CrossSection.C166_dead",
    "Verif.CrossSection.C166_means",
    "Verif.CrossSection.C166_exists",
    "Verif.CrossSection.C166_separates",
    "Verif.CrossSection.C166_normalisation"
   ],
   "note": "The bound 10 of the fits limits the scaling (C152_bound_fails)."
  },
  {
   "property": "C167",
   "status": "proved",
   "theorems": [
    "Verif.Reach.C167_few",
    "Verif.Reach.C167_many",
    "Verif.Reach.C167_limit",
    "Verif.Reach.C167_exists"
   ],
   "note": ""
  },
  {
   "property": "C168",
   "status": "proved",
   "theorems": [
    "Verif.Toys.C168_profile",
    "Verif.Toys.C168_levels",
    "Verif.Toys.C168_zero",
    "Verif.Toys.C168_count",
    "Verif.Toys.C168_auxiliary"
   ],
   "note": "The random numbers are any whole numbers, as many as there are rates; their distribution is not modelled. Signals with parameters or uncertainties of their own are left out (with signal uncertainties sampling fails, C77)."
  },
  {
   "property": "C169",
   "status": "proved",
   "theorems": [
    "Verif.Uncertain.C169_levels",
    "Verif.Uncertain.C169_answers",
    "Verif.Uncertain.C169_significance",
    "Verif.Uncertain.C169_limit",
    "Verif.Uncertain.C169_exists"
   ],
   "note": "The minimiser is exact (Exact, Finds, Constrained: contracts of scipy.optimize), the root finder keeps to its contract. Examples: yields with three sources of uncertainties, and a signal that is a function of a bounded parameter."
  },
  {
   "property": "C17",
   "status": "proved",
   "theorems": [
    "Verif.Stats.C17_unknown",
    "Verif.Stats.C17_known",
    "Verif.Stats.C17_accepts_iff"
   ],
   "note": ""
  },
  {
   "property": "C170",
   "status": "proved",
   "theorems": [
    "Verif.Uncertain.C170_signal",
    "Verif.Uncertain.C170_few",
    "Verif.Uncertain.C170_many",
    "Verif.Uncertain.C170_limit",
    "Verif.Uncertain.C170_exists"
   ],
   "note": "Same contracts. Example: a normalisation uncertainty of 20 %, whose limits exist and lie between 0.001 and 84."
  },
  {
   "property": "C171",
   "status": "proved",
   "theorems": [
    "Verif.Uncertain.C171_hidden",
    "Verif.Uncertain.C171_never"
   ],
   "note": "Same contracts. Example: a signal with a free fraction between 0 and 1."
  },
  {
   "property": "C172",
   "status": "proved",
   "theorems": [
    "Verif.Uncertain.C172_asimov",
    "Verif.Uncertain.C172_discovery",
    "Verif.Uncertain.C172_sensitivity"
   ],
   "note": "Same contracts. The expected levels are compared for backgrounds that are the given ones at zero nuisance parameters (uncorrelated and correlated backgrounds) and not below 1e-20."
  },
  {
   "property": "C173",
   "status": "proved",
   "theorems": [
    "Verif.Memo.C173_calls",
    "Verif.Memo.C173_tests",
    "Verif.Memo.C173_again",
    "Verif.Memo.C173_any",
    "Verif.Memo.C173_start_fails"
   ],
   "note": "Contract of the keys: equal keys mean equal arguments (C07 for the real ones). Calls with starting points or constraints of the caller are left out. C173_start_fails: with a minimiser that depends on its start, clearing the cache changes the result of the same call."
  },
  {
   "property": "C174",
   "status": "partial",
   "theorems": [
    "Verif.MultiParam.C174_first_partial",
    "Verif.MultiParam.C174_limits_ignored",
    "Verif.MultiParam.C174_best_fails",
    "Verif.MultiParam.C174_refused"
   ],
   "note": "False: numpy takes the minimum of a generator as that of an array with one entry, so the first model is always taken and no limit is computed. Proved: number, order and content of the entries, refusals. The module cannot be imported at this commit (its import of spey.multiparameter.templates fails)."
  },
  {
   "property": "C175",
   "status": "proved",
   "theorems": [
    "Verif.Memo.C175_tests"
   ],
   "note": "Same contracts as C173. The minimiser of the combination is any procedure that asks for values of the likelihood and then stops."
  },
  {
   "property": "C176",
   "status": "partial",
   "theorems": [
    "Verif.CacheKey.C176_keys",
    "Verif.Memo.C176_mixed_fails"
   ],
   "note": "The key of a call raises exactly if some argument contains, at some depth, a dictionary with both integers and strings as keys. The claim is false of the code for those: C176_mixed_fails gives a fit that works without the cache and raises with it."
  },
  {
   "property": "C177",
   "status": "partial",
   "theorems": [
    "Verif.Memo.C177_keys",
    "Verif.Memo.C177_tests",
    "Verif.Memo.C177_order_fails"
   ],
   "note": "For calls whose fixed_poi_value is a number or a dictionary with at most one entry. The claim is false of the code for dictionaries with several entries: C177_order_fails shows the cache returning the wrong fit."
  },
  {
   "property": "C178",
   "status": "partial",
   "theorems": [
    "Verif.Toys.C178_profile",
    "Verif.Toys.C178_levels",
    "Verif.Toys.C178_expected",
    "Verif.Toys.C178_order_fails"
   ],
   "note": "Levels of every expectation, rates of the toys and the numbers of background toys on either side of each quantile are proved, and that the quantiles grow. The levels need not fall from two standard deviations up to two down: with three toys each, signal is expected to be excluded at 1/2 without fluctuation and at 0 one and two standard deviations up (C178_order_fails). The percentile of numpy is taken as linear interpolation between order statistics."
  },
  {
   "property": "C179",
   "status": "proved",
   "theorems": [
    "Verif.Toys.C179_levels",
    "Verif.Toys.C179_measured",
    "Verif.Toys.C179_zero"
   ],
   "note": "Random numbers are any function with the right number and lengths of data sets; minimisers are exact; the percentile of numpy is linear interpolation between order statistics."
  },
  {
   "property": "C18",
   "status": "partial",
   "theorems": [
    "Verif.UpperLimit.C18_terminates_and_brackets_partial",
    "Verif.UpperLimit.C18_crossing_is_bracketed_partial",
    "Verif.UpperLimit.C18_poi_upper_limit_ends_partial",
    "Verif.UpperLimit.C18_never_ends_fails",
    "Verif.UpperLimit.C18_poi_upper_limit_never_ends_fails"
   ],
   "note": "Holds for positive upper starting points, with logarithmic evaluation counts. False for hig_ini <= 0: multiplying by 5 never leaves the non-positive numbers, so poi_upper_limit(low_init=1, hig_init=0) never returns."
  },
  {
   "property": "C180",
   "status": "partial",
   "theorems": [
    "Verif.Toys.C180_gaussian",
    "Verif.Toys.C180_expected",
    "Verif.Toys.C180_count",
    "Verif.Toys.C180_expected_fails",
    "Verif.Toys.C180_bins"
   ],
   "note": "Convergence is shown for the observed level of Gaussian models and of counts in any number of independent bins, and for all expected levels of Gaussian models except where the deviation down exceeds the tested strength: there toys converge to zero, the formula does not (C180_expected_fails). The generator gives independent toys with the stated distribution; such generators are shown to exist (infinite products)."
  },
  {
   "property": "C181",
   "status": "proved",
   "theorems": [
    "Verif.Uncorrelated.C181_bins",
    "Verif.Uncorrelated.C181_strength",
    "Verif.Uncorrelated.C181_combination",
    "Verif.Uncorrelated.C181_limit",
    "Verif.Uncorrelated.C181_data",
    "Verif.Uncorrelated.C181_observed_fails"
   ],
   "note": "The last sentence of the statement is C181_observed_fails."
  },
  {
   "property": "C182",
   "status": "proved",
   "theorems": [
    "Verif.Toys.C182_excluded",
    "Verif.Toys.C182_low_fails",
    "Verif.Toys.C182_discovery",
    "Verif.Toys.C182_band",
    "Verif.Toys.C182_limit",
    "Verif.Toys.C182_counts"
   ],
   "note": "C182_low_fails shows that the condition on the confidence level is needed."
  },
  {
   "property": "C183",
   "status": "partial",
   "theorems": [
    "Verif.Override.C183_slots",
    "Verif.Override.C183_dict_partial",
    "Verif.Override.C183_lost_fails",
    "Verif.Override.C183_waits_fails",
    "Verif.Override.C183_deep_fails"
   ],
   "note": "Proved for objects without __dict__, and for those with one if super() never leads to a cached method (calls through the base class are fine). False otherwise: the override is skipped from the second call on, or waits for itself forever, or recurses without end."
  },
  {
   "property": "C184",
   "status": "partial",
   "theorems": [
    "Verif.Interval.C184_interval_partial",
    "Verif.Interval.C184_bound_fails",
    "Verif.Interval.C184_right",
    "Verif.Interval.C184_coverage",
    "Verif.Interval.C184_sound"
   ],
   "note": "chi2_test end to end (fits, uncertainty, search) on the Gaussian models, for all data: the two-sided interval is estimate ± z σ up to the tolerance of the root finder, for estimates up to 10 in the physical range; above 10 it is proved to be too wide. Upper end with limit_type right; coverage of the two-sided interval. These are for n_scan=3 (the default); C184_sound: for any n_scan, number of starts and side, whatever is returned is nan, a limit of the search, or an end of the interval. The profile is evaluated in the state after sigma_mu (see the comment of the model)."
  },
  {
   "property": "C185",
   "status": "proved",
   "theorems": [
    "Verif.Uncorrelated.C185_sigma",
    "Verif.Uncorrelated.C185_limit"
   ],
   "note": "C185_sigma: the uncertainty from the Hessian of `default.poisson`. C185_limit: limits without starting points (`low_init=None`, `hig_init=None`); the information is assumed to be at least 1e-9, so that the second starting point is below 1e5."
  },
  {
   "property": "C186",
   "status": "proved",
   "theorems": [
    "Verif.Interval.C186_value",
    "Verif.Interval.C186_found"
   ],
   "note": "C186_value: soundness for all sizes of the scan. C186_found: completeness for the default number of points and the first window; that `sigma_mu` is a positive number is a hypothesis (proved for counts in C185). Both assume that the fitted strength is not limited by the bound 10."
  },
  {
   "property": "C187",
   "status": "proved",
   "theorems": [
    "Verif.Nuisance.C187_crossings",
    "Verif.Nuisance.C187_interval"
   ],
   "note": "Exact global minimisers that respect the constraints; the Gaussian case needs the interval inside the first scan, and the scan inside the suggested bounds"
  },
  {
   "property": "C188",
   "status": "proved",
   "theorems": [
    "Verif.Nuisance.C188_crossings",
    "Verif.Nuisance.C188_interval"
   ],
   "note": "Fits that find global minima; the Gaussian case without lower limit of the signal strength (minimum_poi = -inf)."
  },
  {
   "property": "C189",
   "status": "proved",
   "theorems": [
    "Verif.Interval.C189_sigma",
    "Verif.Interval.C189_interval",
    "Verif.Interval.C189_sound"
   ],
   "note": "Weighted means that the fit allows. C189_interval is for the default number of points of the scan, C189_sound for all."
  },
  {
   "property": "C19",
   "status": "partial",
   "theorems": [
    "Verif.UpperLimit.C19_finite_limit",
    "Verif.UpperLimit.C19_level_attained",
    "Verif.UpperLimit.C19_limit_exists",
    "Verif.UpperLimit.C19_start_on_the_limit_fails",
    "Verif.UpperLimit.C19_positive",
    "Verif.UpperLimit.C19_limit_exists_start"
   ],
   "note": "Finite limits are crossings up to the root finder tolerance, shapes are as documented. False in one corner: equal starting points exactly on the limit make the root finder raise."
  },
  {
   "property": "C190",
   "status": "partial",
   "theorems": [
    "Verif.Decorate.C190_methods",
    "Verif.Decorate.C190_functions_partial",
    "Verif.Decorate.C190_equal_objects_fails",
    "Verif.Decorate.C190_self_function_fails"
   ],
   "note": "Proved for methods. Functions with a shared cache need tokens that tell objects apart (C190_equal_objects_fails); functions outside classes whose first parameter is named self are not callable (C190_self_function_fails)."
  },
  {
   "property": "C191",
   "status": "proved",
   "theorems": [
    "Verif.Memo.C191_sessions",
    "Verif.Memo.C191_code"
   ],
   "note": "For minimisers that do not depend on the starting point (otherwise C173_start_fails). C191_code has the keys of the code, for calls of maximize_likelihood by the user whose fixed_poi_value is not a dictionary with several entries (otherwise C177_order_fails)."
  },
  {
   "property": "C192",
   "status": "partial",
   "theorems": [
    "Verif.Combiner.C192_last",
    "Verif.Combiner.C192_own_partial",
    "Verif.Combiner.C192_renamed_fails"
   ],
   "note": "Holds for histories without assignments to analysis (C192_own_partial). After an assignment that makes two names equal the members with that name are evaluated with the Asimov data of the last of them (C192_last for all lists of models), so the full statement is false (C192_renamed_fails)."
  },
  {
   "property": "C193",
   "status": "proved",
   "theorems": [
    "Verif.Joint.C193_excluded",
    "Verif.Joint.C193_discovery",
    "Verif.Interval.C193_interval",
    "Verif.Joint.C193_limit",
    "Verif.Joint.C193_low_fails",
    "Verif.Joint.C193_band"
   ],
   "note": "Together: independent normal data of every model with its own covariance matrix and a common strength. The weighted mean of the estimates is normal around the strength (Together.strength). C193_interval is the statement for chi2_test in the conditions of C189_interval."
  },
  {
   "property": "C194",
   "status": "proved",
   "theorems": [
    "Verif.Joint.C194_expected",
    "Verif.Joint.C194_discovery",
    "Verif.Joint.C194_observed_fails",
    "Verif.Joint.C194_limit"
   ],
   "note": "Expected levels and p-values are compared entry by entry, strictly. C194_observed_fails is the witness that observed levels may fall."
  },
  {
   "property": "C20",
   "status": "proved",
   "theorems": [
    "Verif.UpperLimit.C20_no_signal"
   ],
   "note": "For every backend, solver and starting point."
  },
  {
   "property": "C21",
   "status": "proved",
   "theorems": [
    "Verif.UpperLimit.C21_bands_ascending",
    "Verif.UpperLimit.C21_nominal_in_the_middle"
   ],
   "note": "For levels that grow with mu and are not above the confidence level at 1e-10; up to the root finder tolerance."
  },
  {
   "property": "C22",
   "status": "proved",
   "theorems": [
    "Verif.Chi2.C22_crossings",
    "Verif.Chi2.C22_nan_in_interval_fails",
    "Verif.Chi2.C22_left_above_minimum_fails"
   ],
   "note": "Proved for the values found by the scan, for every profile, scan size and tolerance. The fallback used when the scan finds nothing can return nan, and a left limit above the minimum: both with a concrete profile."
  },
  {
   "property": "C23",
   "status": "partial",
   "theorems": [
    "Verif.Chi2.C23_scan_complete_partial",
    "Verif.Chi2.C23_two_sided_partial",
    "Verif.Chi2.C23_default_at_most_two",
    "Verif.Chi2.C23_every_crossing_fails",
    "Verif.Chi2.C23_windows"
   ],
   "note": "Complete for profiles that the scan grid resolves. False in general: with the default of three scan points at most two values are returned, and a continuous profile has four crossings in the window."
  },
  {
   "property": "C24",
   "status": "partial",
   "theorems": [
    "Verif.Chi2.C24_anchor",
    "Verif.Chi2.C24_below_scanned_partial",
    "Verif.Chi2.C24_nan_minimum_is_kept_fails"
   ],
   "note": "Proved for fitted minima that are numbers. A nan minimum is never replaced."
  },
  {
   "property": "C25",
   "status": "partial",
   "theorems": [
    "Verif.Config.C25_contains_partial",
    "Verif.Config.C25_no_value",
    "Verif.Config.C25_contains_fails"
   ],
   "note": "Proved for values not below the least signal strength (strict except at zero). False at zero with suggested bounds (0, 10) and below the least signal strength."
  },
  {
   "property": "C26",
   "status": "partial",
   "theorems": [
    "Verif.Config.C26_contains_partial",
    "Verif.Config.C26_succeeds",
    "Verif.Config.C26_proper_fails"
   ],
   "note": "Proved for values that are not negative or not below the least signal strength. A nuisance parameter fixed at -6 with bounds (-5, 5) gets the bounds (-1, -5)."
  },
  {
   "property": "C27",
   "status": "partial",
   "theorems": [
    "Verif.Config.C27_rename_partial",
    "Verif.Config.C27_rename_fails"
   ],
   "note": "Proved for new names that are not in use. Exchanging names does nothing, names in use can be duplicated, and a failing call leaves a half-renamed list."
  },
  {
   "property": "C28",
   "status": "partial",
   "theorems": [
    "Verif.Config.C28_resolve",
    "Verif.Config.C28_resolve_value",
    "Verif.Config.C28_resolve_rejects",
    "Verif.Config.C28_resolve_error",
    "Verif.Config.C28_parameter_partial",
    "Verif.Config.C28_poi_by_name_fails"
   ],
   "note": "Everything except that resolve_parameter_index accepts the name of the parameter of interest."
  },
  {
   "property": "C29",
   "status": "partial",
   "theorems": [
    "Verif.Config.C29_rescale_partial",
    "Verif.Config.C29_default_fails"
   ],
   "note": "Proved when an upper bound other than zero is given; otherwise the result contains the old pair instead of a number."
  },
  {
   "property": "C30",
   "status": "proved",
   "theorems": [
    "Verif.Optimizer.C30_validate"
   ],
   "note": "Result of option validation for all option lists and user dictionaries; a mandatory option that is also listed for removal would be dropped, which no shipped interface does."
  },
  {
   "property": "C31",
   "status": "partial",
   "theorems": [
    "Verif.Optimizer.C31_fit_partial",
    "Verif.Optimizer.C31_scipy_partial",
    "Verif.Optimizer.C31_scipy_keeps",
    "Verif.Optimizer.C31_fixed_not_kept_fails"
   ],
   "note": "For every minimiser that keeps masked parameters, fit returns the requested values. scipy keeps them when the last trial is successful and the method takes constraints into account; otherwise the claim is false (proved)."
  },
  {
   "property": "C32",
   "status": "partial",
   "theorems": [
    "Verif.Optimizer.C32_inputs_partial",
    "Verif.Optimizer.C32_inputs_changed_fails"
   ],
   "note": "False as stated: the caller's initial values or the configuration's suggested_init are overwritten at fixed indices. Proved: nothing else changes, and nothing at all without fixed values."
  },
  {
   "property": "C33",
   "status": "partial",
   "theorems": [
    "Verif.Optimizer.C33_retries_partial",
    "Verif.Optimizer.C33_region_lost_fails"
   ],
   "note": "Number of trials, chaining and result proved for all inputs; the search region only grows when no upper bound is negative; false for negative upper bounds, and a missing bound raises TypeError."
  },
  {
   "property": "C34",
   "status": "partial",
   "theorems": [
    "Verif.Combiner.C34_names_distinct_partial",
    "Verif.Combiner.C34_operations",
    "Verif.Combiner.C34_insertion_order",
    "Verif.Combiner.C34_renaming_fails"
   ],
   "note": "Proved for all histories of creation, append, remove and @. False when the attribute analysis of a member is assigned to (proved)."
  },
  {
   "property": "C35",
   "status": "proved",
   "theorems": [
    "Verif.Combiner.C35_product",
    "Verif.Combiner.C35_order_and_nan",
    "Verif.Combiner.C35_asimov",
    "Verif.Combiner.C35_maximize",
    "Verif.Combiner.C35_exceptions_depend_on_order_fails"
   ],
   "note": "Sum/product, order independence, nan and the routing of data and options proved whenever the individual values exist. Exceptions other than NegativeExpectedYields do depend on the order (proved)."
  },
  {
   "property": "C36",
   "status": "proved",
   "theorems": [
    "Verif.Combiner.C36_minimum_poi",
    "Verif.Combiner.C36_empty"
   ],
   "note": "For all non-empty combinations without nan minima; an empty combination raises ValueError."
  },
  {
   "property": "C37",
   "status": "partial",
   "theorems": [
    "Verif.Combiner.C37_find_most_sensitive_fails",
    "Verif.Combiner.C37_position_partial"
   ],
   "note": "False of every combination: the call always raises. The computed position is right (proved)."
  },
  {
   "property": "C38",
   "status": "partial",
   "theorems": [
    "Verif.Combiner.C38_lookup_partial",
    "Verif.Combiner.C38_index_error_fails"
   ],
   "note": "Lookup by name, position and slice proved; positions below -len raise IndexError instead of AnalysisQueryError (proved)."
  },
  {
   "property": "C39",
   "status": "proved",
   "theorems": [
    "Verif.Combiner.C39_matmul",
    "Verif.Combiner.C39_independent"
   ],
   "note": "All operands, including later changes of the result; the number of toys of the left operand is not carried over (not modelled)."
  },
  {
   "property": "C40",
   "status": "partial",
   "theorems": [
    "Verif.Combiner.C40_start_partial",
    "Verif.Combiner.C40_start_fails"
   ],
   "note": "Weighted mean proved between the individual best fits; the start may lie below the lower bound or be nan (proved)."
  },
  {
   "property": "C41",
   "status": "partial",
   "theorems": [
    "Verif.Registry.C41_all_or_nothing",
    "Verif.Registry.C41_exceptions",
    "Verif.Registry.C41_history",
    "Verif.Registry.C41_stays",
    "Verif.Registry.C41_replaced_by_scan_fails"
   ],
   "note": "register_backend is all-or-nothing and accepts exactly the admissible classes; every class in the registry was admitted under its name. Not true: reset_backend_entries may replace a registered class by an entry point of the same name."
  },
  {
   "property": "C42",
   "status": "partial",
   "theorems": [
    "Verif.Registry.C42_registered_not_usable_fails",
    "Verif.Registry.C42_installed_usable_partial"
   ],
   "note": "False of the code: for every registered class without a method load of its own, get_backend and get_backend_metadata raise AttributeError. True for installed entry points."
  },
  {
   "property": "C43",
   "status": "partial",
   "theorems": [
    "Verif.Registry.C43_only_compatible",
    "Verif.Registry.C43_refusals",
    "Verif.Registry.C43_refused_names_class_fails"
   ],
   "note": "All refusals proved; a refused call may however set the name of the class."
  },
  {
   "property": "C44",
   "status": "partial",
   "theorems": [
    "Verif.Helpers.C44_entries",
    "Verif.Helpers.C44_correlations",
    "Verif.Helpers.C44_inverse",
    "Verif.Helpers.C44_zero_variance_fails"
   ],
   "note": "Proved for positive variances; a bin without variance makes its row nan."
  },
  {
   "property": "C45",
   "status": "partial",
   "theorems": [
    "Verif.Helpers.C45_succeeds",
    "Verif.Helpers.C45_bins",
    "Verif.Helpers.C45_totals",
    "Verif.Helpers.C45_conserved_partial",
    "Verif.Helpers.C45_overlap_accepted_fails",
    "Verif.Helpers.C45_negative_index_fails"
   ],
   "note": "Conservation proved for disjoint groups of non-negative indices, and exact accounting for all groupings. Overlapping groups are not rejected by the code."
  },
  {
   "property": "C46",
   "status": "proved",
   "theorems": [
    "Verif.Helpers.C46_covariance",
    "Verif.Helpers.C46_correlations"
   ],
   "note": ""
  },
  {
   "property": "C47",
   "status": "proved",
   "theorems": [
    "Verif.Synth.C47_layout",
    "Verif.Synth.C47_append",
    "Verif.Synth.C47_accepted",
    "Verif.Synth.C47_names_fails",
    "Verif.Synth.C47_names_partial"
   ],
   "note": "The names of the parameters are not part of the property; they can clash (C47_names_fails)."
  },
  {
   "property": "C48",
   "status": "partial",
   "theorems": [
    "Verif.Synth.C48_product",
    "Verif.Synth.C48_positive_monotone",
    "Verif.Synth.C48_at_zero",
    "Verif.Synth.C48_own_parameters",
    "Verif.Synth.C48_no_signal",
    "Verif.Synth.C48_one_sigma",
    "Verif.Synth.C48_infinite_fails",
    "Verif.Synth.C48_nan"
   ],
   "note": "Proved for finite uncertainties; an infinite uncertainty is not replaced and makes the factor nan. At -1 the factor is the inverse of the relative lower variation."
  },
  {
   "property": "C49",
   "status": "proved",
   "theorems": [
    "Verif.ThirdMoment.C49_moments",
    "Verif.ThirdMoment.C49_symmetric",
    "Verif.ThirdMoment.C49_correlation_symmetric",
    "Verif.ThirdMoment.C49_covariance_partial",
    "Verif.ThirdMoment.C49_unit_diagonal_fails",
    "Verif.ThirdMoment.C49_covariance_fails"
   ],
   "note": "The property as stated is proved, with the moments as integrals over the normal distribution. Beyond it: the correlation matrix reproduces covariances only up to the regularisation and not for a negative discriminant, and its diagonal is below 1."
  },
  {
   "property": "C50",
   "status": "partial",
   "theorems": [
    "Verif.Backend.C50_width",
    "Verif.Backend.C50_symmetric",
    "Verif.Backend.C50_small_fails",
    "Verif.Backend.C50_vanishes",
    "Verif.Backend.C50_one_sigma_fails"
   ],
   "note": "The width formula and its values are proved as a function of the nuisance parameter, with the cut-off 1e-5. The claim fails as physics: the nuisance parameter has mean zero, but the background is subtracted from it, so that the width is 1e-5 for backgrounds larger than about up*dn/(up-dn)."
  },
  {
   "property": "C51",
   "status": "partial",
   "theorems": [
    "Verif.Backend.C51_sizes",
    "Verif.Backend.C51_partition",
    "Verif.Backend.C51_rate",
    "Verif.Backend.C51_simple_rate",
    "Verif.Backend.C51_mismatch_fails",
    "Verif.Backend.C51_bounds_names"
   ],
   "note": "Proved for all seven models when background and signal have one entry per observation. Nothing in the code checks this for the data: C51_mismatch_fails."
  },
  {
   "property": "C52",
   "status": "partial",
   "theorems": [
    "Verif.Backend.C52_minimum",
    "Verif.Backend.C52_function",
    "Verif.Backend.C52_rates_partial",
    "Verif.Backend.C52_negative_signal_fails",
    "Verif.Backend.C52_modifiers_fails"
   ],
   "note": "minimum_poi is proved to be the smallest value for bins with non-negative signal and background. Fails for bins with negative signal and when signal uncertainties enlarge the signal."
  },
  {
   "property": "C53",
   "status": "proved",
   "theorems": [
    "Verif.Backend.C53_loglik_uncorrelated",
    "Verif.Backend.C53_loglik_matrix",
    "Verif.Backend.C53_loglik_gaussian",
    "Verif.Backend.C53_loglik_multivariate",
    "Verif.Backend.C53_order",
    "Verif.Backend.C53_split",
    "Verif.Backend.C53_grouping",
    "Verif.Backend.C53_expected_data",
    "Verif.Backend.C53_loglik_common",
    "Verif.Backend.C53_expected_simple"
   ],
   "note": "gammaln, matrix inverse and log-determinant are external functions; the theorems use of them only what their hypotheses say."
  },
  {
   "property": "C54",
   "status": "partial",
   "theorems": [
    "Verif.Backend.C54_rate_fails",
    "Verif.Backend.C54_small_uncertainty_partial"
   ],
   "note": "The registered expression is b + theta*b instead of b + theta*sigma. Holds only for uncertainties not above the background."
  },
  {
   "property": "C55",
   "status": "partial",
   "theorems": [
    "Verif.Interface.C55_fails",
    "Verif.Interface.C55_overrides_partial",
    "Verif.Interface.C55_listed",
    "Verif.Interface.C55_exact"
   ],
   "note": "False: a bound method is compared with a function of the base class, so the calculators are available for every backend. Proved: classes that override the methods have the calculators; the list is always the same."
  },
  {
   "property": "C56",
   "status": "partial",
   "theorems": [
    "Verif.Interface.C56_default",
    "Verif.Interface.C56_grows_fails",
    "Verif.Interface.C56_same_set_partial",
    "Verif.Interface.C56_loop",
    "Verif.Interface.C56_same_list_fails"
   ],
   "note": "False when the caller passes a list: it grows by the constraints of the backend in every call, and never ends if it is the backend's own list. Proved: holds without caller's list; the set of constraints stays right."
  },
  {
   "property": "C57",
   "status": "proved",
   "theorems": [
    "Verif.Interface.C57_unknown",
    "Verif.Interface.C57_product",
    "Verif.Interface.C57_meaning",
    "Verif.Interface.C57_variants"
   ],
   "note": "excluded_cross_section uses one nominal limit for every expectation, so there is one entry."
  },
  {
   "property": "C58",
   "status": "partial",
   "theorems": [
    "Verif.Interface.C58_scale",
    "Verif.Interface.C58_hook_fails"
   ],
   "note": "Proved for backends without own likelihood routines; false for backends with such routines, which are not told about return_nll."
  },
  {
   "property": "C59",
   "status": "proved",
   "theorems": [
    "Verif.Backend.C59_data",
    "Verif.Backend.C59_differs"
   ],
   "note": "For the log-likelihood, the objective, its gradient and the Hessians of all seven models."
  },
  {
   "property": "C60",
   "status": "partial",
   "theorems": [
    "Verif.Expectation.C60_compare",
    "Verif.Expectation.C60_distinct",
    "Verif.Expectation.C60_names",
    "Verif.Expectation.C60_dict",
    "Verif.Expectation.C60_bool_fails"
   ],
   "note": "Comparison is characterised for every value; members and names agree with hashes. Booleans equal a member but have other hashes, so the last clause fails for them."
  },
  {
   "property": "C61",
   "status": "partial",
   "theorems": [
    "Verif.Contour.C61_level_partial",
    "Verif.Contour.C61_level_fails",
    "Verif.Contour.C61_coverage_fails",
    "Verif.Contour.C61_two_fails"
   ],
   "note": "False of the code: the level is NLL_min + Delta, not NLL_min + Delta/2 as documented, so contours have too large a confidence level (for two parameters 1-(1-CL)^2). Proved for every result of the modelled find_contour."
  },
  {
   "property": "C62",
   "status": "partial",
   "theorems": [
    "Verif.Contour.C62_ray",
    "Verif.Contour.C62_radial_partial",
    "Verif.Contour.C62_gap_partial",
    "Verif.Contour.C62_walk_partial",
    "Verif.Contour.C62_find_partial",
    "Verif.Contour.C62_start_fails",
    "Verif.Contour.C62_nan_fails",
    "Verif.Contour.C62_anchor_fails",
    "Verif.Contour.C62_bracket_fails"
   ],
   "note": "False of the code in four ways (primary fit ignores the bounds of the user, reversed bracket, first point of a walk unchecked, nan). Where it holds, proved for the whole result; missing are these cases."
  },
  {
   "property": "C63",
   "status": "proved",
   "theorems": [
    "Verif.Contour.C63_project",
    "Verif.Contour.C63_fixed",
    "Verif.Contour.C63_affine",
    "Verif.Contour.C63_tangent",
    "Verif.Contour.C63_position",
    "Verif.Contour.C63_momentum"
   ],
   "note": "Over exact reals; nan is a separate value."
  },
  {
   "property": "C64",
   "status": "proved",
   "theorems": [
    "Verif.Contour.C64_sorted",
    "Verif.Contour.C64_apart",
    "Verif.Contour.C64_candidate",
    "Verif.Contour.C64_covers",
    "Verif.Contour.C64_best",
    "Verif.Contour.C64_starts",
    "Verif.Contour.C64_inside"
   ],
   "note": "The minimiser is a parameter."
  },
  {
   "property": "C65",
   "status": "proved",
   "theorems": [
    "Verif.Contour.C65_pool",
    "Verif.Contour.C65_parallel",
    "Verif.Contour.C65_chains",
    "Verif.Contour.C65_find",
    "Verif.Contour.C65_seeds"
   ],
   "note": "Jobs are functions of their index and seed; side effects of a likelihood in the worker are not modelled."
  },
  {
   "property": "C66",
   "status": "partial",
   "theorems": [
    "Verif.Contour.C66_partition_partial",
    "Verif.Contour.C66_duplicates_fails",
    "Verif.Contour.C66_assemble",
    "Verif.Contour.C66_unique",
    "Verif.Contour.C66_insert",
    "Verif.Contour.C66_bounds",
    "Verif.Contour.C66_split",
    "Verif.Contour.C66_outside"
   ],
   "note": "False for an index given twice, which is accepted. Proved for all other selections."
  },
  {
   "property": "C67",
   "status": "partial",
   "theorems": [
    "Verif.Logger.C67_restored",
    "Verif.Logger.C67_any_body",
    "Verif.Logger.C67_once",
    "Verif.Logger.C67_exception_fails",
    "Verif.Logger.C67_exception_partial",
    "Verif.Logger.C67_level_zero_fails",
    "Verif.Logger.C67_added_handler_fails"
   ],
   "note": "Settings restored for every nesting and exception; each message once in order of first occurrence on normal exit. Captured messages are lost when the block is left by an exception; level 0 and handlers added inside are exceptions."
  },
  {
   "property": "C68",
   "status": "partial",
   "theorems": [
    "Verif.Web.C68_cached",
    "Verif.Web.C68_found",
    "Verif.Web.C68_once",
    "Verif.Web.C68_expires",
    "Verif.Web.C68_null_fails",
    "Verif.Web.C68_stale_fails"
   ],
   "note": "Holds for stored results other than JSON null with other files removable or earlier; fails for null and for an unremovable stale file with a later name."
  },
  {
   "property": "C69",
   "status": "partial",
   "theorems": [
    "Verif.Web.C69_race_fails",
    "Verif.Web.C69_last_partial",
    "Verif.Web.C69_same_name",
    "Verif.Web.C69_old_files"
   ],
   "note": "Two processes can delete each other's file. The file of a process that writes after all others have listed the directory survives every interleaving."
  },
  {
   "property": "C70",
   "status": "proved",
   "theorems": [
    "Verif.Backend.C70_objective",
    "Verif.Backend.C70_gradient",
    "Verif.Backend.C70_hessian",
    "Verif.Backend.C70_hessian_entries"
   ],
   "note": "autograd is taken to compute exact derivatives."
  },
  {
   "property": "C71",
   "status": "partial",
   "theorems": [
    "Verif.Stats.C71_asymptotic",
    "Verif.Stats.C71_chi_square_qtilde",
    "Verif.Stats.C71_chi_square_q_fails",
    "Verif.Stats.C71_divisor"
   ],
   "note": "False for chi_square with allow_negative_signal=True: the level never exceeds Phi(sqrt(ts_b)). The toy calculator is not covered (depends on the toys)."
  },
  {
   "property": "C72",
   "status": "partial",
   "theorems": [
    "Verif.Stats.C72_nan_not_excluded_partial",
    "Verif.Stats.C72_nan_not_excluded_fails"
   ],
   "note": "False for toys: a nan statistic gives exclusion level 1."
  },
  {
   "property": "C73",
   "status": "partial",
   "theorems": [
    "Verif.PerInstance.C73_dict_object_is_freed_partial",
    "Verif.PerInstance.C73_slots_object_is_freed_fails",
    "Verif.PerInstance.C73_entries_are_bounded_fails"
   ],
   "note": "Holds for objects with a __dict__; false for slots-only classes such as StatisticalModel (negation proved): the stored wrapper references the object, so it is never freed, the weak-reference cleanup never runs and the entries are unbounded."
  },
  {
   "property": "C74",
   "status": "partial",
   "theorems": [
    "Verif.UpperLimit.C74_strong_signal_reported_unbounded_fails",
    "Verif.UpperLimit.C74_infinite_means_not_excluded_partial"
   ],
   "note": "False for a signal excluded already at 1e-10: the answer is infinity. Holds when the level at 1e-10 is not above the confidence level."
  },
  {
   "property": "C75",
   "status": "proved",
   "theorems": [
    "Verif.Chi2.C75_ends"
   ],
   "note": "For the parameter of interest and for nuisance parameters with finite bounds."
  },
  {
   "property": "C76",
   "status": "partial",
   "theorems": [
    "Verif.ThirdMoment.C76_value",
    "Verif.ThirdMoment.C76_sign",
    "Verif.ThirdMoment.C76_central_fails"
   ],
   "note": "Closed form, sign and antisymmetry proved with quad taken as exact. The value is the moment about zero, not the central moment that the documentation names."
  },
  {
   "property": "C77",
   "status": "partial",
   "theorems": [
    "Verif.Backend.C77_modifiers_fails",
    "Verif.Backend.C77_sampler_partial"
   ],
   "note": "Fails for every model with signal uncertainties (IndexError), because the constraint terms get all parameters but the first. Random numbers are not modelled."
  },
  {
   "property": "C78",
   "status": "proved",
   "theorems": [
    "Verif.Backend.C78_positivity"
   ],
   "note": "All four simplified models."
  },
  {
   "property": "C79",
   "status": "partial",
   "theorems": [
    "Verif.Interface.C79_left_behind",
    "Verif.Interface.C79_history_fails",
    "Verif.Interface.C79_own_start_partial",
    "Verif.Interface.C79_asimov_start_fails",
    "Verif.Interface.C79_start_free_partial"
   ],
   "note": "False: fits with fixed POI overwrite the shared initial values, and the start of the second fit in Asimov maximisations. Proved: only the POI entry changes; queries with own initial values and start-independent minimisers are unaffected."
  },
  {
   "property": "C80",
   "status": "proved",
   "theorems": [
    "Verif.Interface.C80_data",
    "Verif.Interface.C80_profiled",
    "Verif.Interface.C80_queries",
    "Verif.Interface.C80_nonnegative"
   ],
   "note": "Minimiser contracts as hypotheses."
  },
  {
   "property": "C81",
   "status": "proved",
   "theorems": [
    "Verif.Interface.C81_shortcut",
    "Verif.Interface.C81_value"
   ],
   "note": ""
  },
  {
   "property": "C82",
   "status": "proved",
   "theorems": [
    "Verif.Interface.C82_estimates",
    "Verif.Interface.C82_poi",
    "Verif.Interface.C82_errors"
   ],
   "note": ""
  },
  {
   "property": "C83",
   "status": "proved",
   "theorems": [
    "Verif.Interface.C83_sigma",
    "Verif.Interface.C83_unavailable",
    "Verif.Interface.C83_variance_fails"
   ],
   "note": "C83_variance_fails records that the docstring calls the result a variance."
  },
  {
   "property": "C84",
   "status": "partial",
   "theorems": [
    "Verif.Interface.C84_combine",
    "Verif.Interface.C84_cross_section_fails",
    "Verif.Interface.C84_toys_fails"
   ],
   "note": "False for cross section and number of toys, which are dropped."
  },
  {
   "property": "C85",
   "status": "partial",
   "theorems": [
    "Verif.Interface.C85_priority",
    "Verif.Interface.C85_parabola_partial",
    "Verif.Interface.C85_distance_fails",
    "Verif.Interface.C85_default_fails",
    "Verif.Interface.C85_discovery_fails"
   ],
   "note": "False: mu instead of |mu - mu'| in the numerator. Proved for Asimov data with best fit zero."
  },
  {
   "property": "C86",
   "status": "proved",
   "theorems": [
    "Verif.Interface.C86_profile",
    "Verif.Interface.C86_maximum",
    "Verif.Interface.C86_ratio"
   ],
   "note": "Global minimiser as hypothesis; configuration without suggested fixed parameters."
  },
  {
   "property": "C87",
   "status": "partial",
   "theorems": [
    "Verif.Backend.C87_poi_bounds_partial",
    "Verif.Backend.C87_negative_fails"
   ],
   "note": "Upper bound and non-negative signals as requested; with another upper bound than 10, negative signals are refused although allowed (proved with a witness)."
  },
  {
   "property": "C88",
   "status": "partial",
   "theorems": [
    "Verif.Logger.C88_init_fails",
    "Verif.Logger.C88_init_partial",
    "Verif.Logger.C88_root_fails"
   ],
   "note": "init removes only every second handler (list changed while iterating) and adds a root handler per call; holds for at most one handler."
  },
  {
   "property": "C89",
   "status": "partial",
   "theorems": [
    "Verif.Expectation.C89_limit_fails",
    "Verif.Expectation.C89_limit_partial"
   ],
   "note": "The code compares with == in one place and with is in another: the name \"observed\" raises IndexError; holds for the expected limits."
  },
  {
   "property": "C90",
   "status": "partial",
   "theorems": [
    "Verif.Web.C90_status_fails",
    "Verif.Web.C90_failed_partial"
   ],
   "note": "The status is not looked at: an error page in JSON is stored for a day."
  },
  {
   "property": "C91",
   "status": "partial",
   "theorems": [
    "Verif.Contour.C91_radial",
    "Verif.Contour.C91_chain_partial",
    "Verif.Contour.C91_chain_fails"
   ],
   "note": "False on chains: a projection that has not converged is returned as a contour point. On rays proved for continuous functions under the contract of Brent's method."
  },
  {
   "property": "C92",
   "status": "proved",
   "theorems": [
    "Verif.Contour.C92_coverage",
    "Verif.Contour.C92_gaps",
    "Verif.Contour.C92_none",
    "Verif.Contour.C92_candidates",
    "Verif.Contour.C92_nearest",
    "Verif.Contour.C92_starts"
   ],
   "note": "Under the contract of argsort."
  },
  {
   "property": "C93",
   "status": "partial",
   "theorems": [
    "Verif.Contour.C93_seeds_partial",
    "Verif.Contour.C93_zero_fails",
    "Verif.Contour.C93_nan_fails",
    "Verif.Contour.C93_distance",
    "Verif.Contour.C93_few"
   ],
   "note": "False for no seeds ([-0:] is the whole list) and when a point is nan (ValueError)."
  },
  {
   "property": "C94",
   "status": "partial",
   "theorems": [
    "Verif.Contour.C94_sphere",
    "Verif.Contour.C94_regular",
    "Verif.Contour.C94_floor",
    "Verif.Contour.C94_profiled",
    "Verif.Contour.C94_identity",
    "Verif.Contour.C94_docs_fails",
    "Verif.Contour.C94_eigh_fails",
    "Verif.Contour.C94_block"
   ],
   "note": "The documented inverse phi = L(theta - anchor) is false (L^T is right), and a failing eigh is not caught. The rest is proved under the contracts of eigh and cholesky."
  },
  {
   "property": "C95",
   "status": "partial",
   "theorems": [
    "Verif.Contour.C95_found_partial",
    "Verif.Contour.C95_none",
    "Verif.Contour.C95_missed_fails",
    "Verif.Contour.C95_above",
    "Verif.Contour.C95_raises"
   ],
   "note": "False: a crossing between the radii looked at is missed. Found whenever the function is below the level at 1e-8 and above it at the largest radius."
  },
  {
   "property": "C96",
   "status": "partial",
   "theorems": [
    "Verif.Contour.C96_profile_partial",
    "Verif.Contour.C96_problem",
    "Verif.Contour.C96_object_fails",
    "Verif.Contour.C96_failure_fails"
   ],
   "note": "False for constraints that are objects (TypeError) and when the inner minimiser fails."
  },
  {
   "property": "C97",
   "status": "proved",
   "theorems": [
    "Verif.Contour.C97_mask",
    "Verif.Contour.C97_minimum",
    "Verif.Contour.C97_active",
    "Verif.Contour.C97_count"
   ],
   "note": ""
  },
  {
   "property": "C98",
   "status": "proved",
   "theorems": [
    "Verif.Interface.C98_sampler",
    "Verif.Interface.C98_poi"
   ],
   "note": "The backend computes no likelihood itself; the POI agrees up to the tolerance of the minimiser. The fit is made before the sampler is looked for."
  },
  {
   "property": "C99",
   "status": "proved",
   "theorems": [
    "Verif.Interface.C99_antisymmetric",
    "Verif.Interface.C99_additive",
    "Verif.Interface.C99_model"
   ],
   "note": "Same keywords for both kinds of fits; answers independent of earlier queries, which holds for StatisticalModel with a minimiser that ignores the start (model_stateless)."
  }
 ]
}