{"id": "C01", "title": "A cached call only ever returns a value the function produced for that key", "statement": "Whatever calls, failures, evictions and cache_clear()s happen on however many threads, every value returned by a cached function for some arguments is a value that the undecorated function returned in a completed evaluation for arguments with the same cache key. In particular, for a deterministic function the cache is invisible: the call returns what the function would return.", "quantifier": "all numbers of threads, all interleavings of their lock sections, all call/clear histories, all maxsize values, all functions", "why_tests_cant": "A test runs a handful of interleavings of a handful of calls; provenance of every returned value is a claim over all schedules.", "anchors": ["src/spey/system/cache.py:cache_results.wrapper", "src/spey/system/cache.py:_PerInstanceCacheDescriptor._build_wrapper"]}
{"id": "C02", "title": "Each unique input is computed exactly once, also under contention", "statement": "While a key is being computed no other thread starts computing it, and after a successful computation it is not computed again (unless evicted or cleared).", "quantifier": "all interleavings of any number of threads, all histories, all maxsize values", "why_tests_cant": "The violation needs an eviction of an in-flight entry between two lock sections; tests cannot enumerate the schedules.", "anchors": ["src/spey/system/cache.py:cache_results.wrapper", "src/spey/system/cache.py:_PerInstanceCacheDescriptor._build_wrapper"]}
{"id": "C03", "title": "No caller of a cached function waits forever", "statement": "If every running computation eventually ends (returning or raising), every thread that waits for another thread's result is eventually woken: a waiting thread's event is set or is still going to be set by a live thread.", "quantifier": "all interleavings, with evictions and cache_clear() at any moment", "why_tests_cant": "A lost wake-up is a property of infinite runs and rare interleavings.", "anchors": ["src/spey/system/cache.py:cache_results.wrapper", "src/spey/system/cache.py:cache_results.cache_clear"]}
{"id": "C04", "title": "A failing computation leaves no trace and is retried", "statement": "When the function raises, the exception reaches the caller that ran it, no entry for the key stays behind, and the next call with that key (also a thread that was waiting) runs the function again.", "quantifier": "all histories and interleavings in which any subset of evaluations raise", "why_tests_cant": "Which evaluations fail and who waits at that time is unbounded.", "anchors": ["src/spey/system/cache.py:cache_results.wrapper"]}
{"id": "C05", "title": "The cache is a bounded FIFO map", "statement": "Used from one thread with maxsize=n>=0, the cache behaves as a map holding the n most recently inserted distinct keys, the oldest insertion being dropped first; hits do not change the order. On several threads the number of stored results never exceeds maxsize.", "quantifier": "all call sequences, all n (and None), all schedules for the bound", "why_tests_cant": "Eviction order over arbitrary histories is an induction over the history.", "anchors": ["src/spey/system/cache.py:cache_results.wrapper"]}
{"id": "C06", "title": "The cache's own bookkeeping never raises", "statement": "No call of a cached function fails because of the cache itself (missing event, key missing from the eviction queue, empty eviction queue); exceptions come from the function only.", "quantifier": "all interleavings, histories and maxsize values", "why_tests_cant": "Internal inconsistency shows only after particular interleavings.", "anchors": ["src/spey/system/cache.py:cache_results.wrapper", "src/spey/system/cache.py:_PerInstanceCacheDescriptor._build_wrapper"]}
{"id": "C07", "title": "Cache keys identify the arguments", "statement": "Two calls that bind the same values to the same parameters (positionally, by keyword in any order, or by default) have the same key; calls with different argument values have different keys.", "quantifier": "all argument values (nested lists, tuples, dicts, arrays, scalars) and call forms", "why_tests_cant": "The argument space is infinite; collisions are about pairs of arguments.", "anchors": ["src/spey/system/cache.py:_make_token", "src/spey/system/cache.py:_build_key"]}
{"id": "C08", "title": "Two instances never share cached results", "statement": "A cached method called on one object never returns or stores a result in the cache of another live object, whatever the call history and whether the class has a __dict__ or only __slots__.", "quantifier": "all sequences of object creations, deletions and calls on any number of instances", "why_tests_cant": "Identity reuse after deletion depends on the history.", "anchors": ["src/spey/system/cache.py:_PerInstanceCacheDescriptor.__get__", "src/spey/system/cache.py:_PerInstanceCacheDescriptor._get_fallback"]}
{"id": "C09", "title": "Test statistics are non-negative and vanish on the side that is not tested", "statement": "q_mu, q_mu_tilde, q_mu_left and q_0 are >= 0 for every likelihood; q_mu and q_mu_tilde are 0 when muhat > mu, q_mu_left is 0 when muhat < mu and q_0 is 0 when muhat < 0; the statistic is 0 at mu = muhat.", "quantifier": "all likelihood functions, all mu, muhat and maximum values (also inaccurate fits)", "why_tests_cant": "Likelihoods are arbitrary real functions.", "anchors": ["src/spey/hypothesis_testing/test_statistics.py:qmu", "src/spey/hypothesis_testing/test_statistics.py:qmu_tilde", "src/spey/hypothesis_testing/test_statistics.py:qmu_left", "src/spey/hypothesis_testing/test_statistics.py:q0"]}
{"id": "C10", "title": "q_mu_tilde is the capped profile likelihood ratio", "statement": "q_mu_tilde equals -2 log of the ratio of the likelihood at mu to the likelihood at max(muhat, 0) for muhat <= mu, agrees with q_mu when muhat >= 0, and never exceeds q_mu when the reported maximum is a maximum.", "quantifier": "all likelihoods with their maximum at muhat, all mu", "why_tests_cant": "Same: a law over all likelihood functions.", "anchors": ["src/spey/hypothesis_testing/test_statistics.py:qmu_tilde", "src/spey/hypothesis_testing/test_statistics.py:qmu"]}
{"id": "C11", "title": "p-values are ordered probabilities", "statement": "For the asymptotic calculator CLsb and CLb lie in [0,1], CLsb <= CLb, CLs = CLsb/CLb lies in [CLsb, 1], both for observed and expected values.", "quantifier": "all values of the observed and Asimov test statistic", "why_tests_cant": "Real-valued inputs; extreme values hit division by 0.", "anchors": ["src/spey/hypothesis_testing/utils.py:pvalues", "src/spey/hypothesis_testing/utils.py:expected_pvalues", "src/spey/hypothesis_testing/distributions.py:AsymptoticTestStatisticsDistribution", "src/spey/hypothesis_testing/asymptotic_calculator.py:compute_asymptotic_confidence_level"]}
{"id": "C12", "title": "The expected p-value band is ordered", "statement": "The five expected CLs values, returned for n = -2..2 sigma fluctuations, are monotone: consecutive entries never decrease, and the same holds for CLsb and CLb.", "quantifier": "all values of the Asimov test statistic", "why_tests_cant": "Ordering for all reals.", "anchors": ["src/spey/hypothesis_testing/utils.py:expected_pvalues"]}
{"id": "C13", "title": "exclusion_confidence_level returns probabilities, in a fixed shape", "statement": "Every returned exclusion confidence level lies in [0,1]; observed and a-posteriori calls return one and five values as documented, and the five expected levels are monotone.", "quantifier": "all test statistics, expectations, calculators and likelihood values", "why_tests_cant": "Value range over all inputs including NaN branches.", "anchors": ["src/spey/base/hypotest_base.py:HypothesisTestingBase.exclusion_confidence_level"]}
{"id": "C14", "title": "A vanishing Asimov test statistic is reported, not divided by", "statement": "compute_teststatistics raises AsimovTestStatZero exactly when the formula would divide by sqrt(q_A)=0; callers turn this into p-value 1 (exclusion level 0) instead of crashing.", "quantifier": "all pairs (q, qA) and all test statistic names", "why_tests_cant": "Boundary condition over reals and names.", "anchors": ["src/spey/hypothesis_testing/test_statistics.py:compute_teststatistics", "src/spey/base/hypotest_base.py:HypothesisTestingBase.exclusion_confidence_level", "src/spey/hypothesis_testing/upper_limits.py:find_poi_upper_limit"]}
{"id": "C15", "title": "The teststatistic shift is continuous and monotone", "statement": "The quantity passed to the p-value computation for q_mu_tilde is continuous across the switch sqrt(q)=sqrt(qA), strictly increasing in q, so a larger observed statistic never gives a smaller exclusion level.", "quantifier": "all q, qA >= 0", "why_tests_cant": "Monotonicity over reals.", "anchors": ["src/spey/hypothesis_testing/test_statistics.py:compute_teststatistics"]}
{"id": "C16", "title": "Toy p-values are empirical tail fractions", "statement": "The toy p-value is the fraction of samples >= the observed value: in [0,1], 1 below the smallest sample, 0 above the largest, non-increasing in the value, invariant under reordering the samples.", "quantifier": "all sample lists and values", "why_tests_cant": "All lists.", "anchors": ["src/spey/hypothesis_testing/distributions.py:EmpiricTestStatisticsDistribution", "src/spey/hypothesis_testing/toy_calculator.py:compute_toy_confidence_level"]}
{"id": "C17", "title": "Unknown test statistics are rejected, known aliases agree", "statement": "get_test_statistic accepts exactly the documented names and aliases and raises UnknownTestStatistics for every other string.", "quantifier": "all strings", "why_tests_cant": "All strings.", "anchors": ["src/spey/hypothesis_testing/test_statistics.py:get_test_statistic"]}
{"id": "C18", "title": "Bracketing for the upper limit terminates and brackets", "statement": "find_root_limits stops after finitely many evaluations and its result satisfies: f(low) <= target or low reached the lower limit, f(high) >= target or high reached the upper limit.", "quantifier": "all functions f, all starting points", "why_tests_cant": "Loop termination for arbitrary functions.", "anchors": ["src/spey/hypothesis_testing/upper_limits.py:find_root_limits"]}
{"id": "C19", "title": "A finite upper limit is a point where the exclusion level equals the requested one", "statement": "When find_poi_upper_limit returns a finite number mu, 1-CLs(mu) equals the confidence level (up to the root finder's tolerance) for the requested band entry; infinity is returned only if no sign change was bracketed. The shape is 1/3/5 values for nominal/1sigma/2sigma.", "quantifier": "all likelihoods, confidence levels and starting points", "why_tests_cant": "Numerical search over arbitrary functions.", "anchors": ["src/spey/hypothesis_testing/upper_limits.py:find_poi_upper_limit", "src/spey/base/hypotest_base.py:HypothesisTestingBase.poi_upper_limit"]}
{"id": "C20", "title": "A model without signal has no upper limit", "statement": "If is_alive is false, poi_upper_limit returns infinity in the documented shape without evaluating the likelihood.", "quantifier": "all arguments", "why_tests_cant": "All argument combinations.", "anchors": ["src/spey/base/hypotest_base.py:HypothesisTestingBase.poi_upper_limit"]}
{"id": "C21", "title": "Upper-limit bands are ordered", "statement": "If the exclusion level grows with mu, the 1-sigma and 2-sigma expected limits are returned in ascending order and contain the nominal limit as the middle entry.", "quantifier": "all likelihoods with monotone CLs", "why_tests_cant": "Order of five numeric searches for all inputs.", "anchors": ["src/spey/hypothesis_testing/upper_limits.py:find_poi_upper_limit", "src/spey/hypothesis_testing/utils.py:expected_pvalues"]}
{"id": "C22", "title": "chi2_test returns genuine crossings in ascending order on the requested side", "statement": "Values found by the scan are roots of chi2(x)-threshold, ascending and distinct; 'left' gives values below the minimum, 'right' above, 'two-sided' at least one on each side.", "quantifier": "all profile functions, scan sizes and tolerances", "why_tests_cant": "All functions.", "anchors": ["src/spey/base/hypotest_base.py:HypothesisTestingBase.chi2_test", "src/spey/base/utils.py:_enumerate_crossings_1d"]}
{"id": "C23", "title": "chi2_test returns every crossing", "statement": "For a non-convex likelihood with disjoint confidence regions every crossing of the threshold in the search window is returned; the windows grow until both roots wanted are found or the limit of tries is reached.", "quantifier": "all continuous profile functions", "why_tests_cant": "A crossing can hide between scan points; only an argument over all functions settles it.", "anchors": ["src/spey/base/hypotest_base.py:HypothesisTestingBase.chi2_test", "src/spey/base/utils.py:_enumerate_crossings_1d"]}
{"id": "C24", "title": "Re-anchoring never makes the fit worse", "statement": "The re-anchored minimum used as reference of the interval is never larger than the fitted minimum nor (up to 1e-9) than any finite scanned value, and the reported position belongs to the reported value.", "quantifier": "all functions (with NaN/inf/exceptions), all windows and sample counts", "why_tests_cant": "All functions.", "anchors": ["src/spey/base/utils.py:_refine_global_min_1d"]}
{"id": "C25", "title": "Bounds for a fixed POI contain the tested value", "statement": "fixed_poi_bounds(poi) returns bounds whose POI interval strictly contains the tested value, keeps every other parameter's bounds, and does not alter the model configuration.", "quantifier": "all configurations and values, including values below minimum_poi and None bounds", "why_tests_cant": "All reals and all configurations.", "anchors": ["src/spey/base/model_config.py:ModelConfig.fixed_poi_bounds"]}
{"id": "C26", "title": "Bounds for several fixed parameters are valid intervals containing the values", "statement": "fixed_poi_bounds_multi returns for each fixed parameter an interval lo <= value <= hi, other parameters keep theirs.", "quantifier": "all dictionaries of indices to values", "why_tests_cant": "All maps.", "anchors": ["src/spey/base/model_config.py:ModelConfig.fixed_poi_bounds_multi"]}
{"id": "C27", "title": "Renaming parameters keeps names unique and renames simultaneously", "statement": "change_parameter_names maps each old name to its new name, keeps the list free of duplicates, and changes nothing when it raises.", "quantifier": "all name lists and rename maps", "why_tests_cant": "Permutation-type renames (swaps) are unbounded.", "anchors": ["src/spey/base/model_config.py:ModelConfig.change_parameter_names"]}
{"id": "C28", "title": "Parameter lookup by name or index is consistent", "statement": "resolve_poi_indices maps names to the position where the name stands and rejects unknown names; resolve_parameter_index returns only valid non-POI indices and rejects the POI, unknown names and out-of-range indices.", "quantifier": "all names lists, indices and dictionaries", "why_tests_cant": "All inputs.", "anchors": ["src/spey/base/model_config.py:ModelConfig.resolve_poi_indices", "src/spey/base/utils.py:resolve_parameter_index"]}
{"id": "C29", "title": "rescale_poi_bounds returns well-formed bounds", "statement": "rescale_poi_bounds keeps the number of parameters and every non-POI bound and yields a pair of numbers for the POI with the requested upper bound (or the existing one when omitted).", "quantifier": "all configurations, flags and upper bounds", "why_tests_cant": "All inputs including 0.0 and None.", "anchors": ["src/spey/base/model_config.py:ModelConfig.rescale_poi_bounds"]}
{"id": "C30", "title": "Optimiser options are filtered soundly", "statement": "Validated options contain only supported options, contain every mandatory one with the user's value, and validation fails exactly when a mandatory option is missing.", "quantifier": "all option dictionaries and option lists", "why_tests_cant": "All dictionaries.", "anchors": ["src/spey/optimizer/__init__.py:ValidateOpts"]}
{"id": "C31", "title": "A fit keeps the fixed parameters fixed", "statement": "With a contract-respecting minimiser, the parameters returned by fit have exactly the requested value at every fixed index, those fixed by the configuration keep their initial value, and the returned value is the objective there.", "quantifier": "all objectives, configurations, fixed sets and minimisers", "why_tests_cant": "All objectives and minimisers.", "anchors": ["src/spey/optimizer/core.py:fit", "src/spey/optimizer/scipy_tools.py:minimize"]}
{"id": "C32", "title": "A fit does not change its inputs", "statement": "Running a fit changes neither the caller's initial parameters nor the model configuration, so that repeated fits with the same arguments start from the same point.", "quantifier": "all call histories", "why_tests_cant": "History dependence shows only for particular sequences of calls.", "anchors": ["src/spey/optimizer/core.py:fit", "src/spey/interface/statistical_model.py:StatisticalModel.prepare_for_fit"]}
{"id": "C33", "title": "Fit retries are bounded and stop at the first success", "statement": "The minimiser is run at most max(ntrials,1) times, never after a success, and the search region only grows between trials.", "quantifier": "all outcome sequences, all bounds", "why_tests_cant": "All outcome sequences.", "anchors": ["src/spey/optimizer/scipy_tools.py:minimize"]}
{"id": "C34", "title": "Analyses in a combination have unique names", "statement": "After any sequence of append/remove operations on a combiner the names are pairwise distinct, failing operations change nothing, and the order is the insertion order.", "quantifier": "all operation sequences", "why_tests_cant": "All histories.", "anchors": ["src/spey/combiner/uncorrelated_statistics_combiner.py:UnCorrStatisticsCombiner.append", "src/spey/combiner/uncorrelated_statistics_combiner.py:UnCorrStatisticsCombiner.remove"]}
{"id": "C35", "title": "The joint likelihood is the product of the individual ones", "statement": "The combined NLL equals the sum of the individual NLLs for the given POI and data, does not depend on the order of the analyses, and return_nll=False gives exp of minus that; NaN of one analysis makes the result NaN.", "quantifier": "all lists of analyses and POI values", "why_tests_cant": "All lists and orders.", "anchors": ["src/spey/combiner/uncorrelated_statistics_combiner.py:UnCorrStatisticsCombiner.likelihood"]}
{"id": "C36", "title": "The combined minimum POI is feasible for every member", "statement": "minimum_poi of a combination is the largest individual minimum: every POI value above it is allowed in all analyses and no smaller bound has this property.", "quantifier": "all lists", "why_tests_cant": "All lists.", "anchors": ["src/spey/combiner/uncorrelated_statistics_combiner.py:UnCorrStatisticsCombiner.minimum_poi"]}
{"id": "C37", "title": "find_most_sensitive returns the analysis with the smallest expected limit", "statement": "find_most_sensitive returns a member with the minimal expected upper limit.", "quantifier": "all non-empty combinations", "why_tests_cant": "All lists of limits.", "anchors": ["src/spey/combiner/uncorrelated_statistics_combiner.py:UnCorrStatisticsCombiner.find_most_sensitive"]}
{"id": "C38", "title": "Looking up an analysis by name or position", "statement": "combiner[name] returns the unique member of that name, combiner[i] the i-th, anything else raises AnalysisQueryError.", "quantifier": "all combinations and keys", "why_tests_cant": "All keys (negative, huge, unknown).", "anchors": ["src/spey/combiner/uncorrelated_statistics_combiner.py:UnCorrStatisticsCombiner.__getitem__"]}
{"id": "C39", "title": "Combining does not modify the operands", "statement": "a @ b returns a combination with the members of a followed by those of b, leaves a and b unchanged, and fails on duplicate names.", "quantifier": "all pairs of combinations / models", "why_tests_cant": "All operands.", "anchors": ["src/spey/combiner/uncorrelated_statistics_combiner.py:UnCorrStatisticsCombiner.__matmul__"]}
{"id": "C40", "title": "The combined fit starts inside its bounds at a weighted mean", "statement": "The starting POI of the combined fit lies between the smallest and largest individual best fit, or is 0 if it could not be computed, and lies in the bounds used for the fit.", "quantifier": "all individual fits and uncertainties", "why_tests_cant": "All reals.", "anchors": ["src/spey/combiner/uncorrelated_statistics_combiner.py:UnCorrStatisticsCombiner.maximize_likelihood"]}
{"id": "C41", "title": "Backend registration validates and is all-or-nothing", "statement": "register_backend adds exactly the given backend under its name iff it is a concrete backend with the mandatory metadata, a free name and a compatible version; otherwise it raises and the registry is unchanged.", "quantifier": "all registration histories", "why_tests_cant": "All histories.", "anchors": ["src/spey/__init__.py:register_backend"]}
{"id": "C42", "title": "A registered backend can be used", "statement": "After register_backend(B) succeeded, get_backend(B.name) returns a wrapper around B and get_backend_metadata returns its metadata.", "quantifier": "all registries and backends", "why_tests_cant": "All histories.", "anchors": ["src/spey/__init__.py:get_backend", "src/spey/__init__.py:get_backend_metadata"]}
{"id": "C43", "title": "Unknown or incompatible backends are refused", "statement": "get_backend raises PluginError for names that are not registered and for an incompatible version, and AssertionError for an entry whose class carries another name; no wrapper around an incompatible or abstract backend is ever returned; a refused call changes nothing.", "quantifier": "all registries and names", "why_tests_cant": "All registries.", "anchors": ["src/spey/__init__.py:get_backend"]}
{"id": "C44", "title": "Covariance and correlation conversions are inverse", "statement": "covariance_to_correlation has unit diagonal and entries in [-1,1] for positive semi-definite input, and the two conversions are mutually inverse for positive standard deviations.", "quantifier": "all matrix sizes and entries", "why_tests_cant": "All matrices.", "anchors": ["src/spey/helper_functions.py:correlation_to_covariance", "src/spey/helper_functions.py:covariance_to_correlation"]}
{"id": "C45", "title": "Merging bins conserves yields and total covariance", "statement": "For disjoint groups merge_correlated_bins conserves the total data, background and signal and the sum of the covariance matrix, puts every original bin into exactly one new bin, and rejects overlapping groups.", "quantifier": "all bin numbers, groupings and matrices", "why_tests_cant": "All groupings.", "anchors": ["src/spey/helper_functions.py:merge_correlated_bins"]}
{"id": "C46", "title": "Merging bins keeps the covariance a covariance", "statement": "The merged covariance is symmetric and positive semi-definite whenever the input is; the merged correlations stay in [-1,1].", "quantifier": "all matrices and groupings", "why_tests_cant": "All matrices.", "anchors": ["src/spey/helper_functions.py:merge_correlated_bins"]}
{"id": "C47", "title": "Signal-uncertainty parameters occupy disjoint consecutive slots", "statement": "Each modifier gets its own block of nuisance parameters, the blocks are contiguous, start after all other parameters, do not overlap and are counted correctly.", "quantifier": "all lists of modifiers and bin numbers", "why_tests_cant": "All lists.", "anchors": ["src/spey/backends/default_pdf/uncertainty_synthesizer.py:signal_uncertainty_synthesizer"]}
{"id": "C48", "title": "Signal-uncertainty factors are positive, neutral at 0 and monotone", "statement": "The combined multiplicative factor is 1 when all nuisance parameters are 0, strictly positive, at least 1 for non-negative and at most 1 for non-positive parameters, equals the given up/down variations at +-1, and is 1 in bins without signal.", "quantifier": "all modifiers and parameter values", "why_tests_cant": "All reals and lists.", "anchors": ["src/spey/backends/default_pdf/uncertainty_synthesizer.py:signal_uncertainty_synthesizer", "src/spey/backends/default_pdf/uncertainty_synthesizer.py:_validate_delta"]}
{"id": "C49", "title": "The third moment expansion reproduces the moments", "statement": "The coefficients satisfy A+C = b, B^2+2C^2 = sigma^2 and 6 B^2 C + 8 C^3 = m3 whenever 8 sigma^6 >= m3^2, so that A + B theta + C theta^2 has the requested first three moments.", "quantifier": "all inputs in the validity region", "why_tests_cant": "Trigonometric identity over all reals.", "anchors": ["src/spey/backends/default_pdf/third_moment.py:third_moment_expansion"]}
{"id": "C50", "title": "Effective sigma reduces to the symmetric uncertainty", "statement": "With equal up and down uncertainties the effective sigma model has the constant width sigma, and in general sigma_eff is positive for all nuisance values, equals the geometric mean of the two at the central value and sigma+ (sigma-) at one upper (lower) uncertainty above (below) it.", "quantifier": "all uncertainties and nuisance values", "why_tests_cant": "All reals.", "anchors": ["src/spey/backends/default_pdf/__init__.py:EffectiveSigma"]}
{"id": "C51", "title": "Parameter vector layout is consistent", "statement": "For every default model the number of suggested initial values, bounds and names equals the number of parameters, and the slices used for POI, signal parameters, background nuisances and signal-uncertainty nuisances partition the vector.", "quantifier": "all numbers of bins, signal parameters and modifiers", "why_tests_cant": "All sizes.", "anchors": ["src/spey/backends/default_pdf/__init__.py:DefaultPDFBase"]}
{"id": "C52", "title": "Expected yields stay non-negative above minimum_poi", "statement": "For every POI value >= minimum_poi, mu*signal+background is non-negative in every bin with non-negative background; minimum_poi is the smallest such value; a model with no signal has minimum_poi -inf.", "quantifier": "all signal and background vectors", "why_tests_cant": "All vectors.", "anchors": ["src/spey/backends/default_pdf/__init__.py:DefaultPDFBase", "src/spey/backends/default_pdf/simple_pdf.py:SimplePDFBase"]}
{"id": "C53", "title": "The log-likelihood is main term plus constraint terms, independent of grouping", "statement": "The constraint log-probability is the sum over constraint terms, splitting or reordering the list of constraints does not change it, and the data vector of the Asimov set has one entry per main bin plus one per constraint entry.", "quantifier": "all constraint lists and parameters", "why_tests_cant": "All lists.", "anchors": ["src/spey/backends/distributions.py:ConstraintModel", "src/spey/backends/distributions.py:MainModel"]}
{"id": "C54", "title": "The Poisson positivity constraint implements the documented expression", "statement": "The optimiser constraint of default.poisson keeps the modelled rate (background + theta*sigma) non-negative.", "quantifier": "all yields, uncertainties and nuisance values", "why_tests_cant": "All reals.", "anchors": ["src/spey/backends/default_pdf/simple_pdf.py:Poisson"]}
{"id": "C55", "title": "Calculator availability reflects the backend", "statement": "is_asymptotic_calculator_available / is_toy_calculator_available are true exactly if the backend overrides the needed methods (expected_data, get_sampler).", "quantifier": "all backend classes", "why_tests_cant": "All classes.", "anchors": ["src/spey/interface/statistical_model.py:StatisticalModel.is_asymptotic_calculator_available", "src/spey/interface/statistical_model.py:StatisticalModel.is_toy_calculator_available"]}
{"id": "C56", "title": "Preparing a fit does not modify caller-supplied constraints", "statement": "prepare_for_fit leaves the caller's constraints list unchanged, so that repeated calls give the same constraints.", "quantifier": "all call histories", "why_tests_cant": "Growth appears only over repeated calls.", "anchors": ["src/spey/interface/statistical_model.py:StatisticalModel.prepare_for_fit"]}
{"id": "C57", "title": "The excluded cross section is limit times cross section", "statement": "excluded_cross_section equals poi_upper_limit*cross section (each of the five entries when expected), and raises UnknownCrossSection exactly when the cross section is not set.", "quantifier": "all models and expectations", "why_tests_cant": "All values.", "anchors": ["src/spey/interface/statistical_model.py:StatisticalModel.excluded_cross_section"]}
{"id": "C58", "title": "return_nll only changes the scale", "statement": "For every query likelihood(return_nll=False) = exp(-likelihood(return_nll=True)), for likelihood, maximise and Asimov variants, independent of the evaluation path.", "quantifier": "all models, POI values and paths", "why_tests_cant": "All inputs and dispatch paths.", "anchors": ["src/spey/interface/statistical_model.py:StatisticalModel.likelihood", "src/spey/interface/statistical_model.py:StatisticalModel.maximize_likelihood"]}
{"id": "C59", "title": "Expectation selects the data set", "statement": "With expected=apriori the background is used as data, with observed/aposteriori the observations, and explicitly passed data override both.", "quantifier": "all models, expectations, data", "why_tests_cant": "All inputs.", "anchors": ["src/spey/backends/default_pdf/simple_pdf.py:SimplePDFBase", "src/spey/backends/default_pdf/__init__.py:DefaultPDFBase"]}
{"id": "C60", "title": "Comparing expectation types is consistent", "statement": "ExpectationType equality is reflexive and symmetric on members and their names, agrees with the boolean convention, distinguishes the three members, and equal objects used as dict keys have equal hashes.", "quantifier": "all members, strings, bools, other values", "why_tests_cant": "All strings/values.", "anchors": ["src/spey/utils.py:ExpectationType"]}
{"id": "C61", "title": "The contour level is the documented one", "statement": "find_contour uses the level NLL_min + Delta/2 with Delta the chi-square quantile, so that contour points have chi2 = 2(NLL-NLL_min) = Delta.", "quantifier": "all models and confidence levels", "why_tests_cant": "All reals.", "anchors": ["src/spey/multiparameter/contour.py:find_contour"]}
{"id": "C62", "title": "Contour points respect the parameter bounds", "statement": "All returned contour points lie inside the given bounds.", "quantifier": "all bounds, likelihoods, random directions", "why_tests_cant": "All inputs and random streams.", "anchors": ["src/spey/multiparameter/contour.py:find_contour", "src/spey/multiparameter/contour.py:_radial_search", "src/spey/multiparameter/contour.py:_rattle_walk"]}
{"id": "C63", "title": "RATTLE moves stay tangent and project to the level set", "statement": "After a RATTLE step the momentum is orthogonal to the gradient; the projection returns a point within tolerance of the level unless the iteration limit or a vanishing gradient stops it; it leaves points already on the level unchanged.", "quantifier": "all functions, gradients, steps", "why_tests_cant": "All functions.", "anchors": ["src/spey/multiparameter/contour.py:_project_theta", "src/spey/multiparameter/contour.py:_rattle_step", "src/spey/multiparameter/contour.py:_rattle_walk"]}
{"id": "C64", "title": "Basin enumeration keeps the best minimum and separated representatives", "statement": "The list of basins is sorted by NLL, its first entry is the smallest value found, entries are pairwise at least the tolerance apart, and every candidate is within the tolerance of a kept entry with an NLL not larger.", "quantifier": "all candidate lists and tolerances", "why_tests_cant": "All lists.", "anchors": ["src/spey/multiparameter/contour.py:_find_basins_contour_subspace"]}
{"id": "C65", "title": "Contour results do not depend on the number of jobs", "statement": "With a fixed seed the trajectories are the same for every n_jobs and completion order, because every chain has its own seed drawn beforehand.", "quantifier": "all schedules of worker processes", "why_tests_cant": "Schedules.", "anchors": ["src/spey/multiparameter/contour.py:_run_hmc_chains"]}
{"id": "C66", "title": "Embedding contour parameters keeps every coordinate", "statement": "Contour, profile and POI indices partition the parameters, and the assembled full vector has each value at its own index, with the POI at 1.", "quantifier": "all index selections and parameter numbers", "why_tests_cant": "All selections.", "anchors": ["src/spey/multiparameter/contour.py:find_contour"]}
{"id": "C67", "title": "Log capture restores the logger and prints each message once", "statement": "After capture_logs (nested or left by an exception) the logger has the level, propagation and handlers it had before; inside, each distinct message above the level is written once, in first-occurrence order.", "quantifier": "all nesting structures, message sequences and exceptions", "why_tests_cant": "Nesting and exceptions are unbounded.", "anchors": ["src/spey/system/logger.py:capture_logs", "src/spey/system/logger.py:disable_logging"]}
{"id": "C68", "title": "The update check queries the network at most once per 24 hours", "statement": "After a successful query whose result could be stored, no further query is made within 24 hours; unreadable or corrupt cache files never make the check fail.", "quantifier": "all file-system states, crash points and times", "why_tests_cant": "File-system states and crash points.", "anchors": ["src/spey/system/webutils.py:_load_cached_pypi_info", "src/spey/system/webutils.py:_save_pypi_info", "src/spey/system/webutils.py:_get_pypi_info"]}
{"id": "C69", "title": "Concurrent update checks leave one cache file", "statement": "When several processes check for updates at the same time, one of the saved answers remains usable.", "quantifier": "all interleavings of two or more processes", "why_tests_cant": "Interleavings.", "anchors": ["src/spey/system/webutils.py:_save_pypi_info"]}
{"id": "C70", "title": "The objective handed to the minimiser is the negative log-likelihood", "statement": "The objective, its gradient and the Hessian used for the uncertainty are consistent: value = -logpdf, gradient = gradient of the value, hessian = hessian of the value.", "quantifier": "all log-densities and parameters", "why_tests_cant": "All functions.", "anchors": ["src/spey/math.py:value_and_grad", "src/spey/math.py:hessian", "src/spey/base/backend_base.py:BackendBase.get_objective_function"]}
{"id": "C71", "title": "Every calculator excludes hypotheses that the data rule out", "statement": "The observed exclusion level of a calculator comes arbitrarily close to 1 when the likelihood of the tested hypothesis drops further and further below the best fit, all else fixed.", "quantifier": "all likelihoods, calculators and both settings of allow_negative_signal", "why_tests_cant": "Limits over all likelihood values.", "anchors": ["src/spey/base/hypotest_base.py:HypothesisTestingBase.exclusion_confidence_level", "src/spey/hypothesis_testing/asymptotic_calculator.py:compute_asymptotic_confidence_level"]}
{"id": "C72", "title": "A likelihood that cannot be evaluated never excludes", "statement": "If the observed test statistic is nan, the reported observed exclusion level is 0 (no exclusion), for every calculator.", "quantifier": "all models, POI values and calculators", "why_tests_cant": "nan handling differs per path.", "anchors": ["src/spey/base/hypotest_base.py:HypothesisTestingBase.exclusion_confidence_level", "src/spey/hypothesis_testing/distributions.py:EmpricTestStatisticsDistribution"]}
{"id": "C73", "title": "Cached methods do not keep dropped objects in memory", "statement": "Once the user holds no reference to an object and nothing else does, the object and the results cached for it are freed, whether its class has a __dict__ or only __slots__; the number of entries kept for objects no longer in use is bounded.", "quantifier": "all histories of creations, cached calls, deletions and collections", "why_tests_cant": "Absence of a leak is a claim about every later history.", "anchors": ["src/spey/system/cache.py:_PerInstanceCacheDescriptor", "src/spey/interface/statistical_model.py:StatisticalModel"]}
{"id": "C74", "title": "An infinite upper limit means that no signal strength is excluded", "statement": "If poi_upper_limit returns infinity for a model with signal, the exclusion level stays below the confidence level over the whole search range (up to 1e5).", "quantifier": "all models, expectations, confidence levels and starting points", "why_tests_cant": "All likelihood functions.", "anchors": ["src/spey/hypothesis_testing/upper_limits.py:find_poi_upper_limit", "src/spey/base/hypotest_base.py:HypothesisTestingBase.poi_upper_limit"]}
{"id": "C75", "title": "chi2_test always ends", "statement": "The search of chi2_test comes to an end, with values or with an exception, for every profile, fitted value, standard deviation and bounds.", "quantifier": "all profile functions (with NaN/inf/exceptions), fitted values, standard deviations and parameter bounds", "why_tests_cant": "Non-termination shows only for particular profiles; tests cannot run all of them.", "anchors": ["src/spey/base/hypotest_base.py:HypothesisTestingBase.chi2_test", "src/spey/hypothesis_testing/upper_limits.py:bracket_and_solve"]}
{"id": "C76", "title": "Third moments from asymmetric uncertainties have the closed form of the bifurcated Gaussian", "statement": "compute_third_moments returns the third central moment of the bifurcated Gaussian: it is positive exactly if the upper uncertainty is larger, vanishes for symmetric uncertainties and changes sign when they are exchanged.", "quantifier": "all non-zero uncertainties, of either sign", "why_tests_cant": "tests compare one or two literal values with the same quadrature; sign, antisymmetry and the centring of the distribution need all values", "anchors": ["src/spey/backends/default_pdf/third_moment.py:compute_third_moments"]}
{"id": "C77", "title": "Samples can be drawn with auxiliary data", "statement": "For every simplified likelihood and every parameter vector of the right length, drawing pseudo-data with auxiliary data succeeds and reads each constraint term's own parameters.", "quantifier": "all models, modifiers and parameter vectors", "why_tests_cant": "Tests sample models without signal modifiers, where the shifted slice is harmless because constant widths ignore their argument.", "anchors": ["src/spey/backends/default_pdf/__init__.py:DefaultPDFBase.get_sampler", "src/spey/backends/distributions.py:ConstraintModel.sample"]}
{"id": "C78", "title": "The positivity constraint of the simplified likelihoods is the rate without signal", "statement": "The function that the optimiser keeps non-negative equals the modelled rate at mu = 0 with the same nuisance parameters; where it is non-negative, all rates are non-negative for non-negative mu and signal yields.", "quantifier": "all models, sizes, signal parameters, modifiers and parameter values", "why_tests_cant": "A constraint on a slightly different expression only shows in fits that end near the boundary.", "anchors": ["src/spey/backends/default_pdf/__init__.py:DefaultPDFBase._register_positivity_constraint"]}
{"id": "C79", "title": "Queries do not influence each other", "statement": "The result of a query depends on the model and its arguments only, not on the queries made before it (nor on another fit inside the same query): likelihood, maximisation and Asimov queries give the same answer in every order.", "quantifier": "all backends, minimisers that keep to their contract, query histories and initial values", "why_tests_cant": "The shared list of initial values changes the start of later fits; whether that changes the answer depends on the history and the likelihood.", "anchors": ["src/spey/interface/statistical_model.py:StatisticalModel.likelihood", "src/spey/interface/statistical_model.py:StatisticalModel.maximize_likelihood", "src/spey/optimizer/core.py:fit"]}
{"id": "C80", "title": "Asimov queries use the expectation at the right hypothesis", "statement": "Asimov data are the expected data at the point that fits best with mu = 0 (mu = 1 for the discovery test); the Asimov likelihood and its maximum are those of these data, and for qtilde and q0 the best fit is not negative.", "quantifier": "all backends, test statistics, expectations and minimisers that keep to their contract", "why_tests_cant": "All backends and data.", "anchors": ["src/spey/interface/statistical_model.py:StatisticalModel.generate_asimov_data", "src/spey/interface/statistical_model.py:StatisticalModel.asimov_likelihood", "src/spey/interface/statistical_model.py:StatisticalModel.maximize_asimov_likelihood"]}
{"id": "C81", "title": "The shortcut for models with one parameter agrees with the fit", "statement": "For a model with one parameter the likelihood at a float, which skips the fit, equals the result of the fit with fixed POI.", "quantifier": "all one-parameter backends, POI values and minimisers that keep fixed parameters", "why_tests_cant": "Two code paths, chosen by type, have to agree for all inputs.", "anchors": ["src/spey/interface/statistical_model.py:StatisticalModel.likelihood"]}
{"id": "C82", "title": "Requested estimates are those of the named parameters", "statement": "maximize_likelihood(poi_indices=...) returns a dictionary with exactly the requested keys, each with the fitted value of the parameter it means (by name or by index, also negative), consistent with the plain call; keys that mean no parameter raise.", "quantifier": "all lists of keys, names and fits", "why_tests_cant": "All key lists, with duplicates and mixed names and indices.", "anchors": ["src/spey/interface/statistical_model.py:StatisticalModel.maximize_likelihood"]}
{"id": "C83", "title": "The uncertainty from the Hessian is the profile likelihood uncertainty", "statement": "sigma_mu_from_hessian returns sigma with sigma^2 the largest value of z_poi^2/(z^T(-H)z), i.e. the POI entry of the inverse of -H: to second order the profiled negative log-likelihood rises by delta^2/(2 sigma^2); MethodNotAvailable exactly if the backend has no Hessian.", "quantifier": "all backends with symmetric Hessian that is negative semidefinite, any number of parameters", "why_tests_cant": "A claim about all matrices.", "anchors": ["src/spey/interface/statistical_model.py:StatisticalModel.sigma_mu_from_hessian"]}
{"id": "C84", "title": "A combination keeps what is known about its parts", "statement": "combine and @ return the model of the combined backend under the documented name, translate missing routines into CombinerNotAvailable, and keep settings on which both models agree (cross section, number of toys).", "quantifier": "all models and combination routines", "why_tests_cant": "All backends and outcomes of the routine.", "anchors": ["src/spey/interface/statistical_model.py:StatisticalModel.combine", "src/spey/interface/statistical_model.py:StatisticalModel.__matmul__"]}
{"id": "C85", "title": "The Asimov approximation of sigma_mu is eq. 31", "statement": "Without Hessian sigma_mu equals |mu - mu'|/sqrt(q_mu,A) with mu' the best fit to the Asimov data, so that a parabolic likelihood of width sigma gives sigma.", "quantifier": "all tested values, test statistics and Asimov fits", "why_tests_cant": "All likelihood shapes and best-fit values.", "anchors": ["src/spey/base/hypotest_base.py:HypothesisTestingBase.sigma_mu"]}
{"id": "C86", "title": "likelihood is the profile likelihood, maximize_likelihood its maximum", "statement": "With a global minimiser, likelihood(mu) is the smallest negative log-likelihood over all nuisance parameters inside bounds and constraints with the POI at mu, maximize_likelihood the smallest over all parameters, and therefore the maximum is never below the likelihood of any POI inside its bounds.", "quantifier": "all backends, bounds, constraints, data, POI values and initial values", "why_tests_cant": "Optimality is a claim about all points.", "anchors": ["src/spey/interface/statistical_model.py:StatisticalModel.likelihood", "src/spey/interface/statistical_model.py:StatisticalModel.maximize_likelihood", "src/spey/interface/statistical_model.py:StatisticalModel.prepare_for_fit"]}
{"id": "C87", "title": "POI bounds follow the request", "statement": "For every default model, config(allow_negative_signal, poi_upper_bound) returns a configuration whose POI bound is [lower, poi_upper_bound], where lower is 0 if negative signals are not allowed and minimum_poi if they are.", "quantifier": "all default models, both flags, all upper bounds", "why_tests_cant": "All models and bounds.", "anchors": ["src/spey/backends/default_pdf/__init__.py:DefaultPDFBase.config", "src/spey/backends/default_pdf/simple_pdf.py:SimplePDFBase.config"]}
{"id": "C88", "title": "Initialising the logger leaves one handler", "statement": "init leaves the Spey logger with exactly one handler, the given one with the Spey format, whatever handlers were attached before and however often it is called, and leaves the handlers of the root logger alone.", "quantifier": "all handler lists, all numbers of calls", "why_tests_cant": "Handler lists and numbers of calls are unbounded.", "anchors": ["src/spey/system/logger.py:init"]}
{"id": "C89", "title": "An expectation may be given by anything equal to it", "statement": "An upper limit asked for with a value that compares equal to a member of ExpectationType (its name, or a boolean) is the one asked for with that member.", "quantifier": "all values accepted by the comparison", "why_tests_cant": "All values and all p-values.", "anchors": ["src/spey/utils.py:ExpectationType", "src/spey/hypothesis_testing/upper_limits.py:find_poi_upper_limit"]}
{"id": "C90", "title": "Only answers of the package index are stored", "statement": "A request that fails (no reply, error status, or a reply that cannot be decoded) leaves the stored result as it was.", "quantifier": "all replies and directory states", "why_tests_cant": "All replies.", "anchors": ["src/spey/system/webutils.py:_get_pypi_info"]}
{"id": "C91", "title": "Contour points are on the level", "statement": "Every point that find_contour returns satisfies NLL = T: exactly up to the tolerance of the root finder on a ray, up to newton_tol on a chain.", "quantifier": "all likelihoods, starts, random streams", "why_tests_cant": "All functions and random streams.", "anchors": ["src/spey/multiparameter/contour.py:_radial_search", "src/spey/multiparameter/contour.py:_rattle_walk", "src/spey/multiparameter/contour.py:_project_theta"]}
{"id": "C92", "title": "Gaps are the directions covered least", "statement": "The directions in which chains start are those candidates whose largest cosine with the directions found is smallest.", "quantifier": "all direction sets and candidates", "why_tests_cant": "All sets.", "anchors": ["src/spey/multiparameter/contour.py:_detect_gap_directions"]}
{"id": "C93", "title": "Seeds of the coverage passes are the most isolated points", "statement": "_find_sparse_seeds returns min(n_seeds, n) points, those with the largest distance to their k-th neighbour; with no chains requested, none run.", "quantifier": "all point sets and numbers of seeds", "why_tests_cant": "All point sets.", "anchors": ["src/spey/multiparameter/contour.py:_find_sparse_seeds"]}
{"id": "C94", "title": "Whitening turns the quadratic approximation into a sphere", "statement": "With theta = anchor + L^{-T} phi the (regularised) curvature is |phi|^2, phi = L (theta - anchor) as documented, the curvature with profile parameters is that of the profiled likelihood, its eigenvalues are at least reg, and the identity is used when anything fails.", "quantifier": "all Hessians, index selections and regularisations", "why_tests_cant": "All matrices of all sizes.", "anchors": ["src/spey/multiparameter/contour.py:_build_whitener"]}
{"id": "C95", "title": "No crossing along a ray is missed", "statement": "If the NLL crosses the level along a direction within the bounds and the largest radius, the search finds a crossing; otherwise it reports none.", "quantifier": "all continuous functions and directions", "why_tests_cant": "All functions.", "anchors": ["src/spey/multiparameter/contour.py:_radial_search"]}
{"id": "C96", "title": "The profiled NLL is the minimum over the profile parameters", "statement": "nll_scalar with profile parameters is the smallest NLL over all values of the profile parameters that satisfy the constraints of the model, whatever the kind of constraint.", "quantifier": "all likelihoods, constraints and profile parameters", "why_tests_cant": "All functions and constraints.", "anchors": ["src/spey/multiparameter/contour.py:find_contour"]}
{"id": "C97", "title": "The contour result is consistent", "statement": "The mask has one entry per point and marks points of the radial search, nll_min is the smallest value found over all starts, exactly the basins not above the level take part, and the best one is among them.", "quantifier": "all searches", "why_tests_cant": "All searches.", "anchors": ["src/spey/multiparameter/contour.py:find_contour"]}
{"id": "C98", "title": "Toys are drawn at the parameters of the fit", "statement": "fixed_poi_sampler draws its toys at the very parameters that likelihood reports for the same POI, whose POI is the tested value, returns as many as asked for, and fails as the fit does; a backend without sampler leads to MethodNotAvailable.", "quantifier": "all backends, minimisers, POI values, sizes and states", "why_tests_cant": "All backends and outcomes of the fit.", "anchors": ["src/spey/interface/statistical_model.py:StatisticalModel.fixed_poi_sampler"]}
{"id": "C99", "title": "chi2 of two points is a difference", "statement": "chi2 with a second point changes sign when the points are exchanged, is zero for equal points, and is the difference of the two comparisons with the best fit.", "quantifier": "all models whose answers do not depend on earlier queries, all points (numbers and dicts)", "why_tests_cant": "All likelihoods and points.", "anchors": ["src/spey/base/hypotest_base.py:HypothesisTestingBase.chi2"]}
{"id": "C100", "title": "chi2 relative to the best fit is never negative", "statement": "With a minimiser that finds the global minimum, chi2 without second point is at least zero.", "quantifier": "all backends, POI values, settings", "why_tests_cant": "All likelihoods and POI values.", "anchors": ["src/spey/base/hypotest_base.py:HypothesisTestingBase.chi2", "src/spey/interface/statistical_model.py:StatisticalModel.maximize_likelihood", "src/spey/interface/statistical_model.py:StatisticalModel.likelihood"]}
{"id": "C101", "title": "A scan gives the value of every point", "statement": "chi2 of a list, or of a dict with one list, is the array of the values of its points in the same order; it fails with the exception of the first point that fails, and a dict with two lists is refused.", "quantifier": "all models, lists of any length, dicts", "why_tests_cant": "Lists are unbounded.", "anchors": ["src/spey/base/hypotest_base.py:HypothesisTestingBase.chi2"]}
{"id": "C102", "title": "The square of the pull is chi2", "statement": "pull has the sign of muhat - mu and its square is chi2, for every kind of POI that is documented.", "quantifier": "all models and POI values", "why_tests_cant": "All likelihoods and POI values.", "anchors": ["src/spey/base/hypotest_base.py:HypothesisTestingBase.pull"]}
{"id": "C103", "title": "A message shows its severity once", "statement": "Every message is written in the colour and with the heading of its severity, once per handler; messages of different severity look different.", "quantifier": "all records, levels and handlers", "why_tests_cant": "All levels and handler lists.", "anchors": ["src/spey/system/logger.py:ColoredFormatter.format"]}
{"id": "C104", "title": "Signal strengths up to the best fit are not excluded", "statement": "exclusion_confidence_level of a signal strength not above the best fit is at most 1/2 with the asymptotic calculator and 0 with the other two calculators, whatever the likelihood and the Asimov data.", "quantifier": "all fits, Asimov fits, toys, signal strengths and calculators", "why_tests_cant": "All likelihood values, infinite ones and NaN included.", "anchors": ["src/spey/base/hypotest_base.py:HypothesisTestingBase.exclusion_confidence_level", "src/spey/hypothesis_testing/asymptotic_calculator.py:compute_asymptotic_confidence_level", "src/spey/hypothesis_testing/toy_calculator.py:compute_toy_confidence_level", "src/spey/hypothesis_testing/utils.py:pvalues", "src/spey/hypothesis_testing/test_statistics.py:qmu_tilde"]}
{"id": "C105", "title": "For a Gaussian measurement the exclusion level is the exact CLs", "statement": "For a measurement m with resolution sigma the asymptotic observed level is 1 - Phi((m-mu)/sigma)/Phi(m/sigma) for q and qtilde, the five expected levels are those of the measurements -2 sigma to 2 sigma, and each level between that of the best fit and one is reached by exactly one signal strength.", "quantifier": "all measurements, resolutions, normalisations and non-negative signal strengths", "why_tests_cant": "An identity between real functions of three real variables.", "anchors": ["src/spey/base/hypotest_base.py:HypothesisTestingBase.exclusion_confidence_level", "src/spey/hypothesis_testing/asymptotic_calculator.py:compute_asymptotic_confidence_level", "src/spey/hypothesis_testing/test_statistics.py:qmu", "src/spey/hypothesis_testing/test_statistics.py:qmu_tilde"]}
{"id": "C106", "title": "Fitting Asimov data gives back the hypothesis that made them", "statement": "For every default model the likelihood of the expected data of a parameter vector has its maximum at that vector; in particular the Asimov data made by the background-only fit are fitted best without signal.", "quantifier": "all default models, parameter vectors and numbers of bins", "why_tests_cant": "Optimality is a claim about all parameter vectors.", "anchors": ["src/spey/backends/default_pdf/__init__.py:DefaultPDFBase.expected_data", "src/spey/backends/default_pdf/__init__.py:DefaultPDFBase.get_logpdf_func", "src/spey/interface/statistical_model.py:StatisticalModel.generate_asimov_data", "src/spey/backends/default_pdf/simple_pdf.py:SimplePDFBase.expected_data"]}
{"id": "C107", "title": "Levels and significances are those of the fits of the model", "statement": "exclusion_confidence_level and significance, followed through _prepare_for_hypotest, the calculators and the test statistics, are the formulas of the asymptotic (chi-square, toy) method at the profile likelihoods of the data, of the Asimov data made from the background-only (for q0: signal) fit, and of the toys, all taken under the same expectation and the same rule for negative signals; with exact minimisers each of the numbers used is a minimum over the nuisance parameters of the backend's own likelihood.", "quantifier": "all models, fits, tested values, expectations, calculators, minimisers that return a global minimum", "why_tests_cant": "Every combination of calculator, statistic, expectation and likelihood; a swapped argument gives plausible numbers.", "anchors": ["src/spey/base/hypotest_base.py:HypothesisTestingBase.exclusion_confidence_level", "src/spey/base/hypotest_base.py:HypothesisTestingBase.significance", "src/spey/base/hypotest_base.py:HypothesisTestingBase._prepare_for_hypotest"]}
{"id": "C108", "title": "Toy levels are counts of toys", "statement": "The toy calculator draws the signal toys at the tested value and the background toys at zero, each set once and with the number of toys of the model, takes one statistic per toy, and returns one minus the ratio of the numbers of toys at least as extreme as the data.", "quantifier": "all models, toys, fits and tested values", "why_tests_cant": "Random inputs; wrong pairing or counting changes the result slightly.", "anchors": ["src/spey/base/hypotest_base.py:HypothesisTestingBase.exclusion_confidence_level"]}
{"id": "C109", "title": "The tested value may be any number that is documented", "statement": "A tested value given as float, int, or list or array with one entry, gives the same level as the float; numpy scalars and dictionaries, which the annotations allow, are accepted too.", "quantifier": "all kinds of values, models and calculators", "why_tests_cant": "All combinations of type and calculator.", "anchors": ["src/spey/base/hypotest_base.py:HypothesisTestingBase.exclusion_confidence_level", "src/spey/base/hypotest_base.py:HypothesisTestingBase._prepare_for_hypotest"]}
{"id": "C110", "title": "Hypothesis tests do not depend on earlier calls", "statement": "With minimisers whose result does not depend on the start, exclusion_confidence_level and significance give the same answer after any history of calls; a minimiser that starts from the shared list of initial values does not have this property.", "quantifier": "all models, histories and settings", "why_tests_cant": "Histories are unbounded.", "anchors": ["src/spey/base/hypotest_base.py:HypothesisTestingBase.exclusion_confidence_level", "src/spey/base/hypotest_base.py:HypothesisTestingBase.significance", "src/spey/interface/statistical_model.py:StatisticalModel.prepare_for_fit"]}
{"id": "C111", "title": "Failed fits are not reported as no exclusion", "statement": "The level zero that stands for a vanishing Asimov statistic is never given because a fit failed: a failing best fit ends every calculator with its exception, and an asymptotic level is only returned after all four fits behind the two statistics have succeeded.", "quantifier": "all models, fits and tested values", "why_tests_cant": "All fits that fail, in every calculator.", "anchors": ["src/spey/base/hypotest_base.py:HypothesisTestingBase.exclusion_confidence_level", "src/spey/hypothesis_testing/test_statistics.py:compute_teststatistics"]}
{"id": "C112", "title": "A Gaussian measurement has the levels of a Gaussian measurement", "statement": "For a model with one parameter and likelihood exp(-(mu-a)^2/(2 sigma^2)) the level of v is 1 - Phi((a-v)/sigma)/Phi(a/sigma) and the significance of a is a/sigma, whatever calls were made before.", "quantifier": "all a, sigma, v, bounds and offsets", "why_tests_cant": "Real numbers.", "anchors": ["src/spey/base/hypotest_base.py:HypothesisTestingBase.exclusion_confidence_level", "src/spey/base/hypotest_base.py:HypothesisTestingBase.significance"]}
{"id": "C113", "title": "An upper limit is a signal strength that the model excludes at the requested level", "statement": "poi_upper_limit, followed through the fits of the model, the starting points, the bracketing loops and the root finder: a finite limit is, up to the tolerance of the root finder, a signal strength at which exclusion_confidence_level of the same model reports the requested level; an infinite one means that the level is not crossed between 1e-10 and 1e5; the result does not depend on earlier calls, an exception of a fit on the way ends the call, and a single starting point of zero counts as none.", "quantifier": "all models, root finders that keep to their contract, confidence levels, starting points, expectations, bands and states", "why_tests_cant": "All likelihoods; the search makes a number of fits that is not known beforehand.", "anchors": ["src/spey/base/hypotest_base.py:HypothesisTestingBase.poi_upper_limit", "src/spey/hypothesis_testing/upper_limits.py:find_poi_upper_limit", "src/spey/hypothesis_testing/upper_limits.py:find_root_limits"]}
{"id": "C114", "title": "The upper limit of a Gaussian measurement is the exact CLs limit", "statement": "For a model with one parameter and likelihood exp(-(mu-a)^2/(2 sigma^2)) poi_upper_limit returns the solutions of 1 - Phi((m-mu)/sigma)/Phi(m/sigma) = CL up to the tolerance of the root finder, with m = a for the observed and m = -2 sigma to 2 sigma for the expected limits.", "quantifier": "all a, sigma, bounds, confidence levels above 1/2, starting points and bands", "why_tests_cant": "Real numbers.", "anchors": ["src/spey/base/hypotest_base.py:HypothesisTestingBase.poi_upper_limit", "src/spey/hypothesis_testing/upper_limits.py:find_poi_upper_limit", "src/spey/base/hypotest_base.py:HypothesisTestingBase.sigma_mu"]}
{"id": "C115", "title": "sigma_mu accepts the same values as the tests", "statement": "sigma_mu accepts the tested value as float, int or array with one entry, like the hypothesis tests, and gives the same result for all; the estimate from the Hessian is preferred and passed on unchanged.", "quantifier": "all models, values, test statistics and expectations", "why_tests_cant": "All combinations of type, statistic and model.", "anchors": ["src/spey/base/hypotest_base.py:HypothesisTestingBase.sigma_mu"]}
{"id": "C116", "title": "The optimiser arguments apply to all fits of the upper limit", "statement": "Every fit that the result of poi_upper_limit depends on is made with the optimiser arguments of the call.", "quantifier": "all models, arguments, starting points and expectations", "why_tests_cant": "All models for which the arguments matter.", "anchors": ["src/spey/base/hypotest_base.py:HypothesisTestingBase.poi_upper_limit", "src/spey/base/hypotest_base.py:HypothesisTestingBase.sigma_mu"]}
{"id": "C117", "title": "The tests of the simplified likelihoods always have an answer, the profile likelihood one", "statement": "For every simplified likelihood (uncorrelated, correlated, third moment, effective sigma) with a given signal and exact minimiser all fits of exclusion_confidence_level and significance exist, and the result is the asymptotic formula at the maxima of sum_i Poisson(n_i | mu s_i + b_i(theta_i)) times the constraint term: over signal strengths from zero (or the smallest allowed) to 10 and over the nuisance parameters that leave no background negative; the Asimov data are the expected events at the nuisance parameters best without signal (for significance: with strength one). Levels are between zero and one.", "quantifier": "all backgrounds, uncertainties, data, tested values, correlation matrices with positive inverse, states of the model", "why_tests_cant": "Existence and optimality over all real nuisance parameters, for any number of bins.", "anchors": ["src/spey/backends/default_pdf/__init__.py:UncorrelatedBackground", "src/spey/backends/default_pdf/__init__.py:CorrelatedBackground", "src/spey/backends/default_pdf/__init__.py:ThirdMomentExpansion", "src/spey/backends/default_pdf/__init__.py:EffectiveSigma", "src/spey/base/hypotest_base.py:HypothesisTestingBase.exclusion_confidence_level", "src/spey/base/hypotest_base.py:HypothesisTestingBase.significance", "src/spey/interface/statistical_model.py:StatisticalModel.likelihood"]}
{"id": "C118", "title": "The Gaussian models test the strength of generalised least squares", "statement": "For a Gaussian model (independent bins, common uncertainty, or covariance matrix) with exact minimiser, exclusion_confidence_level is the CLs of one Gaussian measurement of the signal strength: that of generalised least squares, s.P(n-b)/s.P s with uncertainty 1/sqrt(s.P s), if it is at most 10 and (if negative strengths are allowed) leaves no expected yield negative; the expected levels are those of -2 to 2 standard deviations; significance is the strength over its uncertainty, zero for negative strengths.", "quantifier": "all yields, data, uncertainties, covariance matrices, numbers of bins, tested values not below the measured one, states of the model", "why_tests_cant": "Identities for all matrices and yields.", "anchors": ["src/spey/backends/default_pdf/simple_pdf.py:Gaussian", "src/spey/backends/default_pdf/simple_pdf.py:MultivariateNormal", "src/spey/base/hypotest_base.py:HypothesisTestingBase.exclusion_confidence_level", "src/spey/base/hypotest_base.py:HypothesisTestingBase.significance", "src/spey/interface/statistical_model.py:StatisticalModel.generate_asimov_data"]}
{"id": "C119", "title": "The significance of a counting experiment is the known formula", "statement": "For the Poisson model with one bin, signal s, background b and n events, significance gives sqrt(2(n ln(n/b) - (n - b))) for n at least b and zero below, and for the Asimov data sqrt(2((s+b) ln(1+s/b) - s)), as long as (n-b)/s is at most 10.", "quantifier": "all s > 0, b at least 1e-20, n not negative, states of the model", "why_tests_cant": "A closed form for all real values.", "anchors": ["src/spey/backends/default_pdf/simple_pdf.py:Poisson", "src/spey/base/hypotest_base.py:HypothesisTestingBase.significance", "src/spey/interface/statistical_model.py:StatisticalModel.generate_asimov_data"]}
{"id": "C120", "title": "The exclusion level of a counting experiment is the known formula", "statement": "For the same model exclusion_confidence_level at strength v is 1 - Phi(-D - sqrt qA)/Phi(-D), with D the asymptotic shift of q and qA, q = 2(n ln(max(n,b)/l) - max(n,b) + l) at l = v s + b and qA the same for n = b; it is at most 1/2 if fewer than n events are expected; the expected levels are 1 - Phi(N - sqrt qA)/Phi(N).", "quantifier": "all s > 0, b at least 1e-20, n not negative, v > 0, states of the model", "why_tests_cant": "A closed form for all real values.", "anchors": ["src/spey/backends/default_pdf/simple_pdf.py:Poisson", "src/spey/base/hypotest_base.py:HypothesisTestingBase.exclusion_confidence_level", "src/spey/hypothesis_testing/asymptotic_calculator.py:compute_asymptotic_confidence_level"]}
{"id": "C121", "title": "The uncertainty and the upper limit of the Gaussian models are exact", "statement": "For a Gaussian model (independent bins, common uncertainty, or covariance matrix) with exact minimiser sigma_mu is 1/sqrt(s.P s) at every strength for which no expected yield is negative, and poi_upper_limit returns, up to the tolerance of the root finder, the exact CLs limits of one Gaussian measurement with the strength of generalised least squares (observed) or -2 to 2 standard deviations (expected), if that strength is at most 10, the confidence level is above 1/2 and the limits lie between 1e-10 and 1e5 and are not both starting points.", "quantifier": "all yields, data, uncertainties, covariance matrices, numbers of bins, confidence levels, starting points, bands, root finders that keep to their contract, states of the model", "why_tests_cant": "Identities for all matrices and yields; the search makes a number of fits that is not known beforehand.", "anchors": ["src/spey/backends/default_pdf/simple_pdf.py:Gaussian", "src/spey/backends/default_pdf/simple_pdf.py:MultivariateNormal", "src/spey/base/hypotest_base.py:HypothesisTestingBase.poi_upper_limit", "src/spey/base/hypotest_base.py:HypothesisTestingBase.sigma_mu", "src/spey/interface/statistical_model.py:StatisticalModel.sigma_mu_from_hessian", "src/spey/hypothesis_testing/upper_limits.py:find_poi_upper_limit"]}
{"id": "C122", "title": "The tests of a combination are those of the joint likelihood", "statement": "For a combination (UnCorrStatisticsCombiner) of models of spey with different names (simplified likelihoods, Gaussian models, counting experiments with any number of bins) and exact minimisers, all fits of exclusion_confidence_level and significance exist, and the result is the asymptotic formula at the maxima of the product of the likelihoods: one signal strength, from zero (or the largest of the smallest strengths that the models allow) to 10, and the nuisance parameters of every model; the Asimov data are the expected events of every model at its own best nuisance parameters. The starting value made of the individual fits plays no role as long as it is a number.", "quantifier": "all combinations of any number of such models in any order, tested strengths, expectations and rules for negative signals", "why_tests_cant": "All products of likelihoods with all parameters.", "anchors": ["src/spey/combiner/uncorrelated_statistics_combiner.py:UnCorrStatisticsCombiner.likelihood", "src/spey/combiner/uncorrelated_statistics_combiner.py:UnCorrStatisticsCombiner.maximize_likelihood", "src/spey/combiner/uncorrelated_statistics_combiner.py:UnCorrStatisticsCombiner.generate_asimov_data", "src/spey/combiner/uncorrelated_statistics_combiner.py:UnCorrStatisticsCombiner.maximize_asimov_likelihood", "src/spey/base/hypotest_base.py:HypothesisTestingBase.exclusion_confidence_level"]}
{"id": "C123", "title": "A combination of Gaussian models tests the weighted mean", "statement": "For a combination of Gaussian models with exact minimisers exclusion_confidence_level is the CLs of one Gaussian measurement: the mean of the strengths that the models measure, each weighted with the inverse of its variance, with variance one over the sum of the weights; significance is the mean over its standard deviation. The mean is at most 10 and, if negative signals are allowed, leaves no expected yield negative.", "quantifier": "all numbers of models, yields, uncertainties, covariance matrices and tested strengths", "why_tests_cant": "A closed form for all real values.", "anchors": ["src/spey/combiner/uncorrelated_statistics_combiner.py:UnCorrStatisticsCombiner.maximize_likelihood", "src/spey/combiner/uncorrelated_statistics_combiner.py:UnCorrStatisticsCombiner.likelihood", "src/spey/base/hypotest_base.py:HypothesisTestingBase.exclusion_confidence_level", "src/spey/base/hypotest_base.py:HypothesisTestingBase.significance"]}
{"id": "C124", "title": "The upper limit of a combination of Gaussian models is exact", "statement": "For a combination of Gaussian models with exact minimisers sigma_mu is the standard deviation of the weighted mean at every positive strength, and poi_upper_limit returns, up to the tolerance of the root finder, the exact CLs limits of one Gaussian measurement, the weighted mean (observed) or -2 to 2 standard deviations (expected), if the mean is at most 10, the confidence level above 1/2, and the limits between 1e-10 and 1e5 and not both starting points.", "quantifier": "all numbers of models, yields, uncertainties, confidence levels, bands, starting points and root finders that keep to their contract", "why_tests_cant": "A closed form for all real values.", "anchors": ["src/spey/combiner/uncorrelated_statistics_combiner.py:UnCorrStatisticsCombiner.is_alive", "src/spey/base/hypotest_base.py:HypothesisTestingBase.sigma_mu", "src/spey/base/hypotest_base.py:HypothesisTestingBase.poi_upper_limit", "src/spey/hypothesis_testing/upper_limits.py:find_poi_upper_limit"]}
{"id": "C125", "title": "Toys of a Gaussian measurement are counted up to the measured value", "statement": "For a model with one parameter, likelihood exp(-(mu-a)^2/(2 sigma^2)) and any sampler, the level from toys of a strength v > a is one minus the number of toys drawn at v that are at most a over the number of those drawn at zero (one if there are none, at least zero), for both test statistics and whatever calls were made before; a strength v not above a has level zero. Measured value and toys are inside the bounds of the fit, or only at most 10 if negative signals are not allowed.", "quantifier": "all samplers, numbers of toys, a, sigma, v > 0, bounds and states of the model", "why_tests_cant": "Random inputs; a wrong inequality, pairing or bound changes the result slightly.", "anchors": ["src/spey/base/hypotest_base.py:HypothesisTestingBase.exclusion_confidence_level", "src/spey/interface/statistical_model.py:StatisticalModel.fixed_poi_sampler", "src/spey/hypothesis_testing/test_statistics.py:qmu", "src/spey/hypothesis_testing/test_statistics.py:qmu_tilde"]}
{"id": "C126", "title": "A covariance given by a function gives the normal density with that matrix", "statement": "log_prob of MultivariateNormal is the logarithm of the normal density whose covariance matrix is the given one, or the value of the given function at the parameters.", "quantifier": "all means, points, matrices and functions", "why_tests_cant": "All matrices; the tests only use matrices with large determinants.", "anchors": ["src/spey/hypothesis_testing/distributions.py:MultivariateNormal.log_prob", "src/spey/hypothesis_testing/distributions.py:MultivariateNormal.__init__"]}
{"id": "C127", "title": "Evaluations in several threads do not disturb each other", "statement": "Threads that evaluate the same MainModel get, in every order of their steps, the values that each of them gets alone.", "quantifier": "all models, numbers of threads, evaluations and schedules", "why_tests_cant": "Schedules are unbounded and races are rarely met by tests.", "anchors": ["src/spey/hypothesis_testing/distributions.py:MainModel.__init__", "src/spey/hypothesis_testing/distributions.py:MainModel.log_prob"]}
{"id": "C128", "title": "A mixture is drawn from the distribution whose density it reports", "statement": "log_prob of MixtureModel is the logarithm of the probability with which sample draws the value, each distribution having the same weight; distributions of this module can be mixed.", "quantifier": "all distributions and values", "why_tests_cant": "A statement about probabilities.", "anchors": ["src/spey/hypothesis_testing/distributions.py:MixtureModel.sample", "src/spey/hypothesis_testing/distributions.py:MixtureModel.log_prob"]}
{"id": "C129", "title": "Names of distributions are read without regard to case", "statement": "A constraint whose distribution_type is one of the two known names, in any case, gets that distribution; any other name is refused with the message.", "quantifier": "all strings", "why_tests_cant": "All strings.", "anchors": ["src/spey/hypothesis_testing/distributions.py:ConstraintModel.__init__"]}
{"id": "C130", "title": "Integer and float data have the same Poisson likelihood", "statement": "Poisson.log_prob of a whole number is the same for an integer and a float array, the documented formula for counts that are not negative and minus infinity for negative ones.", "quantifier": "all integers and rates", "why_tests_cant": "All numbers; the code has one branch per data type.", "anchors": ["src/spey/hypothesis_testing/distributions.py:Poisson.log_prob"]}
{"id": "C131", "title": "A fit uses the minimiser that was asked for", "statement": "A fit uses the minimiser given with the call, else the last one set by set_optimiser that is installed, else that of SPEY_OPTIMISER; a name means the same in all three places, and none makes the choice fail.", "quantifier": "all sequences of settings, names and installations", "why_tests_cant": "Sequences of settings are unbounded.", "anchors": ["src/spey/__init__.py:set_optimiser", "src/spey/optimizer/core.py:fit", "src/spey/optimizer/core.py:_get_minimizer"]}
{"id": "C132", "title": "A message of log_once is written once", "statement": "Each message is written the first time that it is asked for and not again.", "quantifier": "all sequences of messages", "why_tests_cant": "Sequences are unbounded.", "anchors": ["src/spey/__init__.py:log_once"]}
{"id": "C133", "title": "Tracked warnings are written once", "statement": "All warnings of a function with warning_tracker, and of the decorated functions that it calls, are written to the log once.", "quantifier": "all nestings, warnings and outcomes", "why_tests_cant": "Nestings are unbounded.", "anchors": ["src/spey/system/exceptions.py:warning_tracker"]}
{"id": "C134", "title": "Each reference of a backend has the entry of the first place that knows it", "statement": "get_backend_bibtex gives for each identifier the entry of the first place that knows it, in the order of the metadata; a request that fails only leaves out its entry, and a lost connection only cuts off the lists.", "quantifier": "all identifiers and replies of the net", "why_tests_cant": "All replies, any of which can fail.", "anchors": ["src/spey/__init__.py:get_backend_bibtex", "src/spey/system/webutils.py:get_bibtex"]}
{"id": "C135", "title": "cite changes nothing but the key", "statement": "cite gives the entry of the article followed by that of the program, of which only the key is replaced by spey_zenodo; without connection the result is empty.", "quantifier": "all entries", "why_tests_cant": "All texts.", "anchors": ["src/spey/__init__.py:cite"]}
{"id": "C136", "title": "A newer version is announced", "statement": "If the package index has a newer (older) version, check_updates says so, likewise if the newest version does not run with this version of Python.", "quantifier": "all versions, requirements and answers of the index", "why_tests_cant": "All versions.", "anchors": ["src/spey/system/webutils.py:check_updates"]}
{"id": "C137", "title": "SPEY_LOGLEVEL does not stop the import", "statement": "The package can be imported whatever the value of SPEY_LOGLEVEL; 0 to 3 set the documented level, other values leave the default.", "quantifier": "all values", "why_tests_cant": "All strings.", "anchors": ["src/spey/__init__.py:set_log_level"]}
{"id": "C138", "title": "The options of a fit reach the minimiser", "statement": "Every option of fit reaches the chosen minimiser with the caller's value, or else with the documented default, nothing else reaches it, unknown options change nothing, and the same options can be used with both minimisers.", "quantifier": "all option dictionaries, objectives, configurations, settings and libraries", "why_tests_cant": "All dictionaries and all libraries.", "anchors": ["src/spey/optimizer/core.py:fit", "src/spey/optimizer/scipy_tools.py:minimize", "src/spey/optimizer/minuit_tools.py:minimize"]}
{"id": "C139", "title": "Both minimisers honour bounds, constraints and fixed parameters", "statement": "The point returned by fit is within the bounds, satisfies the constraints and has the fixed parameters at their values, with either minimiser.", "quantifier": "all objectives, configurations, bounds, constraints, fixed sets, and libraries that keep their promises", "why_tests_cant": "All objectives and libraries.", "anchors": ["src/spey/optimizer/core.py:fit", "src/spey/optimizer/scipy_tools.py:minimize", "src/spey/optimizer/minuit_tools.py:minimize"]}
{"id": "C140", "title": "A cached method of one object has one cache for all threads", "statement": "Whatever the interleaving of the threads, all of them get the same cached wrapper for one object and method, so that a result computed by one thread is found by the others.", "quantifier": "all schedules of any number of threads", "why_tests_cant": "The window between look-up and store is a few bytecodes wide.", "anchors": ["src/spey/system/cache.py:_PerInstanceCacheDescriptor.__get__", "src/spey/system/cache.py:_PerInstanceCacheDescriptor._get_fallback"]}
{"id": "C141", "title": "qmu_left is the mirror image of q", "statement": "A test with qmu_left is the test with q for the model in which the signal strength has the other sign: the same statistic, the same shift, and so the same levels; negative signal strengths can be excluded as positive ones by q.", "quantifier": "all likelihoods, signal strengths, fits and Asimov fits, including nan and infinities", "why_tests_cant": "All likelihoods.", "anchors": ["src/spey/hypothesis_testing/test_statistics.py:qmu_left", "src/spey/hypothesis_testing/test_statistics.py:compute_teststatistics"]}
{"id": "C142", "title": "Without skewness the third-moment expansion is the correlated-background model", "statement": "If the third moments of all bins are zero (or are ignored because they violate the condition), ThirdMomentExpansion is identical to CorrelatedBackground with the same covariance matrix, as the documentation of the module says.", "quantifier": "all covariance matrices, backgrounds and numbers of bins, all parameters", "why_tests_cant": "All covariance matrices.", "anchors": ["src/spey/backends/default_pdf/third_moment.py:third_moment_expansion", "src/spey/backends/default_pdf/__init__.py:ThirdMomentExpansion"]}
{"id": "C143", "title": "The tests of binned models are functions of the bins in closed form", "statement": "For uncorrelated_background, and for poisson, with any number of bins and exact minimisers, exclusion_confidence_level and significance are the asymptotic formulas at the profile likelihood in which the nuisance parameter of every bin is eliminated in closed form (the root of a quadratic equation), for the data and for the Asimov data; if the Asimov data agree with the backgrounds every positive signal strength has a positive Asimov statistic.", "quantifier": "all numbers of bins, yields, backgrounds, uncertainties, data, tested values and expectations, states of the model", "why_tests_cant": "A closed form for all real values.", "anchors": ["src/spey/backends/default_pdf/__init__.py:UncorrelatedBackground", "src/spey/backends/default_pdf/simple_pdf.py:Poisson", "src/spey/base/hypotest_base.py:HypothesisTestingBase.exclusion_confidence_level", "src/spey/base/hypotest_base.py:HypothesisTestingBase.significance"]}
{"id": "C144", "title": "The order of the bins does not matter", "statement": "uncorrelated_background and poisson give the same levels and significances if the bins are permuted.", "quantifier": "all permutations, bins, tested values and expectations", "why_tests_cant": "All permutations and yields.", "anchors": ["src/spey/backends/default_pdf/__init__.py:UncorrelatedBackground", "src/spey/backends/default_pdf/simple_pdf.py:Poisson", "src/spey/base/hypotest_base.py:HypothesisTestingBase.exclusion_confidence_level", "src/spey/base/hypotest_base.py:HypothesisTestingBase.significance"]}
{"id": "C145", "title": "Bins without signal do not matter", "statement": "Adding a bin without signal (a control region), at any place, changes neither levels nor significances of uncorrelated_background and poisson.", "quantifier": "all bins, places, tested values and expectations", "why_tests_cant": "All yields.", "anchors": ["src/spey/backends/default_pdf/__init__.py:UncorrelatedBackground", "src/spey/backends/default_pdf/simple_pdf.py:Poisson", "src/spey/base/hypotest_base.py:HypothesisTestingBase.exclusion_confidence_level", "src/spey/base/hypotest_base.py:HypothesisTestingBase.significance"]}
{"id": "C146", "title": "Without uncertainties the model is the Poisson model", "statement": "uncorrelated_background with uncertainties zero gives the levels and significances of poisson.", "quantifier": "all bins, tested values and expectations", "why_tests_cant": "All yields.", "anchors": ["src/spey/backends/default_pdf/__init__.py:UncorrelatedBackground", "src/spey/backends/default_pdf/simple_pdf.py:Poisson", "src/spey/base/hypotest_base.py:HypothesisTestingBase.exclusion_confidence_level", "src/spey/base/hypotest_base.py:HypothesisTestingBase.significance"]}
{"id": "C147", "title": "Bins with the same ratio of signal and background can be merged", "statement": "Replacing two bins without uncertainties that have the same ratio of signal and background by one with the sums of signal, background and data changes neither levels nor significances.", "quantifier": "all bins, other bins, tested values and expectations", "why_tests_cant": "All yields.", "anchors": ["src/spey/backends/default_pdf/__init__.py:UncorrelatedBackground", "src/spey/backends/default_pdf/simple_pdf.py:Poisson", "src/spey/base/hypotest_base.py:HypothesisTestingBase.exclusion_confidence_level", "src/spey/base/hypotest_base.py:HypothesisTestingBase.significance"]}
{"id": "C148", "title": "Larger test statistics never exclude less", "statement": "The exclusion level never decreases if the test statistic of the data and that of the Asimov data increase, for both test statistics, all expectations, across the switch of the asymptotic formula and where the Asimov statistic is zero.", "quantifier": "all values of the statistics", "why_tests_cant": "An inequality between values of the normal distribution on the whole line.", "anchors": ["src/spey/base/hypotest_base.py:HypothesisTestingBase.exclusion_confidence_level", "src/spey/hypothesis_testing/asymptotic_calculator.py:compute_asymptotic_confidence_level", "src/spey/hypothesis_testing/test_statistics.py:compute_teststatistics"]}
{"id": "C149", "title": "A larger signal is excluded at least as strongly", "statement": "For uncorrelated_background and poisson with exact minimisers exclusion_confidence_level never decreases with the signal strength, observed and expected.", "quantifier": "all bins, strengths and expectations", "why_tests_cant": "All yields and strengths.", "anchors": ["src/spey/backends/default_pdf/__init__.py:UncorrelatedBackground", "src/spey/backends/default_pdf/simple_pdf.py:Poisson", "src/spey/base/hypotest_base.py:HypothesisTestingBase.exclusion_confidence_level", "src/spey/base/hypotest_base.py:HypothesisTestingBase.significance"]}
{"id": "C150", "title": "More events never exclude more", "statement": "For the same models more events in any bin never give a larger level of exclusion, nor a smaller significance.", "quantifier": "all bins, data, strengths and expectations", "why_tests_cant": "All yields.", "anchors": ["src/spey/backends/default_pdf/__init__.py:UncorrelatedBackground", "src/spey/backends/default_pdf/simple_pdf.py:Poisson", "src/spey/base/hypotest_base.py:HypothesisTestingBase.exclusion_confidence_level", "src/spey/base/hypotest_base.py:HypothesisTestingBase.significance"]}
{"id": "C151", "title": "Larger background uncertainties never improve the expected sensitivity", "statement": "For the same models, larger absolute uncertainties never increase the levels that are expected before the measurement.", "quantifier": "all bins and strengths", "why_tests_cant": "All yields and uncertainties.", "anchors": ["src/spey/backends/default_pdf/__init__.py:UncorrelatedBackground", "src/spey/backends/default_pdf/simple_pdf.py:Poisson", "src/spey/base/hypotest_base.py:HypothesisTestingBase.exclusion_confidence_level", "src/spey/base/hypotest_base.py:HypothesisTestingBase.significance"]}
{"id": "C152", "title": "Only the product of strength and signal yield matters", "statement": "For the same models the levels of the signal yields c s at the strength v are those of the yields s at the strength c v, and the observed significance does not depend on c.", "quantifier": "all bins, positive factors, strengths and expectations", "why_tests_cant": "All factors and yields.", "anchors": ["src/spey/backends/default_pdf/__init__.py:UncorrelatedBackground", "src/spey/backends/default_pdf/simple_pdf.py:Poisson", "src/spey/base/hypotest_base.py:HypothesisTestingBase.exclusion_confidence_level", "src/spey/base/hypotest_base.py:HypothesisTestingBase.significance"]}
{"id": "C153", "title": "The upper limit separates what is excluded from what is not", "statement": "For the same models an upper limit returned by poi_upper_limit separates the strengths: exclusion_confidence_level reports at least the confidence level for all larger ones and at most for all smaller ones, up to the tolerance of the root finder; infinity means that no strength up to 1e5 is excluded or that already those up to 1e-10 are. A finite limit is returned whenever some strength from 1e-10 on is not excluded and some strength up to 1e5 is.", "quantifier": "all bins, strengths, confidence levels, starting points, bands and expectations", "why_tests_cant": "All strengths.", "anchors": ["src/spey/base/hypotest_base.py:HypothesisTestingBase.poi_upper_limit", "src/spey/backends/default_pdf/__init__.py:UncorrelatedBackground", "src/spey/backends/default_pdf/simple_pdf.py:Poisson", "src/spey/base/hypotest_base.py:HypothesisTestingBase.exclusion_confidence_level", "src/spey/base/hypotest_base.py:HypothesisTestingBase.significance"]}
{"id": "C154", "title": "Combining binned models is joining their bins", "statement": "A combination (UnCorrStatisticsCombiner) of poisson and uncorrelated_background models with different names gives the levels and significances of the one model that has the bins of all of them, in any order; so the order of the models and the distribution of the bins over them do not matter.", "quantifier": "all numbers of models and bins, strengths and expectations", "why_tests_cant": "All partitions and yields.", "anchors": ["src/spey/backends/default_pdf/__init__.py:UncorrelatedBackground", "src/spey/backends/default_pdf/simple_pdf.py:Poisson", "src/spey/base/hypotest_base.py:HypothesisTestingBase.exclusion_confidence_level", "src/spey/base/hypotest_base.py:HypothesisTestingBase.significance", "src/spey/combiner/uncorrelated_statistics_combiner.py:UnCorrStatisticsCombiner.likelihood", "src/spey/combiner/uncorrelated_statistics_combiner.py:UnCorrStatisticsCombiner.maximize_likelihood"]}
{"id": "C155", "title": "The upper limit is a function of the bins, monotone in data and uncertainties", "statement": "Two calls of poi_upper_limit for models with the same bins (poisson, uncorrelated_background), in any order, return limits that agree up to the tolerances of the root finders, whatever the starting points (low_init, hig_init), the minimisers, the root finders, the history and the other settings. A model with more events in some bins never has a lower limit, and one with larger background uncertainties never has lower limits expected a priori.", "quantifier": "for all bins, models with these bins, minimisers, root finders, starting points, confidence levels, bands and pairs of calls", "why_tests_cant": "A test sees two limits close to each other; whether a different starting point or minimiser leads to another root can only be excluded by strict monotonicity of the level.", "anchors": ["src/spey/base/hypotest_base.py:HypothesisTestingBase.poi_upper_limit", "src/spey/hypothesis_testing/upper_limits.py:find_poi_upper_limit", "src/spey/backends/default_pdf/__init__.py:UncorrelatedBackground", "src/spey/backends/default_pdf/simple_pdf.py:Poisson", "src/spey/base/hypotest_base.py:HypothesisTestingBase.exclusion_confidence_level", "src/spey/base/hypotest_base.py:HypothesisTestingBase.significance"]}
{"id": "C156", "title": "The upper limit of a combination means that the combination reaches the level", "statement": "An upper limit returned by poi_upper_limit for a combination (UnCorrStatisticsCombiner) of models of spey is a strength at which exclusion_confidence_level of the combination reaches the confidence level, up to the tolerance of the root finder; an infinite limit means that the level is not reached at some strength from 1e5 or exceeded at 1e-10. If the level is below the confidence level at 1e-10 and above at 1e5, a finite limit is returned.", "quantifier": "for all numbers of models, described models, minimisers, root finders, starting points, confidence levels and bands", "why_tests_cant": "The chain runs through the fits of every model, the one-dimensional fit of the combination, Asimov data by name and the root search; tests see single limits.", "anchors": ["src/spey/base/hypotest_base.py:HypothesisTestingBase.poi_upper_limit", "src/spey/hypothesis_testing/upper_limits.py:find_poi_upper_limit", "src/spey/combiner/uncorrelated_statistics_combiner.py:UnCorrStatisticsCombiner.likelihood", "src/spey/combiner/uncorrelated_statistics_combiner.py:UnCorrStatisticsCombiner.maximize_likelihood"]}
{"id": "C157", "title": "Levels grow with the strength, with correlated backgrounds, too", "statement": "For a model with signal yields >= 0 whose expected background is linear in its nuisance parameters (uncorrelated_background, correlated_background, poisson), and whose numbers of events are not all but invisible against 1e-20 (for instance at least one event in each bin and backgrounds of at least 1e-8 of everything; or the expectation before the measurement), exclusion_confidence_level never decreases with the signal strength, observed and expected, whichever exact minimisers are used and whatever was called before. Before the measurement every positive strength can be tested.", "quantifier": "all numbers of bins, yields, covariances, strengths and expectations", "why_tests_cant": "All covariances and strengths.", "anchors": ["src/spey/backends/default_pdf/__init__.py:UncorrelatedBackground", "src/spey/backends/default_pdf/simple_pdf.py:Poisson", "src/spey/base/hypotest_base.py:HypothesisTestingBase.exclusion_confidence_level", "src/spey/base/hypotest_base.py:HypothesisTestingBase.significance", "src/spey/backends/default_pdf/__init__.py:UncorrelatedBackground", "src/spey/base/hypotest_base.py:HypothesisTestingBase.exclusion_confidence_level"]}
{"id": "C158", "title": "Upper limits with correlated backgrounds separate the strengths and are unique", "statement": "For the same models an upper limit returned by poi_upper_limit separates the strengths that are excluded from those that are not, up to the tolerance of the root finder; a finite one is returned whenever some strength from 1e-10 on is not excluded and some strength up to 1e5 is; and two calls agree up to the tolerances, whatever the starting points, minimisers, root finders and the history.", "quantifier": "all numbers of bins, yields, covariances, confidence levels, starting points, bands and expectations", "why_tests_cant": "All runs.", "anchors": ["src/spey/backends/default_pdf/__init__.py:UncorrelatedBackground", "src/spey/backends/default_pdf/simple_pdf.py:Poisson", "src/spey/base/hypotest_base.py:HypothesisTestingBase.exclusion_confidence_level", "src/spey/base/hypotest_base.py:HypothesisTestingBase.significance", "src/spey/backends/default_pdf/__init__.py:UncorrelatedBackground", "src/spey/base/hypotest_base.py:HypothesisTestingBase.poi_upper_limit"]}
{"id": "C159", "title": "Levels and limits of combinations of models of different kinds", "statement": "For a combination (UnCorrStatisticsCombiner) of any of these models and Gaussian ones (default.multivariate_normal) with different names the same holds: levels never decrease with the strength, limits separate the strengths, exist, and do not depend on how they are searched.", "quantifier": "all numbers of models, of each kind, strengths, confidence levels, starting points, bands and expectations", "why_tests_cant": "All combinations.", "anchors": ["src/spey/backends/default_pdf/__init__.py:UncorrelatedBackground", "src/spey/backends/default_pdf/simple_pdf.py:Poisson", "src/spey/base/hypotest_base.py:HypothesisTestingBase.exclusion_confidence_level", "src/spey/base/hypotest_base.py:HypothesisTestingBase.significance", "src/spey/combiner/uncorrelated_statistics_combiner.py:UnCorrStatisticsCombiner.likelihood", "src/spey/combiner/uncorrelated_statistics_combiner.py:UnCorrStatisticsCombiner.maximize_likelihood", "src/spey/base/hypotest_base.py:HypothesisTestingBase.poi_upper_limit"]}
{"id": "C160", "title": "The minimum of a contour is the best admissible point of the model", "statement": "find_contour returns as minimum a point with the signal strength one whose NLL is the smallest among all parameters that the model admits (bounds and constraints), so that the level of the contour is that minimum plus the quantile. For every simplified likelihood the primary fit succeeds with such a point.", "quantifier": "all models, minimisers, random streams, contour parameters, states of the model", "why_tests_cant": "All likelihoods, and every outcome of the multistart search.", "anchors": ["src/spey/multiparameter/contour.py:find_contour", "src/spey/multiparameter/contour.py:_find_mle", "src/spey/multiparameter/contour.py:_find_basins_contour_subspace"]}
{"id": "C161", "title": "Points found on rays are on the contour of the profile likelihood", "statement": "Every point that find_contour finds with the radial search is, along its ray, within the accuracy of the root finder of a point where the smallest NLL over all parameters that are not contour parameters is the minimum plus the quantile.", "quantifier": "all models without constraints, bounds, contour and profile parameters, random streams, states of the model", "why_tests_cant": "All likelihoods and directions.", "anchors": ["src/spey/multiparameter/contour.py:find_contour", "src/spey/multiparameter/contour.py:_radial_search", "src/spey/multiparameter/contour.py:_find_mle"]}
{"id": "C162", "title": "grad_nll is the gradient of the profile NLL", "statement": "The gradient that find_contour uses is the gradient of the function whose level it searches, with and without profile parameters (envelope theorem), wherever the profile NLL and the likelihood at its best points are differentiable, also if bounds of profile parameters are active.", "quantifier": "all models without constraints, contour and profile parameters, points", "why_tests_cant": "All differentiable likelihoods.", "anchors": ["src/spey/multiparameter/contour.py:find_contour"]}
{"id": "C163", "title": "Upper limits of all simplified likelihoods", "statement": "An upper limit that poi_upper_limit returns for any simplified likelihood (independent or correlated uncertainties, third moments, asymmetric uncertainties) is a strength at which the reported level reaches the confidence level, up to the tolerance of the root finder; an infinite one means that this is not so at 1e5, or already at 1e-10. A finite one is returned if the level is at most the confidence level at 1e-10 and at least this at 1e5.", "quantifier": "all models, confidence levels, starting points, bands, expectations, minimisers and root finders", "why_tests_cant": "All models, and for levels that are not monotonic.", "anchors": ["src/spey/backends/default_pdf/__init__.py:UncorrelatedBackground", "src/spey/backends/default_pdf/simple_pdf.py:Poisson", "src/spey/base/hypotest_base.py:HypothesisTestingBase.exclusion_confidence_level", "src/spey/base/hypotest_base.py:HypothesisTestingBase.significance", "src/spey/hypothesis_testing/upper_limits.py:find_poi_upper_limit", "src/spey/base/hypotest_base.py:HypothesisTestingBase.poi_upper_limit"]}
{"id": "C164", "title": "Few signal events cannot be excluded, and many are", "statement": "If at a tested strength c signal events are expected in all bins, then the reported levels are at most c + sqrt(2c) (observed) and c + 3 sqrt(2c) (expected, at all bands). If from strength 10 on some bin expects more than a number that depends on the confidence level, twice its data and five times the misfit of the data without signal, the strength is excluded.", "quantifier": "all simplified likelihoods, strengths, bins, nuisance parameters, confidence levels", "why_tests_cant": "All yields and all likelihoods.", "anchors": ["src/spey/backends/default_pdf/__init__.py:UncorrelatedBackground", "src/spey/backends/default_pdf/simple_pdf.py:Poisson", "src/spey/base/hypotest_base.py:HypothesisTestingBase.exclusion_confidence_level", "src/spey/base/hypotest_base.py:HypothesisTestingBase.significance"]}
{"id": "C165", "title": "Where upper limits lie", "statement": "A finite upper limit of a simplified likelihood lies, up to the tolerance of the root finder, in an interval which is given by the yields alone, and one exists under a condition on the yields alone: few signal events at 1e-10 and many at 1e5 in some bin.", "quantifier": "all simplified likelihoods, confidence levels, starting points, bands, expectations", "why_tests_cant": "All yields and all likelihoods.", "anchors": ["src/spey/backends/default_pdf/__init__.py:UncorrelatedBackground", "src/spey/backends/default_pdf/simple_pdf.py:Poisson", "src/spey/base/hypotest_base.py:HypothesisTestingBase.exclusion_confidence_level", "src/spey/base/hypotest_base.py:HypothesisTestingBase.significance", "src/spey/hypothesis_testing/upper_limits.py:find_poi_upper_limit", "src/spey/base/hypotest_base.py:HypothesisTestingBase.poi_upper_limit"]}
{"id": "C166", "title": "The excluded cross section", "statement": "excluded_cross_section (s95exp, s95obs) raises UnknownCrossSection exactly if no cross section was given; otherwise it returns the cross section at which the exclusion level reaches 95 %, up to the tolerance of the root finder: for bins with independent uncertainties all larger ones are excluded and all smaller ones not. It exists under a condition on the yields alone if the strength 1 is not excluded with exactly 95 %. And it does not depend on the cross section that was assumed for the signal: with cross section and yields scaled together it is the same, unless an excess asks for a strength above 10 in one of the scalings.", "quantifier": "all simplified likelihoods (separation and scaling: those with independent uncertainties), cross sections, expectations, minimisers, root finders, scaling factors", "why_tests_cant": "All yields and all factors.", "anchors": ["src/spey/interface/statistical_model.py:StatisticalModel.excluded_cross_section", "src/spey/interface/statistical_model.py:StatisticalModel.s95exp", "src/spey/interface/statistical_model.py:StatisticalModel.s95obs", "src/spey/base/hypotest_base.py:HypothesisTestingBase.poi_upper_limit"]}
{"id": "C167", "title": "Few and many signal events in combinations, and where their limits lie", "statement": "For a combination of simplified likelihoods and Poisson models: if at a tested strength c signal events are expected in all bins of all models together, the reported levels are at most c + sqrt(2c) (observed) and c + 3 sqrt(2c) (expected, at all bands). From strength 10 on it is excluded if one bin of one model expects many events. Finite upper limits lie between these strengths, up to the tolerance of the root finder, and exist under a condition on the yields alone.", "quantifier": "all numbers and kinds of models with Poisson counts, strengths, bins, nuisance parameters, confidence levels, starting points, bands, expectations", "why_tests_cant": "All yields and all combinations.", "anchors": ["src/spey/combiner/uncorrelated_statistics_combiner.py:UnCorrStatisticsCombiner", "src/spey/backends/default_pdf/__init__.py:UncorrelatedBackground", "src/spey/backends/default_pdf/simple_pdf.py:Poisson", "src/spey/base/hypotest_base.py:HypothesisTestingBase.exclusion_confidence_level", "src/spey/base/hypotest_base.py:HypothesisTestingBase.significance", "src/spey/hypothesis_testing/upper_limits.py:find_poi_upper_limit", "src/spey/base/hypotest_base.py:HypothesisTestingBase.poi_upper_limit"]}
{"id": "C168", "title": "Levels from toys compare numbers of toys that are at least as extreme as the data", "statement": "For the simplified likelihoods and counting models of spey: with calculator='toy' the observed level is one minus the ratio of the numbers of signal and background toys whose likelihood-ratio statistic, from fits of the toy, is at least that of the data (one if no background toy is); the toys are drawn at the yields which fit the data best for the tested strength and without signal, with one auxiliary measurement of the constraint for simplified likelihoods. For a single count, with or without uncertainty, these are the toys with at most as many events as were seen. A strength below the one that fits best has level zero, whatever the toys are.", "quantifier": "all yields, uncertainties, data, tested strengths, numbers of toys, random numbers, minimisers that keep to their contract, and earlier calls", "why_tests_cant": "All real yields and all random numbers; the statistics are those of exact maxima.", "anchors": ["src/spey/base/hypotest_base.py:HypothesisTestingBase.exclusion_confidence_level", "src/spey/interface/statistical_model.py:StatisticalModel.fixed_poi_sampler", "src/spey/backends/default_pdf/__init__.py:DefaultPDFBase.get_sampler", "src/spey/hypothesis_testing/toy_calculator.py:compute_toy_confidence_level"]}
{"id": "C169", "title": "Tests and limits of models whose signal has uncertainties or parameters", "statement": "For every simplified likelihood whose signal has uncertainties (signal_uncertainty_configuration, from any source) or is a function of bounded parameters: all fits of exclusion_confidence_level and significance exist, and levels and significances are those of the asymptotic formulae for the maxima of the documented likelihood (Poisson terms with the signal multiplied by the factors of all sources, Gaussian terms of all nuisance parameters), with parameters inside the bounds and no negative background. Every call at a strength >= 0 answers, with levels between zero and one. An upper limit is a strength at which the level reaches the confidence level, up to the tolerance of the root finder; it is returned if the level is below at 1e-10 and above at 1e5.", "quantifier": "all simplified likelihoods, numbers and kinds of signal uncertainties, signal functions, strengths, expectations, minimisers, root finders, states", "why_tests_cant": "All likelihoods with any number of nuisance parameters; a test fits single ones.", "anchors": ["src/spey/backends/default_pdf/__init__.py:UncorrelatedBackground", "src/spey/backends/default_pdf/simple_pdf.py:Poisson", "src/spey/base/hypotest_base.py:HypothesisTestingBase.exclusion_confidence_level", "src/spey/base/hypotest_base.py:HypothesisTestingBase.significance", "src/spey/backends/default_pdf/__init__.py:DefaultPDFBase", "src/spey/backends/default_pdf/uncertainty_synthesizer.py:signal_uncertainty_synthesizer", "src/spey/base/hypotest_base.py:HypothesisTestingBase.poi_upper_limit"]}
{"id": "C170", "title": "Where limits with signal uncertainties lie", "statement": "The signal of one bin moves by factors between exp(-sqrt(X s)) and exp(sqrt(X s)) if the squares of its nuisance parameters sum up to X, where s is the sum of the squares of log(1+relative uncertainty) of all sources. So a strength at which few events are expected is not excluded, one with many events in some bin is, upper limits lie between these strengths up to the tolerance of the root finder, and exist under a condition on yields and uncertainties alone.", "quantifier": "all simplified likelihoods with signal uncertainties or parameters, strengths, confidence levels, starting points, bands, expectations", "why_tests_cant": "All yields and uncertainties.", "anchors": ["src/spey/backends/default_pdf/__init__.py:UncorrelatedBackground", "src/spey/backends/default_pdf/simple_pdf.py:Poisson", "src/spey/base/hypotest_base.py:HypothesisTestingBase.exclusion_confidence_level", "src/spey/base/hypotest_base.py:HypothesisTestingBase.significance", "src/spey/backends/default_pdf/uncertainty_synthesizer.py:signal_uncertainty_synthesizer", "src/spey/hypothesis_testing/upper_limits.py:find_poi_upper_limit", "src/spey/base/hypotest_base.py:HypothesisTestingBase.poi_upper_limit"]}
{"id": "C171", "title": "A signal that can vanish is never excluded", "statement": "For all parameters of the signal inside their bounds the reported levels are at most those of a statistic which is twice the misfit of data and background, plus twice the signal events at these parameters, plus the squares of the nuisance parameters of the signal. If the signal vanishes there, this holds at all strengths, and poi_upper_limit returns infinity for confidence levels above the bound.", "quantifier": "all simplified likelihoods, signal functions and bounds, strengths, confidence levels, starting points, bands, expectations", "why_tests_cant": "All strengths.", "anchors": ["src/spey/backends/default_pdf/__init__.py:UncorrelatedBackground", "src/spey/backends/default_pdf/simple_pdf.py:Poisson", "src/spey/base/hypotest_base.py:HypothesisTestingBase.exclusion_confidence_level", "src/spey/base/hypotest_base.py:HypothesisTestingBase.significance", "src/spey/hypothesis_testing/upper_limits.py:find_poi_upper_limit", "src/spey/base/hypotest_base.py:HypothesisTestingBase.poi_upper_limit"]}
{"id": "C172", "title": "What uncertainties of the signal change: significances grow, expected levels fall", "statement": "The Asimov data of exclusion tests do not depend on the signal and its uncertainties. Compared with the same model without uncertainties of the signal, the observed significance is never smaller, and no level expected before the measurement is larger.", "quantifier": "all simplified likelihoods, signal yields and uncertainties, strengths, bands, minimisers, states", "why_tests_cant": "All models with any number of nuisance parameters.", "anchors": ["src/spey/backends/default_pdf/__init__.py:UncorrelatedBackground", "src/spey/backends/default_pdf/simple_pdf.py:Poisson", "src/spey/base/hypotest_base.py:HypothesisTestingBase.exclusion_confidence_level", "src/spey/base/hypotest_base.py:HypothesisTestingBase.significance", "src/spey/backends/default_pdf/uncertainty_synthesizer.py:signal_uncertainty_synthesizer", "src/spey/interface/statistical_model.py:StatisticalModel.generate_asimov_data"]}
{"id": "C173", "title": "The caches of a statistical model cannot be seen", "statement": "With minimisers whose result does not depend on the starting point and keys that tell different arguments apart, after any history of requests (including clearing the caches and requests that raised) the maximisations, Asimov data, confidence levels, significances and upper limits of a model are those that the same model without caches and without history gives. A call that returned is not computed again: repeated, it returns the same value and changes nothing. With any minimiser, every answer is one that the method without cache gives in some state.", "quantifier": "all models, histories of requests, arguments and ways of writing them, keys, minimisers", "why_tests_cant": "Histories are unbounded, and the caches interact: one cached method calls two others.", "anchors": ["src/spey/interface/statistical_model.py:StatisticalModel.generate_asimov_data", "src/spey/interface/statistical_model.py:StatisticalModel.maximize_likelihood", "src/spey/interface/statistical_model.py:StatisticalModel.maximize_asimov_likelihood", "src/spey/system/cache.py:_PerInstanceCacheDescriptor._build_wrapper", "src/spey/base/hypotest_base.py:HypothesisTestingBase.exclusion_confidence_level", "src/spey/base/hypotest_base.py:HypothesisTestingBase.poi_upper_limit"]}
{"id": "C174", "title": "The scan over several parameters uses the most sensitive model", "statement": "chi2_test refuses models with different numbers of parameters. It returns one entry for each random point, in order, with the chi-square of the model with the smallest expected limit there.", "quantifier": "all lists of templates, random points, states", "why_tests_cant": "The choice of the model is wrong for every input, but the result looks like a result.", "anchors": ["src/spey/multiparameter/multiparam.py:chi2_test"]}
{"id": "C175", "title": "The caches of the members of a combination cannot be seen", "statement": "With minimisers whose result does not depend on the starting point, the levels, significance and upper limits of a combination are those of the combination of the same models without caches and without history, whatever was asked of the members before.", "quantifier": "all combinations, histories of each member, keys, minimisers of the members, minimisers of the combination that ask for values only", "why_tests_cant": "Members keep their own caches and lists, and combinations call them in data-dependent order.", "anchors": ["src/spey/combiner/uncorrelated_statistics_combiner.py:UnCorrStatisticsCombiner.maximize_likelihood", "src/spey/combiner/uncorrelated_statistics_combiner.py:UnCorrStatisticsCombiner.generate_asimov_data", "src/spey/combiner/uncorrelated_statistics_combiner.py:UnCorrStatisticsCombiner.maximize_asimov_likelihood", "src/spey/interface/statistical_model.py:StatisticalModel.maximize_likelihood"]}
{"id": "C176", "title": "The caches accept every call that the methods accept", "statement": "A cached method accepts every call that it would accept without its cache: computing the key raises nothing. (False: dictionaries with integers and names as keys, for instance fixed_poi_value={0: 1.0, 'theta': 3.0}, are valid for the fit but raise TypeError in the cache. They are the only such calls.)", "quantifier": "all signatures, calls, arguments nested to any depth", "why_tests_cant": "Nesting of any depth, all kinds of keys.", "anchors": ["src/spey/system/cache.py:_make_token", "src/spey/system/cache.py:_build_key", "src/spey/interface/statistical_model.py:StatisticalModel.maximize_likelihood"]}
{"id": "C177", "title": "The keys of the caches tell calls apart that do different things", "statement": "However calls of maximize_likelihood, maximize_asimov_likelihood and generate_asimov_data are written (by position or keyword, defaults left out or not, lists, tuples or arrays, integers or floats), two calls with the same key do the same, and so the levels, significance and limits of a model with the caches are those without, after any history of calls so written. (False for fixed_poi_value with several entries of which two name the same parameter: there the order matters but is not in the key.)", "quantifier": "all ways to write the calls, all histories, models, starting points", "why_tests_cant": "All values of all arguments, SHA-256 without collisions as a contract.", "anchors": ["src/spey/system/cache.py:_make_token", "src/spey/system/cache.py:_build_key", "src/spey/system/cache.py:cache_results", "src/spey/interface/statistical_model.py:StatisticalModel.maximize_likelihood", "src/spey/interface/statistical_model.py:StatisticalModel.maximize_asimov_likelihood", "src/spey/interface/statistical_model.py:StatisticalModel.generate_asimov_data"]}
{"id": "C178", "title": "Expected levels from toys compare quantiles of the background toys", "statement": "For the simplified likelihoods and counting models of spey, with calculator='toy' and any expectation: toys are drawn at the yields that fit the data of that expectation best for the tested strength and without signal. The expected level at k standard deviations is one minus the ratio of the numbers of signal and background toys at least as extreme as the Phi(k) quantile of the background toys; more than (1-Phi(k))(n-1) of the n background toys are, hence always one, and the quantiles grow with k. The five levels fall from two standard deviations up to two down.", "quantifier": "all yields, uncertainties, data, tested strengths, expectations, numbers of toys, random numbers, minimisers that keep to their contract, and earlier calls", "why_tests_cant": "All random numbers; sorted levels are usual, and an order that breaks is rare.", "anchors": ["src/spey/base/hypotest_base.py:HypothesisTestingBase.exclusion_confidence_level", "src/spey/hypothesis_testing/toy_calculator.py:compute_toy_confidence_level", "src/spey/hypothesis_testing/distributions.py:EmpricTestStatisticsDistribution.expected_value"]}
{"id": "C179", "title": "Levels from toys of Gaussian models compare measured strengths", "statement": "For default.normal and default.multivariate_normal with any number of bins and calculator='toy': toys are drawn at the expected values for the tested strength and without signal. The observed level of a strength between 0 and 10 beyond the one that the data measure (generalised least squares) is one minus the ratio of the numbers of signal and background toys that measure at most that strength (at most one; one if no background toy does); a strength up to the measured one has level zero. Observed and expected levels use the statistics of Gaussian measurements of the strength.", "quantifier": "all yields, uncertainties and covariance matrices, data, tested strengths, expectations, numbers of toys, random numbers, exact minimisers, and earlier calls", "why_tests_cant": "All real data and all random numbers.", "anchors": ["src/spey/base/hypotest_base.py:HypothesisTestingBase.exclusion_confidence_level", "src/spey/backends/default_pdf/simple_pdf.py:SimplePDFBase", "src/spey/backends/default_pdf/__init__.py:DefaultPDFBase.get_sampler", "src/spey/hypothesis_testing/toy_calculator.py:compute_toy_confidence_level"]}
{"id": "C180", "title": "Levels from many toys converge to those of the asymptotic formula", "statement": "As the number of toys grows, levels with calculator='toy' converge almost surely. For default.normal and default.multivariate_normal, the observed level of a strength beyond the measured one and the expected levels converge to those of calculator='asymptotic'. For default.poisson and default.uncorrelated_background with any number of bins the observed level converges to one minus the ratio (at most one) of the probabilities that Poisson numbers of events have at least the statistic of the data, with the rates that fit the data best for the tested strength and without signal; for a single bin these are the probabilities of at most as many events as were seen.", "quantifier": "all yields, uncertainties, covariance matrices, data, tested strengths, exact minimisers, earlier calls and all generators of independent random numbers", "why_tests_cant": "Limits of infinitely many random toys, for all real data.", "anchors": ["src/spey/base/hypotest_base.py:HypothesisTestingBase.exclusion_confidence_level", "src/spey/hypothesis_testing/toy_calculator.py:compute_toy_confidence_level", "src/spey/hypothesis_testing/distributions.py:EmpricTestStatisticsDistribution", "src/spey/hypothesis_testing/asymptotic_calculator.py:compute_asymptotic_confidence_level"]}
{"id": "C181", "title": "More bins or models never weaken the exclusion expected before the measurement", "statement": "For poisson and uncorrelated_background none of the five levels expected before the measurement falls when bins are added; those of a combination are at least those of every model with some of its bins, for instance of each of its members, and the limits expected before the measurement are not higher, up to the tolerances of the root finders. For combinations of such models, too, levels never decrease with the strength, and more events in any bin of any member never exclude more. (After the measurement a bin with an excess can weaken the observed exclusion.)", "quantifier": "all numbers of models and bins, yields, strengths, confidence levels, starting points, bands", "why_tests_cant": "All yields and all combinations.", "anchors": ["src/spey/backends/default_pdf/__init__.py:UncorrelatedBackground", "src/spey/backends/default_pdf/simple_pdf.py:Poisson", "src/spey/base/hypotest_base.py:HypothesisTestingBase.exclusion_confidence_level", "src/spey/base/hypotest_base.py:HypothesisTestingBase.significance", "src/spey/combiner/uncorrelated_statistics_combiner.py:UnCorrStatisticsCombiner.likelihood", "src/spey/combiner/uncorrelated_statistics_combiner.py:UnCorrStatisticsCombiner.maximize_likelihood", "src/spey/base/hypotest_base.py:HypothesisTestingBase.poi_upper_limit"]}
{"id": "C182", "title": "A true signal is excluded with probability 1 - CL at most", "statement": "For the Gaussian models, when the data have the distribution that the model assumes with a signal of strength u: exclusion_confidence_level reports a level of at least CL for a strength up to u (and up to 10) with probability at most 1 - CL, and poi_upper_limit returns an observed limit below u (up to the tolerance of the root finder) with probability at most 1 - CL, for all CL of at least one half (below, a signal can be excluded always). The level expected for data n standard deviations above the background is reached by the observed one with probability Phi(n - u / sigma), if these data measure less than the tested strength. Without signal, significance reports a p-value up to alpha with probability alpha at most (alpha below one half). For counts in any number of bins with known backgrounds the level from many toys is at least CL with probability at most 1 - CL.", "quantifier": "all distributions of data with the covariance matrix of the model, numbers of bins, yields, strengths, confidence levels", "why_tests_cant": "A test sees a few data sets; these are statements about the distribution of the results over all data.", "anchors": ["src/spey/backends/default_pdf/__init__.py:UncorrelatedBackground", "src/spey/backends/default_pdf/simple_pdf.py:Poisson", "src/spey/base/hypotest_base.py:HypothesisTestingBase.exclusion_confidence_level", "src/spey/base/hypotest_base.py:HypothesisTestingBase.significance", "src/spey/base/hypotest_base.py:HypothesisTestingBase.poi_upper_limit", "src/spey/base/hypotest_base.py:HypothesisTestingBase.significance", "src/spey/base/hypotest_base.py:HypothesisTestingBase.exclusion_confidence_level"]}
{"id": "C183", "title": "Methods that override a cached method do what they would do without caches", "statement": "If a class overrides a method of a base class, and either of them or both have the per-instance cache, then calls of the method return what they would return without caches, also when the new method continues with the one of the base class. (False for objects with a __dict__ if super() leads to a cached method: the wrapper in the object is stored under the name of the method only. A new method without cache is skipped from its second call on; one with cache waits for itself forever or recurses without end.)", "quantifier": "all chains of classes, bodies, arguments, sequences of calls", "why_tests_cant": "Every way to extend a method, any number of classes and calls.", "anchors": ["src/spey/system/cache.py:_PerInstanceCacheDescriptor.__get__", "src/spey/system/cache.py:_PerInstanceCacheDescriptor._get_fallback", "src/spey/system/cache.py:_PerInstanceCacheDescriptor._build_wrapper"]}
{"id": "C184", "title": "chi2_test returns the central interval of the measured strength", "statement": "For default.normal and default.multivariate_normal with any number of bins, chi2_test returns est - z sigma and est + z sigma, where est is the generalised least squares estimate of the signal strength, sigma its standard deviation and z the number of standard deviations of the confidence level, up to the tolerance of the root finder; with limit_type='right' the upper end, with the distance measured from zero for a deficit. If the data follow the model, the interval misses the true strength with probability at most 1 - CL. (False for estimates above 10, where the fit ends: the interval is then too wide.)", "quantifier": "all yields, data, covariances, confidence levels below six standard deviations, root finders and minimisers that keep to their contract, and earlier calls", "why_tests_cant": "Expected values in tests come from the same search; whether the crossings are those of the likelihood for all data cannot be sampled.", "anchors": ["src/spey/base/hypotest_base.py:HypothesisTestingBase.chi2_test", "src/spey/base/utils.py:_enumerate_crossings_1d"]}
{"id": "C185", "title": "sigma_mu of counts is the inverse square root of their information", "statement": "For default.poisson with any number of bins, with background in each and an event in one with signal, sigma_mu at a strength that is not negative is the square root of the inverse of the sum of d s^2/(mu s+b)^2 over the bins. So poi_upper_limit without starting points starts from numbers and returns a finite limit that separates excluded from other strengths, if there is one.", "quantifier": "all yields, data, strengths, expectations, minimisers and root finders that keep to their contract, earlier calls", "why_tests_cant": "All real yields; the second derivative is exact.", "anchors": ["src/spey/base/hypotest_base.py:HypothesisTestingBase.sigma_mu", "src/spey/interface/statistical_model.py:StatisticalModel.sigma_mu_from_hessian", "src/spey/backends/default_pdf/simple_pdf.py:Poisson", "src/spey/base/hypotest_base.py:HypothesisTestingBase.poi_upper_limit"]}
{"id": "C186", "title": "Upper limits from chi2_test of the binned models", "statement": "For default.poisson and default.uncorrelated_background whose fitted strength is not limited by its upper bound, whatever numbers of points and starts: chi2_test(limit_type='right') returns nan, 1e5, or strengths x, and if x is above the fitted strength (by the tolerance), the statistic of all smaller strengths is at most the quantile of the chi-square distribution and that of all larger ones at least. With the default number of points it returns the strength whose statistic is the quantile, if that is in the window of the first scan, whose ends are on different sides.", "quantifier": "all yields, uncertainties, data, expectations, confidence levels, scan sizes, minimisers and root finders that keep to their contract, earlier calls", "why_tests_cant": "The scan, the root finder and the fits interact; all real yields and scan sizes.", "anchors": ["src/spey/base/hypotest_base.py:HypothesisTestingBase.chi2_test", "src/spey/base/utils.py:_enumerate_crossings_1d", "src/spey/backends/default_pdf/__init__.py:UncorrelatedBackground", "src/spey/backends/default_pdf/simple_pdf.py:Poisson"]}
{"id": "C187", "title": "chi2_test for a nuisance parameter returns crossings of its profile likelihood", "statement": "With a nuisance parameter given by name or index, with or without poi_value: every value that chi2_test returns is nan, a limit of the search (the suggested bounds of the parameter, \u00b11e5 without), or a value of the parameter near which twice the difference between the profile likelihood of this parameter (all other parameters fitted, the signal strength at poi_value if it is given) and the smallest value crosses the quantile of the chi-square distribution; two-sided results have at least two values. If the profile likelihood is Gaussian and the interval inside the first scan, the defaults return est - z sigma and est + z sigma.", "quantifier": "all models, parameters with and without suggested bounds, values of the signal strength, expectations, confidence levels, sides, scan sizes, minimisers and root finders that keep to their contract, earlier calls", "why_tests_cant": "The scan, the root finder and the fits interact; all likelihoods.", "anchors": ["src/spey/base/hypotest_base.py:HypothesisTestingBase.chi2_test", "src/spey/interface/statistical_model.py:StatisticalModel.maximize_likelihood", "src/spey/interface/statistical_model.py:StatisticalModel.likelihood"]}
{"id": "C188", "title": "chi2_test for the signal strength of any model returns crossings of its profile likelihood", "statement": "For any model, side, scan and confidence level: every value that chi2_test returns for the signal strength is nan, a limit of the search (\u00b11e5), or a value near which twice the difference between the profile likelihood and the smallest value crosses the quantile of the chi-square distribution; the smallest value is that of the fit, or, for a signal strength that the bounds of the fit exclude, a smaller one found by the search; two-sided results have at least two values. If the profile likelihood is Gaussian, the estimate allowed, and the inverse Hessian gives its variance, the defaults return est - z sigma and est + z sigma.", "quantifier": "all models with any number of parameters and constraints, expectations, confidence levels, sides, scan sizes, minimisers and root finders that keep to their contract, earlier calls", "why_tests_cant": "The scan, the root finder and the fits interact; all likelihoods.", "anchors": ["src/spey/base/hypotest_base.py:HypothesisTestingBase.chi2_test", "src/spey/interface/statistical_model.py:StatisticalModel.maximize_likelihood", "src/spey/interface/statistical_model.py:StatisticalModel.likelihood", "src/spey/interface/statistical_model.py:StatisticalModel.sigma_mu_from_hessian"]}
{"id": "C189", "title": "chi2_test of a combination returns the interval of the weighted mean", "statement": "For a combination of Gaussian models with different names whose inverse-variance weighted mean of least squares estimates is allowed in the fit, negative or not: sigma_mu is the standard deviation of the mean for positive strengths and one for others; chi2_test with its defaults returns the mean minus and plus z combined standard deviations, if the interval is inside the window of the search. For any side, scan and start numbers all values returned are nan, a limit of the search or an end of that interval; two-sided results have at least two values.", "quantifier": "all numbers of models, bins, covariances, data, expectations, confidence levels, sides, scan sizes, root finders within their tolerance, earlier calls", "why_tests_cant": "The combined fit, the standard deviation from Asimov data and the search interact; all data.", "anchors": ["src/spey/base/hypotest_base.py:HypothesisTestingBase.chi2_test", "src/spey/combiner/uncorrelated_statistics_combiner.py:UnCorrStatisticsCombiner.maximize_likelihood", "src/spey/combiner/uncorrelated_statistics_combiner.py:UnCorrStatisticsCombiner.likelihood", "src/spey/base/hypotest_base.py:HypothesisTestingBase.sigma_mu"]}
{"id": "C190", "title": "A decorated function returns results of the object it was called on, however it is called", "statement": "For a function decorated with cache_results: if per_instance=True is given or the first parameter is named self, then in every sequence of calls obj.m(...), Class.m(obj, ...) every result belongs to the object of the call, also if objects compare equal; calls on the class always run the function; exceptions are never remembered. Other functions share one cache for all ways of calling, and results belong to the object of the call. Functions outside classes can be called.", "quantifier": "all signatures, objects with any equality and repr, functions depending on the time of the call, all sequences of calls", "why_tests_cant": "Unbounded sequences of calls over objects with any equality.", "anchors": ["src/spey/system/cache.py:cache_results", "src/spey/system/cache.py:_has_self_param", "src/spey/system/cache.py:_PerInstanceCacheDescriptor.__get__"]}
{"id": "C191", "title": "In a session with several models and combinations every test gives what it gives alone", "statement": "For any sequence of calls of the methods of several models, clearing of their caches, and tests (levels, significance, upper limit, chi2_test, likelihoods and fits) of the models and of combinations of them: each test gives the answer, or the exception, that it gives as the first call for new models without caches.", "quantifier": "all numbers of models, backends, minimisers that do not depend on the starting point, all sequences of calls and tests, all ways of writing the arguments of cached calls", "why_tests_cant": "Unbounded sequences of calls on shared models; caches and starting lists carry state from call to call.", "anchors": ["src/spey/base/hypotest_base.py:HypothesisTestingBase", "src/spey/combiner/uncorrelated_statistics_combiner.py:UnCorrStatisticsCombiner", "src/spey/interface/statistical_model.py:StatisticalModel", "src/spey/system/cache.py:cache_results"]}
{"id": "C192", "title": "Asimov data of combinations whose members were renamed", "statement": "After every history of creations, append, remove, @ and assignments to the attribute analysis, the Asimov likelihood of a combination evaluates each member with its own Asimov data, and does not depend on the order of the members.", "quantifier": "For all histories, models, names, POI values and options.", "why_tests_cant": "Names are checked for equality only when a model is added; tests do not assign names later, and the data of another member are used without any error.", "anchors": ["src/spey/combiner/uncorrelated_statistics_combiner.py:UnCorrStatisticsCombiner.append", "src/spey/combiner/uncorrelated_statistics_combiner.py:UnCorrStatisticsCombiner.likelihood", "src/spey/combiner/uncorrelated_statistics_combiner.py:UnCorrStatisticsCombiner.generate_asimov_data"]}
{"id": "C193", "title": "A combination excludes a true signal, claims a discovery or misses the strength no more often than stated", "statement": "The data of several independent Gaussian models follow their models with a signal of the same strength. Then exclusion_confidence_level of the combination reports a level of at least CL for a strength that is not larger than the true one with probability 1 - CL at most, for CL of at least one half; without signal the p-value of significance is at most alpha with probability alpha at most; the upper limit of poi_upper_limit is below the true strength, with the tolerance of the root finder, with probability 1 - CL at most; the observed level reaches the expected one k standard deviations above the background with probability Phi(k - u / sigma); and in the conditions of C189 the interval of chi2_test misses the true strength, up to the tolerance of the root finder, with probability 1 - CL at most.", "quantifier": "all numbers of models and bins, all signals, backgrounds, uncertainties and covariance matrices, all strengths between 0 and 10, all confidence levels of at least one half, all probability spaces and independent normal data; contracts: exact minimisers", "why_tests_cant": "The probabilities are over all possible data of all experiments; tests run the combination on single data sets.", "anchors": ["src/spey/combiner/uncorrelated_statistics_combiner.py:UnCorrStatisticsCombiner.likelihood", "src/spey/base/hypotest_base.py:HypothesisTestingBase.exclusion_confidence_level", "src/spey/base/hypotest_base.py:HypothesisTestingBase.significance", "src/spey/base/hypotest_base.py:HypothesisTestingBase.chi2_test"]}
{"id": "C194", "title": "Adding an independent Gaussian model to a combination raises what it expects to exclude or discover", "statement": "For combinations of Gaussian models, every model that is added raises all five expected exclusion levels of every positive signal strength and the expected significance, and lowers all five expected p-values. It lowers the expected upper limits, up to the tolerance of the root finder, where both limits lie in the range of the search. The observed level may fall.", "quantifier": "all numbers of models and bins, all signals, backgrounds, data, uncertainties and covariance matrices, all positive strengths, all confidence levels above one half; contracts: exact minimisers, sound root finder", "why_tests_cant": "The comparison is between all combinations and their parts; tests compare single numbers.", "anchors": ["src/spey/combiner/uncorrelated_statistics_combiner.py:UnCorrStatisticsCombiner.likelihood", "src/spey/combiner/uncorrelated_statistics_combiner.py:UnCorrStatisticsCombiner.maximize_asimov_likelihood", "src/spey/base/hypotest_base.py:HypothesisTestingBase.exclusion_confidence_level", "src/spey/base/hypotest_base.py:HypothesisTestingBase.significance", "src/spey/base/hypotest_base.py:HypothesisTestingBase.poi_upper_limit"]}
