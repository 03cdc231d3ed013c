{"id": "C01", "title": "Discrete data summary is exact", "statement": "Building discrete data from a non-empty sample yields distinct sorted values, positive counts equal to the number of occurrences of each value, counts summing to the sample size, K = number of distinct values, and strictly positive probabilities summing to one.", "quantifier": "every non-empty sample of any totally ordered symbol type", "why_tests_cant": "must hold for every sample, every alphabet and every length", "anchors": ["infomeasure/utils/data.py:DiscreteData.from_data", "infomeasure/utils/data.py:DiscreteData.__post_init__", "infomeasure/utils/data.py:DiscreteData.probabilities"]}
{"id": "C02", "title": "Count validation is exact", "statement": "Building discrete data from values and counts succeeds exactly when the two have the same length, no count is negative, all counts are integral and they do not sum to zero; otherwise ValueError. On success N is the sum of counts and K the number of values.", "quantifier": "every pair of value list and count list", "why_tests_cant": "the guard order and the accepted set range over all inputs", "anchors": ["infomeasure/utils/data.py:DiscreteData.from_counts", "infomeasure/utils/data.py:DiscreteData.__post_init__"]}
{"id": "C03", "title": "Discrete entropy is the Shannon entropy of the sample", "statement": "entropy(x, approach='discrete', base=b) returns the Shannon entropy of the empirical distribution of x in base b.", "quantifier": "every non-empty sample and every base b>0, b≠1 or 'e'", "why_tests_cant": "an identity over all samples and bases", "anchors": ["infomeasure/estimators/entropy/discrete.py:DiscreteEntropyEstimator._simple_entropy", "infomeasure/estimators/base.py:Estimator._log_base"]}
{"id": "C04", "title": "Discrete entropy bounds", "statement": "0 ≤ H ≤ log_b K for b>1; H = 0 exactly when the sample is constant; H = log_b K exactly when all observed values are equally frequent.", "quantifier": "every non-empty sample and every base b>1", "why_tests_cant": "inequalities with equality cases over an infinite input space", "anchors": ["infomeasure/estimators/entropy/discrete.py:DiscreteEntropyEstimator._simple_entropy"]}
{"id": "C05", "title": "Discrete entropy ignores order and labels", "statement": "Reordering the sample or renaming its symbols injectively does not change the discrete entropy.", "quantifier": "every sample, every permutation of it, every injective relabelling", "why_tests_cant": "quantifies over all permutations and relabellings", "anchors": ["infomeasure/estimators/entropy/discrete.py", "infomeasure/utils/data.py:DiscreteData.from_data"]}
{"id": "C06", "title": "Local discrete entropies average to the global value", "statement": "The local values have one entry per sample point, each is −log_b of that point's relative frequency, each is ≥ 0 for b>1, and their mean is the global value.", "quantifier": "every non-empty sample and base", "why_tests_cant": "consistency over all samples", "anchors": ["infomeasure/estimators/entropy/discrete.py:DiscreteEntropyEstimator._extract_local_values", "infomeasure/estimators/base.py:Estimator.local_vals"]}
{"id": "C07", "title": "Joint-space reduction is lossless", "statement": "Reducing several aligned variables to integer codes gives equal codes at two positions exactly when the joint rows are equal; a one-dimensional input is returned unchanged; a plain list or >2 dimensions is a ValueError.", "quantifier": "every tuple of equally long variables", "why_tests_cant": "injectivity over all rows", "anchors": ["infomeasure/estimators/utils/ordinal.py:reduce_joint_space"]}
{"id": "C08", "title": "Joint entropy is the entropy of the joint rows", "statement": "Discrete joint entropy of a tuple of variables equals the Shannon entropy of the rows, does not depend on the order of the variables, is at least every marginal entropy and at most the sum of the marginal entropies.", "quantifier": "every tuple of equally long non-empty discrete variables", "why_tests_cant": "sub-additivity and monotonicity over all samples", "anchors": ["infomeasure/estimators/utils/ordinal.py:reduce_joint_space", "infomeasure/estimators/entropy/discrete.py:DiscreteEntropyEstimator._joint_entropy", "infomeasure/estimators/base.py:DiscreteHEstimator"]}
{"id": "C09", "title": "Base change is a pure rescaling", "statement": "Every discrete, bias-corrected, NSB, ordinal, kernel, KSG, Kozachenko–Leonenko and Rényi measure (entropy, cross-entropy, divergences, MI, CMI, TE, CTE, local values) computed in base b fails exactly as it does in nats, or equals the natural-log value divided by ln b; two bases convert by the ratio of their logs. Exceptions: two-variable discrete MI for a base below 1 (clipped to 0, see C11), and the Tsallis measures of order ≠ 1, which do not depend on the base (of order 1 they rescale).", "quantifier": "every argument (valid or not), every valid base", "why_tests_cant": "scaling law over all bases", "anchors": ["infomeasure/estimators/base.py:Estimator._log_base", "infomeasure/estimators/utils/discrete_interaction_information.py", "infomeasure/estimators/utils/exponential_family.py"]}
{"id": "C10", "title": "Log-base guard", "statement": "A negative base is a ValueError, base 0 yields 0, 2/'e'/10 use the dedicated logs and agree with the general quotient, any other positive base ≠ 1 uses ln x/ln b.", "quantifier": "every base value", "why_tests_cant": "case split over all bases", "anchors": ["infomeasure/estimators/base.py:Estimator._log_base"]}
{"id": "C11", "title": "Discrete mutual information equals the entropy combination and is non-negative", "statement": "For two aligned discrete variables MI = H(X)+H(Y)−H(X,Y) ≥ 0 (b>1); the clip at zero and the early return never change the value.", "quantifier": "every pair of equally long non-empty samples and base", "why_tests_cant": "inequality and identity over all samples", "anchors": ["infomeasure/estimators/utils/discrete_interaction_information.py:_mutual_information_global_2d_int", "infomeasure/estimators/mutual_information/discrete.py:DiscreteMIEstimator"]}
{"id": "C12", "title": "Discrete mutual information algebra", "statement": "MI is symmetric, at most min(H(X),H(Y)), equals H(X) when Y is an injective function of X (so MI(X,X)=H(X)), invariant under injective relabelling, and zero exactly when the empirical distributions are independent.", "quantifier": "every pair of equally long samples", "why_tests_cant": "quantifies over all pairs and relabellings", "anchors": ["infomeasure/estimators/utils/discrete_interaction_information.py:mutual_information_global"]}
{"id": "C13", "title": "Multi-variable mutual information is total correlation", "statement": "For n ≥ 2 aligned discrete variables (N^n < 2^64) the result is the total correlation ΣH(X_i) − H(X_1..X_n), except that with three or more variables of which one is constant it is 0, even if the others are dependent. So it is the total correlation exactly when n = 2, or no variable is constant, or the total correlation is 0.", "quantifier": "every n≥2 equally long samples", "why_tests_cant": "needs all n and all samples; the violation sits on a rare boundary", "anchors": ["infomeasure/estimators/utils/discrete_interaction_information.py:_mutual_information_global_nd_int", "infomeasure/estimators/utils/discrete_interaction_information.py:mutual_information_local"]}
{"id": "C14", "title": "Marginal-count products do not wrap", "statement": "The uint64 product of marginal counts equals the exact product whenever N^n < 2^64, so the n-variable MI/CMI is not corrupted by wrap-around; beyond that it can be wrong.", "quantifier": "every number of variables and sample size", "why_tests_cant": "boundary needs large inputs no test reaches", "anchors": ["infomeasure/estimators/utils/discrete_interaction_information.py:_mutual_information_global_nd_int", "infomeasure/estimators/utils/discrete_interaction_information.py:_conditional_mutual_information_global_nd_int"]}
{"id": "C15", "title": "Local mutual information averages to global", "statement": "Local MI has one value per sample and its mean is the global MI, for any number of variables (no Miller–Madow or with it).", "quantifier": "every n≥2 equally long samples", "why_tests_cant": "consistency over all inputs", "anchors": ["infomeasure/estimators/utils/discrete_interaction_information.py:mutual_information_local", "infomeasure/estimators/utils/discrete_interaction_information.py:mutual_information_global"]}
{"id": "C16", "title": "Conditional mutual information of two variables", "statement": "CMI(X;Y|Z) = H(X,Z)+H(Y,Z)−H(X,Y,Z)−H(Z) ≥ 0, symmetric in X,Y; local values average to it. A missing condition, a non-zero offset, or variables and condition of different lengths are a ValueError.", "quantifier": "every triple of equally long samples and base", "why_tests_cant": "strong sub-additivity over all samples", "anchors": ["infomeasure/estimators/utils/discrete_interaction_information.py:_conditional_mutual_information_global_nd_int", "infomeasure/estimators/utils/discrete_interaction_information.py:conditional_mutual_information_local"]}
{"id": "C17", "title": "Conditional mutual information of n variables", "statement": "For n ≥ 2 aligned discrete variables and a condition Z (N^n < 2^64) the result is ΣH(X_i,Z) − H(X_1..X_n,Z) − H(Z), that is the conditional total correlation Σ H(X_i|Z) − H(X_1..X_n|Z) plus (n−2)·H(Z), except that it is 0 when Z and one of the variables are constant. So it is the conditional total correlation exactly when n = 2, or Z is constant and either no variable is constant or the conditional total correlation is 0.", "quantifier": "every n≥2 and all samples", "why_tests_cant": "needs all n", "anchors": ["infomeasure/estimators/utils/discrete_interaction_information.py:_conditional_mutual_information_global_nd_int", "infomeasure/estimators/base.py:ConditionalMutualInformationEstimator._generic_cmi_from_entropy"]}
{"id": "C18", "title": "All mutual-information code paths agree", "statement": "The contingency-table (2 variables), sparse n-dimensional and Counter implementations return the same value on the same data when no variable is constant, and the slicing-generic entropy combination agrees with them.", "quantifier": "every list of equally long samples", "why_tests_cant": "cross-implementation equivalence over all inputs", "anchors": ["infomeasure/estimators/utils/discrete_interaction_information.py:mutual_information_global", "infomeasure/estimators/utils/discrete_interaction_information.py:_mutual_information_global_nd_other", "infomeasure/estimators/base.py:MutualInformationEstimator._generic_mi_from_entropy"]}
{"id": "C19", "title": "Miller–Madow corrections are consistent", "statement": "Miller–Madow entropy is plug-in + (K−1)/(2N) (in base b); MM MI of any number of variables equals ΣH_MM(X_i) − H_MM(X_1..X_n), and MM CMI ΣH_MM(X_i,Z) − H_MM(X_1..X_n,Z) − H_MM(Z), except that they are 0 when one of three or more variables (MI) or the condition and one variable (CMI) are constant; local entropy values average to the global value.", "quantifier": "every sample tuple and base", "why_tests_cant": "algebraic consistency over all cardinalities", "anchors": ["infomeasure/estimators/entropy/miller_madow.py", "infomeasure/estimators/utils/discrete_interaction_information.py:millermadow_mi_corr", "infomeasure/estimators/mutual_information/miller_madow.py"]}
{"id": "C20", "title": "Transfer-entropy embedding indexes correctly", "statement": "Every index used is inside the series (no negative wrap-around); row t of the embedding holds source and destination histories that end strictly before the future value, spaced by step_size, in time order; the number of rows is ceil((n−max(k,l)·step)/step).", "quantifier": "every series length, history lengths and step size that pass validation", "why_tests_cant": "index arithmetic over unbounded sizes", "anchors": ["infomeasure/estimators/utils/te_slicing.py:te_observations", "infomeasure/estimators/utils/te_slicing.py:_src_dest_slices"]}
{"id": "C21", "title": "Transfer-entropy embedding rejects exactly the invalid parameters", "statement": "For series of equal length the embedding succeeds exactly when the history lengths and the step size are positive integers, the maximal delay is smaller than the series, and not both permute and resample are requested; every other call raises ValueError, except that a step that does not compare with numbers (the documented None) raises TypeError in the unconditional slicing.", "quantifier": "every parameter combination", "why_tests_cant": "exact guard over all integers", "anchors": ["infomeasure/estimators/utils/te_slicing.py:te_observations", "infomeasure/estimators/utils/te_slicing.py:cte_observations"]}
{"id": "C22", "title": "Source permutation touches only the source", "statement": "With permute_src the source-history rows are a permutation of the un-permuted rows and destination history and future are unchanged; with resample_src every source row is one of the original rows.", "quantifier": "every series, parameters and generator outcome", "why_tests_cant": "ranges over every outcome of the random generator", "anchors": ["infomeasure/estimators/utils/te_slicing.py:_src_dest_slices"]}
{"id": "C23", "title": "Embedded joint and marginal spaces are consistent", "statement": "The joint, dest-past and the two marginal spaces returned by the slicing have the same number of rows and are row-wise projections of the same embedding; with a condition it is appended to each.", "quantifier": "every valid parameter set", "why_tests_cant": "structure over all sizes", "anchors": ["infomeasure/estimators/utils/te_slicing.py:_construct_joint_space_data", "infomeasure/estimators/utils/te_slicing.py:cte_observations"]}
{"id": "C24", "title": "Discrete transfer entropy is the right entropy combination", "statement": "TE(source→dest) equals H(src,dst)+H(dst,fut)−H(src,dst,fut)−H(dst) of the embedded data, hence ≥ 0, and is 0 for a constant source; the generic slicing-based path gives the same value; the same holds for the Miller–Madow and the conditional variants, and local values average to the global one.", "quantifier": "every pair of series and valid parameters", "why_tests_cant": "identity and inequality over all series", "anchors": ["infomeasure/estimators/utils/discrete_transfer_entropy.py:combined_te_form", "infomeasure/estimators/transfer_entropy/discrete.py", "infomeasure/estimators/base.py:TransferEntropyEstimator._generic_te_from_entropy"]}
{"id": "C25", "title": "Offset pairs the right samples", "statement": "With offset o ≥ 0 the pairs are (x_t, y_{t+o}) for t < n−o; with o<0 (x_{t−o}, y_t); both sides keep equal length and MI(x,y,offset=o) = MI(y,x,offset=−o).", "quantifier": "every series length and integer offset with |o| ≤ n", "why_tests_cant": "off-by-one over unbounded sizes", "anchors": ["infomeasure/estimators/base.py:MutualInformationEstimator.__init__", "infomeasure/estimators/base.py:TransferEntropyEstimator.__init__"]}
{"id": "C26", "title": "Permutation codes are a bijection", "statement": "permutation_to_integer maps permutations of 0..n−1 (n ≤ 20) injectively onto [0, n!) in lexicographic order, and the dtype chosen by symbolisation never overflows.", "quantifier": "every n ≤ 20 and every permutation", "why_tests_cant": "n! grows beyond enumeration; overflow only at the boundary", "anchors": ["infomeasure/estimators/utils/ordinal.py:permutation_to_integer", "infomeasure/estimators/utils/ordinal.py:symbolize_series"]}
{"id": "C27", "title": "Symbolisation is ordinal", "statement": "symbolize_series yields n−(d−1)·step symbols, each a permutation of 0..d−1, unchanged by any strictly increasing transformation of the data.", "quantifier": "every series, embedding dimension and step", "why_tests_cant": "quantifies over all monotone maps", "anchors": ["infomeasure/estimators/utils/ordinal.py:symbolize_series"]}
{"id": "C28", "title": "Ordinal entropy fast paths agree with the generic path", "statement": "For embedding dimension 2 and 3 the special-case counting gives the same entropy as the generic argsort counting on series without ties in a window; with ties they may differ.", "quantifier": "every tie-free series", "why_tests_cant": "equivalence of implementations over all series", "anchors": ["infomeasure/estimators/entropy/ordinal.py:OrdinalEntropyEstimator"]}
{"id": "C29", "title": "Ordinal entropy bounds", "statement": "0 ≤ H ≤ log_b(d!) and H = 0 for monotone series and for d = 1.", "quantifier": "every series and embedding dimension", "why_tests_cant": "inequality over all inputs", "anchors": ["infomeasure/estimators/entropy/ordinal.py:OrdinalEntropyEstimator._simple_entropy"]}
{"id": "C30", "title": "Chao–Shen estimator is well defined", "statement": "For every sample the estimated coverage is strictly positive, each inclusion probability lies in (0,1], and the estimate is finite and ≥ the coverage-scaled sum, in particular ≥ 0.", "quantifier": "every non-empty sample", "why_tests_cant": "singleton corner cases over all count vectors", "anchors": ["infomeasure/estimators/entropy/chao_shen.py:ChaoShenEntropyEstimator._simple_entropy"]}
{"id": "C31", "title": "Chao–Wang–Jost estimator is well defined", "statement": "The coverage parameter A lies in (0,1] and the correction term is ≥ 0.", "quantifier": "every count vector", "why_tests_cant": "singleton/doubleton corner cases", "anchors": ["infomeasure/estimators/entropy/chao_wang_jost.py"]}
{"id": "C32", "title": "Shrinkage estimator", "statement": "λ ∈ [0,1], shrunk probabilities are positive and sum to one, plug-in entropy ≤ shrinkage entropy ≤ log_b K.", "quantifier": "every non-empty sample", "why_tests_cant": "inequality over all count vectors", "anchors": ["infomeasure/estimators/entropy/shrink.py"]}
{"id": "C33", "title": "Bayesian estimator", "statement": "With the observed support size the Bayesian probabilities are positive and sum to one, so 0 ≤ H ≤ log_b K; α = 0 gives the plug-in estimate; prior names select the documented α, unknown names are a ValueError. Deviations: with a larger explicit K the probabilities used sum to less than one; 'min-max' is accepted only in lower case.", "quantifier": "every sample, α ≥ 0, K", "why_tests_cant": "inequalities over all count vectors and priors", "anchors": ["infomeasure/estimators/entropy/bayes.py:BayesEntropyEstimator"]}
{"id": "C34", "title": "Local values average to global for bias-corrected estimators", "statement": "For Miller–Madow, Grassberger and Zhang there is one local value per sample and their mean is the global value. For shrinkage this is false, and so its mutual information is not the combination of its own entropies.", "quantifier": "every sample", "why_tests_cant": "consistency over all samples", "anchors": ["infomeasure/estimators/entropy/grassberger.py", "infomeasure/estimators/entropy/zhang.py", "infomeasure/estimators/entropy/shrink.py", "infomeasure/estimators/entropy/bayes.py", "infomeasure/estimators/base.py:Estimator.local_vals"]}
{"id": "C35", "title": "Vectorised Zhang and Bonachela formulas equal the published sums", "statement": "The masked, vectorised computation returns exactly the documented double sum; both are ≥ 0 for b>1 and Zhang of a constant sample is 0.", "quantifier": "every count vector", "why_tests_cant": "masking off-by-ones over all counts", "anchors": ["infomeasure/estimators/entropy/zhang.py", "infomeasure/estimators/entropy/bonachela.py"]}
{"id": "C36", "title": "Cross-entropy and KL divergence", "statement": "Discrete cross-entropy uses p-weights and −log q over the common support (0 if none); KLD(P,P)=0, KLD ≥ 0 when every symbol of P occurs in Q; without that inclusion it can be negative.", "quantifier": "every pair of samples", "why_tests_cant": "Gibbs inequality over all samples; violation only off-support", "anchors": ["infomeasure/estimators/entropy/discrete.py:DiscreteEntropyEstimator._cross_entropy", "infomeasure/composite_measures/kld.py"]}
{"id": "C37", "title": "Jensen–Shannon divergence", "statement": "For discrete data JSD is ≥ 0, ≤ log_b n, independent of the order of the arguments, and 0 when all inputs have the same distribution.", "quantifier": "every n ≥ 1 samples", "why_tests_cant": "convexity over all samples", "anchors": ["infomeasure/composite_measures/jsd.py"]}
{"id": "C38", "title": "Configuration store is transactional", "statement": "A rejected set leaves every setting unchanged; an accepted set changes only that key, get returns it, reset restores defaults; unit names are case-insensitive aliases that round-trip.", "quantifier": "every sequence of set/reset/get/unit calls", "why_tests_cant": "history property over all call sequences", "anchors": ["infomeasure/utils/config.py:Config"]}
{"id": "C39", "title": "Changing the default base affects later calls", "statement": "After Config.set('base', b) a later estimator call without explicit base should use b. The class defaults are captured at import, so it does not.", "quantifier": "every base and later call", "why_tests_cant": "temporal property across import and call time", "anchors": ["infomeasure/utils/config.py:Config.set", "infomeasure/estimators/base.py:Estimator.__init__", "infomeasure/estimators/entropy/discrete.py"]}
{"id": "C40", "title": "Results are cached and stable", "statement": "After the first evaluation the global and local results never change, whatever sequence of result/global/local calls follows, and result equals the first computed global value.", "quantifier": "every sequence of accessor calls", "why_tests_cant": "all interleavings of accessors", "anchors": ["infomeasure/estimators/base.py:Estimator.calculate", "infomeasure/estimators/base.py:Estimator.global_val", "infomeasure/estimators/base.py:Estimator.local_vals"]}
{"id": "C41", "title": "Statistical tests leave the estimator unchanged", "statement": "statistical_test and effective_val restore data and resampling flags, so later results equal those of a fresh estimator; after an exception inside resampling this is violated.", "quantifier": "every sequence of operations and every crash point in the resampling loop", "why_tests_cant": "crash points and histories", "anchors": ["infomeasure/estimators/mixins.py:StatisticalTestingMixin"]}
{"id": "C42", "title": "p-value semantics", "statement": "The p-value is the fraction of test values strictly greater than the observed value, hence in [0,1], a multiple of 1/n, monotone non-increasing in the observed value; fewer than two test values is a ValueError.", "quantifier": "every list of test values and observed value", "why_tests_cant": "inequality over all value lists", "anchors": ["infomeasure/estimators/mixins.py:StatisticalTestingMixin._statistical_test_result"]}
{"id": "C43", "title": "Confidence intervals are ordered, contained and nested", "statement": "For 0<level<100 the interval is (lower ≤ upper), lies within [min,max] of the test values, and widens with the level; other levels are a ValueError.", "quantifier": "every non-empty list of test values and every pair of levels", "why_tests_cant": "order property of interpolation over all lists", "anchors": ["infomeasure/utils/data.py:StatisticalTestResult.confidence_interval", "infomeasure/utils/data.py:StatisticalTestResult.percentile"]}
{"id": "C44", "title": "Statistical tests randomise the source", "statement": "Permutation/bootstrap tests should recompute the measure on a randomised source. For the conditional transfer entropy and ordinal MI the recomputation ignores the randomisation, so every test value equals the observed one, p = 0 and effective value 0.", "quantifier": "every data set and generator outcome", "why_tests_cant": "all generator outcomes", "anchors": ["infomeasure/estimators/mixins.py:StatisticalTestingMixin._test_te", "infomeasure/estimators/base.py:ConditionalTransferEntropyEstimator._generic_cte_from_entropy", "infomeasure/estimators/transfer_entropy/discrete.py", "infomeasure/estimators/mutual_information/ordinal.py"]}
{"id": "C45", "title": "Approach names dispatch consistently", "statement": "Approach and measure names are case-insensitive, every documented alias reaches the same estimator class as its full name, a name is resolved exactly when it is documented for that measure, everything else is a ValueError (AttributeError for a measure that is not a string), and a condition selects the conditional estimator.", "quantifier": "every approach string and measure", "why_tests_cant": "over all strings", "anchors": ["infomeasure/estimators/functional.py:_get_estimator", "infomeasure/estimators/functional.py:_dynamic_estimator", "infomeasure/estimators/functional.py:get_estimator_class"]}
{"id": "C46", "title": "Functional arity guards", "statement": "Each functional call and each estimator(...) call creates an estimator exactly when the number of data arguments (cross-entropy and MI at least 2, TE exactly 2, estimator: entropy 1 or 2, cross-entropy exactly 2), the presence of the condition and the approach name are right, and raises ValueError otherwise; data, condition and keyword arguments reach the estimator unchanged.", "quantifier": "every number of arguments", "why_tests_cant": "over all arities", "anchors": ["infomeasure/estimators/functional.py:mutual_information", "infomeasure/estimators/functional.py:transfer_entropy", "infomeasure/estimators/functional.py:cross_entropy", "infomeasure/estimators/functional.py:estimator"]}
{"id": "C47", "title": "Box-kernel density and entropy", "statement": "Each sample point counts itself, so every box density is ≥ 1/(N h^d) > 0 and ≤ 1/h^d; the kernel entropy of N ≥ 2 points is therefore finite and lies between log(h^d) and log(N h^d), reaching the lower end exactly when all points are mutual neighbours and the upper exactly when no two are; it does not depend on the sample order or on a translation of the data, shifts by d·log c when data and bandwidth are scaled by c, equals the plug-in entropy on integer data with h < 2 (h=1), the joint entropy of a tuple does not depend on the order of its members, and the wrong bandwidth, kernel name or dimensions raise ValueError. A single sample raises TypeError.", "quantifier": "every data set, dimension, bandwidth > 0 and base > 1", "why_tests_cant": "inequality over all data", "anchors": ["infomeasure/estimators/utils/kde.py:kde_probability_density_function", "infomeasure/estimators/entropy/kernel.py"]}
{"id": "C48", "title": "Parallel density evaluation equals sequential", "statement": "Splitting the evaluation points over any positive number of workers and concatenating gives the sequential result in order, for every number of points except one; a single evaluation point against at least 20000 data points with more than one worker is a ValueError.", "quantifier": "every number of workers and points", "why_tests_cant": "partition correctness for all sizes", "anchors": ["infomeasure/estimators/utils/kde.py:parallel_kde_evaluate"]}
{"id": "C49", "title": "Normalisation", "statement": "Normalising maps non-constant data into [0,1] attaining both ends, keeps the order of the samples, is idempotent and invariant to positive affine rescaling, so a normalised kernel mutual information does not depend on the units of either variable; constant data gives no finite value; two-dimensional variables are rejected.", "quantifier": "every non-constant series", "why_tests_cant": "inequality over all data", "anchors": ["infomeasure/estimators/utils/array.py", "infomeasure/estimators/utils/normalize.py:normalize_data_0_1"]}
{"id": "C50", "title": "The ball volumes used by the k-NN estimators are the true volumes", "statement": "For every dimension, radius and supported Minkowski norm, the volume the k-NN estimators use is the Lebesgue measure of the norm ball of that radius; the closed-form branches (Euclidean, Chebyshev, Manhattan) agree with the general Γ formula, the value is positive and scales with the radius to the power of the dimension.", "quantifier": "every dimension and radius", "why_tests_cant": "identity over all dimensions", "anchors": ["infomeasure/estimators/utils/unit_ball_volume.py"]}
{"id": "C51", "title": "KSG mutual information computes the published neighbour statistic", "statement": "For 0 < k < n the KSG local value at every sample is ψ(k) (− (m−1)/… 1/k for type II) + (m−1)ψ(n) − Σ ψ(count+1) with counts taken strictly within (type I) / within (type II) the k-th neighbour distance of the joint space; all digamma arguments are positive integers so the value is finite, also for tied data. The value does not depend on argument order, sample order, translation or common scaling, lies within explicit digamma bounds; k ≥ n silently gives a data-independent value, bad k, norm or algorithm id raise an error, and noise is added to copies only.", "quantifier": "every number of variables ≥ 2, every equally long real data, k, norm, base, noise draw", "why_tests_cant": "zero-distance corner cases over all data", "anchors": ["infomeasure/estimators/mutual_information/kraskov_stoegbauer_grassberger.py", "infomeasure/estimators/transfer_entropy/kraskov_stoegbauer_grassberger.py"]}
{"id": "C52", "title": "Kozachenko–Leonenko entropy", "statement": "entropy(x, approach='kl', k, minkowski_p, noise_level=0) on n samples of dimension d with 1 <= k < n has local value psi(n) - psi(k) + log Vol(B(eps_t)) at every sample whose distance eps_t to its k-th nearest other sample is positive and 0 at the others (variant 2 adds 1/k), where Vol is the Lebesgue volume of the Minkowski ball; the result is their mean, divided by log(base). It is finite, does not depend on the order of the samples, is unchanged by shifts and grows by d*log|c| when distinct samples are scaled by c. Joint entropy of a tuple is the entropy of the side-by-side array. With k >= n the result is not finite; bad k, noise level, Minkowski order, ksg_id, argument shapes raise ValueError. Cross-entropy with equal sample sizes and positive distances is psi(n)-psi(k) plus the mean log volume; with sizes n != m the sum over n points is divided by m, so scaling both samples by c changes it by (n/m) d log|c|; k = 1 raises IndexError; different dimensions raise ValueError.", "quantifier": "all real samples of every size and dimension, all k, all Minkowski orders p >= 1 including infinity, both variants, all bases, all permutations, shifts and scalings", "why_tests_cant": "the formula quantifies over all real data sets and involves volumes of balls and neighbour ranks; tests only compare a few stored values with tolerances", "anchors": ["infomeasure/estimators/entropy/kozachenko_leonenko.py: KozachenkoLeonenkoEntropyEstimator", "infomeasure/estimators/utils/unit_ball_volume.py: unit_ball_volume"]}
{"id": "C53", "title": "Entropy-combination measures use the estimator's own entropies", "statement": "For every estimator class whose MI/CMI is computed by combining entropies, the returned value is the sum of the individual entropies minus the joint entropy (minus the condition's) exactly as that same estimator's entropy call returns them, provided its local values average to its global value or it has none.", "quantifier": "every estimator with that interface, every tuple of aligned samples", "why_tests_cant": "relates two computations over all inputs and all estimators", "anchors": ["infomeasure/estimators/base.py:MutualInformationEstimator._generic_mi_from_entropy", "infomeasure/estimators/base.py:ConditionalMutualInformationEstimator._generic_cmi_from_entropy"]}
{"id": "C54", "title": "Zhang versus Chao–Wang–Jost", "statement": "On every sample the Zhang estimate is at most the Chao–Wang–Jost estimate, the two coincide when no symbol occurs exactly once, and Zhang's double sum equals Σ p_a (H_{N−1} − H_{n_a−1}).", "quantifier": "every non-empty sample and base > 1", "why_tests_cant": "an identity between two differently coded sums for every count vector", "anchors": ["infomeasure/estimators/entropy/zhang.py:ZhangEntropyEstimator", "infomeasure/estimators/entropy/chao_wang_jost.py:ChaoWangJostEntropyEstimator"]}
{"id": "C55", "title": "ANSB is finite exactly with coincidences", "statement": "The ANSB estimate is (γ − log 2) + 2 log N − ψ(N − K) when the support size K is smaller than the sample size, and is not a finite number otherwise; with the observed support that is exactly when some symbol repeats.", "quantifier": "every non-empty sample, every support size", "why_tests_cant": "boundary over all samples", "anchors": ["infomeasure/estimators/entropy/ansb.py:AnsbEntropyEstimator._simple_entropy"]}
{"id": "C56", "title": "Ordinal mutual information is the mutual information of ordinal patterns", "statement": "For tie-free windows and embedding dimension at most 20 the ordinal (conditional) mutual information of two (conditioned) series equals the textbook plug-in (conditional) mutual information of the sequences of ordinal rank patterns of their delay windows, divided by ln of the base. It therefore is non-negative, symmetric, at most either pattern entropy, 0 for dimension 1, equal to the ordinal entropy for a series with itself, unchanged by strictly increasing maps of the observations; the mean of the local values is the global value; unsuitable dimension, step or too-short series raise ValueError.", "quantifier": "every pair (triple) of equal-length series over a linear order, every embedding dimension, step size and base > 1, every argsort tie-breaking", "why_tests_cant": "all series, dimensions, steps and argsort implementations", "anchors": ["infomeasure/estimators/mutual_information/ordinal.py:OrdinalMIEstimator", "infomeasure/estimators/mutual_information/ordinal.py:OrdinalCMIEstimator", "infomeasure/estimators/utils/ordinal.py:symbolize_series"]}
{"id": "C57", "title": "Ordinal transfer entropy is the transfer entropy of ordinal patterns", "statement": "For tie-free windows the ordinal (conditional) transfer entropy equals the textbook plug-in (conditional) transfer entropy of the ordinal pattern sequences with the same history lengths and step size, divided by ln of the base; it is non-negative, 0 for embedding dimension 1, unchanged by strictly increasing maps of either series and rejects bad dimension, step size or too-short series with ValueError.", "quantifier": "every pair (triple) of equal-length series over a linear order, every embedding dimension up to 20, step size, history lengths and base > 1, every argsort tie-breaking", "why_tests_cant": "all series, histories, steps and argsort implementations", "anchors": ["infomeasure/estimators/transfer_entropy/ordinal.py:OrdinalTEEstimator", "infomeasure/estimators/transfer_entropy/ordinal.py:OrdinalCTEEstimator"]}
{"id": "C58", "title": "The estimator factory agrees with the functional interface", "statement": "estimator(..., measure, approach) creates the same estimator (class, data, condition, keyword arguments) that the functional call of that measure evaluates: for every transfer-entropy call, and for entropy, cross-entropy and (conditional) mutual information whenever none of step_size, prop_time, src_hist_len, dest_hist_len, cond_hist_len is passed. It is not true otherwise: these five parameters are silently dropped for entropy and mutual information (the ordinal entropy then uses step 1), and with a single variable the factory ignores the condition and looks the approach up case-sensitively (KeyError).", "quantifier": "every measure and approach string, every number of variables, every set of keyword arguments", "why_tests_cant": "all combinations of names, arities and keyword sets", "anchors": ["infomeasure/estimators/functional.py:estimator", "infomeasure/estimators/functional.py:mi_entropy_map"]}
{"id": "C59", "title": "Box-kernel mutual information", "statement": "The box-kernel mutual information is the mean over samples of log(N^(m-1) n_joint / Π n_i), n being the numbers of neighbours within half a bandwidth (bandwidth and dimension cancel); it equals the sum of the kernel entropies minus the joint kernel entropy, does not depend on the order of the variables or samples or on common positive affine maps of data and bandwidth, is at most log N times m−1, is 0 when a variable is constant, agrees with the discrete estimator on integer data for h < 2, and can be negative.", "quantifier": "every number of variables, all aligned samples, bandwidth > 0 and base > 1", "why_tests_cant": "identities and bounds over all real data sets", "anchors": ["infomeasure/estimators/mutual_information/kernel.py:KernelMIEstimator", "infomeasure/estimators/utils/kde.py:kde_probability_density_function"]}
{"id": "C60", "title": "Box-kernel conditional mutual information", "statement": "For two one-dimensional variables and a one-dimensional condition the kernel CMI is the mean over samples of log(n_xyz n_z / (n_xz n_yz)) of neighbour counts (bandwidth and sample size cancel); it is symmetric, within ±log N, 0 when a variable is constant or equals the condition, the kernel MI when the condition is constant, and equals the discrete CMI on integer data for h < 2. It is wrong for three or more variables (p(z) is used once instead of m−1 times: m constant variables give (m−2) log h instead of 0) and for variables with more than one column (the wrong columns are taken as marginal spaces). Missing condition, non-zero offset, unequal lengths and 2-D data with normalize raise ValueError; the length of a third variable is checked only by the stacking.", "quantifier": "every triple of equally long real series, bandwidth > 0, base > 1, number of workers", "why_tests_cant": "identities and bounds over all real data sets", "anchors": ["infomeasure/estimators/mutual_information/kernel.py:KernelCMIEstimator", "infomeasure/estimators/base.py:ConditionalMutualInformationEstimator.__init__"]}
{"id": "C61", "title": "Box-kernel transfer entropy", "statement": "The kernel (conditional) transfer entropy is the box-kernel conditional mutual information of the destination's future and the (possibly permuted or resampled) source histories given the destination's history (and the condition's history); it is finite, within ± log of the number of embedded rows, 0 for a constant source, and equals the discrete transfer entropy on integer data for h < 2. A single embedded row raises TypeError; bad history lengths, step, bandwidth, kernel or lengths raise ValueError.", "quantifier": "every pair (triple) of equally long real series, history lengths, step size, bandwidth > 0, base > 1, every permutation/bootstrap draw", "why_tests_cant": "all series, histories, steps and generator outcomes", "anchors": ["infomeasure/estimators/transfer_entropy/kernel.py:KernelTEEstimator", "infomeasure/estimators/transfer_entropy/kernel.py:KernelCTEEstimator", "infomeasure/estimators/utils/te_slicing.py"]}
{"id": "C62", "title": "KSG conditional mutual information", "statement": "For 0 < k < n the KSG conditional mutual information local value at every sample is ψ(k) − Σ ψ(n_{x_i z}+1) + ψ(n_z+1) with counts within the k-th neighbour distance of the joint space including the condition (type II counts within ≤ and subtracts 1/k). The result is a finite number for every k ≥ 1, also k ≥ n, where it no longer depends on the data; k = 0 is an IndexError, a bad ksg_id, offset, length or a missing condition a ValueError. It does not depend on the order of the variables or (jointly) of the samples, nor on a common scale factor and column offsets; noise enters only through the data. For two variables it lies between ψ(k) − ψ(n) and ψ(k) + ψ(n) − 2ψ(1). With a constant condition it equals the mutual information for two variables, but for m ≥ 3 variables it differs from it by (m−2)ψ(n). With a constant second variable type I gives ≥ 0 and 0 without ties, type II at most −2/k.", "quantifier": "every number of variables ≥ 2, condition, real data, 0 < k < n, norm, base", "why_tests_cant": "all data, ties, numbers of variables and neighbours", "anchors": ["infomeasure/estimators/mutual_information/kraskov_stoegbauer_grassberger.py:KSGCMIEstimator"]}
{"id": "C63", "title": "KSG transfer entropy", "statement": "KSG transfer entropy equals the KSG conditional mutual information of the destination's next value and the source's history given the destination's history over the embedded rows, for every history length, step size, norm, type, k ≥ 1 and any permutation or resampling of the source rows; conditional transfer entropy is the same with the condition's history appended to the destination's. The result is finite and between ψ(k) − ψ(R) and ψ(k) + ψ(R) − 2ψ(1) (R rows; type II 1/k less); with k ≥ R it does not depend on the series. Scaling both series by one factor and shifting each changes nothing; noise enters only through the series. A constant source gives ≥ 0 for type I (0 without ties) and at most −2/k for type II. Wrong lengths, non-positive embedding parameters, too short series and bad ksg_id are ValueErrors, k = 0 an IndexError.", "quantifier": "every pair or triple of real series, embedding, k, type, norm, base, permutation or resampling", "why_tests_cant": "all series, embeddings, ties and random outcomes", "anchors": ["infomeasure/estimators/transfer_entropy/kraskov_stoegbauer_grassberger.py:KSGTEEstimator", "infomeasure/estimators/transfer_entropy/kraskov_stoegbauer_grassberger.py:KSGCTEEstimator"]}
{"id": "C64", "title": "Rényi and Tsallis nearest-neighbour entropy", "statement": "For n samples of dimension d, 1 <= k < n and order 0 < q < k+1, entropy(x, approach='renyi', k, alpha=q) is log(I_q)/(1-q) and entropy(x, approach='tsallis', k, q) is (1-I_q)/(q-1), with I_q the mean of (( n-1) C_k Vol(B(rho_t)))^(1-q), rho_t the Euclidean distance to the k-th nearest other sample (zero distances contribute 0) and C_k = (Gamma(k)/Gamma(k+1-q))^(1/(1-q)); for order one both are the mean of log((n-1) e^{-psi(k)} Vol), i.e. Kozachenko–Leonenko with log(n-1) for psi(n). They satisfy (1-q)T = exp((1-q)R) - 1, do not depend on sample order; Rényi grows by d log|c| under scaling; joint = side-by-side array; cross-entropy is the same estimate with m for n-1. Rényi is continuous in the order at 1; Tsallis tends to the order-one value in nats, so jumps for other bases. Order k+1 gives 0, orders in (k+1, k+2) are not finite, k >= n and bad parameters raise ValueError, cross-entropy with k=1 IndexError. The estimate is not non-increasing in the order.", "quantifier": "all real samples of every size and dimension, all k, all real orders, all bases, permutations and affine maps", "why_tests_cant": "a formula over all real data sets, a limit in a real parameter and Gamma/volume identities; tests compare stored numbers", "anchors": ["infomeasure/estimators/utils/exponential_family.py", "infomeasure/estimators/entropy/renyi.py: RenyiEntropyEstimator", "infomeasure/estimators/entropy/tsallis.py: TsallisEntropyEstimator"]}
{"id": "C65", "title": "Rényi and Tsallis mutual information and transfer entropy", "statement": "mutual_information(*data, approach='renyi'|'tsallis', k, order) is the sum of the estimated entropies of the variables less their joint estimate; conditional mutual information is the sum of the entropies of (variable, condition) less the entropy of all with the condition less the entropy of the condition. For 1 <= k < n and order < k+1 both exist for all data; they do not depend on the order of the variables or (jointly) of the samples, nor on column offsets. Rényi MI is unchanged by a common scale factor as long as no variable has k duplicates of a sample; Rényi CMI changes by (m-2) d_Z log|c|, i.e. only for two variables is it unchanged (for m >= 3 variables H(Z) is subtracted once instead of m-1 times). Tsallis values with order != 1 ignore the base; order k+1 gives exactly 0. Transfer entropy equals, value or error, the conditional mutual information of the destination's next value and the source's history given the destination's history over the embedded rows, and conditional transfer entropy the same with the condition's history appended. Bad orders, k, lengths, steps, histories, and k >= n are ValueErrors; noise enters only through the data.", "quantifier": "all numbers of variables, real data sets, k, orders, bases, embeddings, permutations and affine maps", "why_tests_cant": "identities over all real data, sizes and embeddings; tests compare single numbers", "anchors": ["infomeasure/estimators/mutual_information/renyi.py", "infomeasure/estimators/mutual_information/tsallis.py", "infomeasure/estimators/transfer_entropy/renyi.py", "infomeasure/estimators/transfer_entropy/tsallis.py", "infomeasure/estimators/base.py:_generic_mi_from_entropy"]}
{"id": "C66", "title": "Bias-corrected mutual information and transfer entropy", "statement": "For the methods grassberger, chao_shen, chao_wang_jost, shrink, zhang, bonachela, bayes (every prior, fixed or named, with or without K) and ansb, mutual_information(*data, approach=m) is the sum of that method's entropy estimates of the variables less its estimate for the joint observations, conditional mutual information is the sum over (variable, condition) less joint less condition, transfer entropy is the same combination of the embedded rows, each divided by log(base) (for shrink the entropies are the documented cross terms of its local values). The value exists exactly when the method is defined on the joint observations (ANSB: at least one coincidence); it does not depend on the order of the variables, of the observations, or on the names of the symbols; I(X;X) is the estimate of H(X); with a constant second variable it is the estimate of that constant's entropy (0 for the methods whose estimate of a constant is 0, but strictly positive for Bonachela and negative for Grassberger). An offset or propagation time pairs the shifted series, and MI(x,y,o) = MI(y,x,-o). A negative undersampling threshold, a K that is not a positive integer and an unknown prior name are ValueErrors.", "quantifier": "all eight methods and priors, all numbers of variables and integer data sets, all embeddings, offsets, permutations, relabellings and bases", "why_tests_cant": "identities over all data, sizes and embeddings; tests compare stored numbers", "anchors": ["infomeasure/estimators/mutual_information/{grassberger,chao_shen,chao_wang_jost,shrink,zhang,bonachela,bayes,ansb}.py", "infomeasure/estimators/transfer_entropy/{grassberger,chao_shen,chao_wang_jost,shrink,zhang,bonachela,bayes,ansb}.py", "infomeasure/estimators/base.py:_generic_mi_from_entropy,_generic_cmi_from_entropy,_generic_te_from_entropy,_generic_cte_from_entropy"]}
{"id": "C67", "title": "NSB entropy, mutual information and transfer entropy", "statement": "entropy(data, approach='nsb', K) is, up to the quadrature's accuracy, the ratio of the integral over concentrations between 0 and log K of (likelihood weight x prior mean entropy derivative x posterior mean entropy) to the same integral without the posterior mean, divided by log(base), with K the number of observed symbols when not given. A value exists exactly when the support size is at least 2 and differs from the number of observations (so neither constant samples nor samples without repetition have one). The root finder used for numerical stabilisation has no influence. The value lies between 0 and the log of the number of observed symbols - even when K is larger, where the published NSB estimate is not so bounded: on a constant sample with given K the library returns 0, the published estimator a strictly positive number. It does not depend on the order of observations or on symbol names. NSB MI, CMI, TE and CTE are the generic entropy combinations and exist exactly when all their entropies do; a K that is not a positive integer is a ValueError; cross-entropy and local values raise TheoreticalInconsistencyError.", "quantifier": "all integer samples, support sizes, root finder outcomes, bases, numbers of variables and embeddings", "why_tests_cant": "integral identities and bounds over all samples; tests compare a few stored numbers produced by the same code", "anchors": ["infomeasure/estimators/entropy/nsb.py", "infomeasure/estimators/mutual_information/nsb.py", "infomeasure/estimators/transfer_entropy/nsb.py"]}
{"id": "C68", "title": "Divergences of ordinal patterns", "statement": "For series without ties inside a window, the ordinal cross-entropy of two series is the cross-entropy of their rank-pattern frequencies over the patterns occurring in both, for every step, every dimension up to 20 and every sorting algorithm (beyond dimension 20 cross-entropy and KLD raise ValueError). kld(approach='ordinal') is cross-entropy minus permutation entropy; when every pattern of the first series occurs in the second it is the textbook divergence, non-negative and 0 exactly when pattern frequencies agree. jensen_shannon_divergence(approach='ordinal') of any number of series, each with more than one window, is the JSD of the pattern distributions: between 0 and log of the number of series, 0 exactly when all pattern frequencies agree, independent of the order of the series. Strictly increasing maps of a series are at divergence 0; dimension 1 gives 0. Findings: a series with exactly one window is recorded under a different key (step > 1, or dimension 3), so its JSD from any longer series is the maximum log 2 even if all patterns agree; with ties kld(x, x) can be negative.", "quantifier": "all series over a linear order, dimensions, steps, sorting algorithms, numbers of series and bases", "why_tests_cant": "holds for all series and embeddings; the tests compare a few stored numbers", "anchors": ["infomeasure/composite_measures/jsd.py:jensen_shannon_divergence", "infomeasure/composite_measures/kld.py:kullback_leiber_divergence", "infomeasure/estimators/entropy/ordinal.py:OrdinalEntropyEstimator"]}
{"id": "C69", "title": "Divergences of continuous data and composite-measure names", "statement": "jensen_shannon_divergence(approach='kernel') of any number of samples is the box-kernel entropy of the pooled sample minus the average entropy; for samples of one size it is the JSD of the box-kernel densities: at most the log of the number of samples, with equality exactly when no point of one sample is in the box of a point of another; it does not depend on the order of the samples, is 0 on copies of one sample, and on integer data with bandwidth below 2 it is the discrete JSD. kld(approach='kernel') is the mean log-ratio of the two densities when every point of the first sample has a point of the second in its box, 0 of a sample with itself, and on integer data the discrete divergence. Findings: with unequal sample sizes, or through smoothing, the kernel JSD and KLD can be negative; without overlap the kernel KLD is minus the entropy of the first sample; the nearest-neighbour KLD of a sample with itself is d times the mean log-ratio of (k-1)-th and k-th neighbour distances (never positive, and 0 only if they agree), is not scale-free for different sample sizes, and is an IndexError for k = 1. jensen_shannon_divergence reaches a computation exactly for the names of the discrete, shrink, Bayes, ordinal and kernel estimators and list/array arguments, kld exactly for names of entropy estimators; everything else is a ValueError. Arrays of different shape are a ValueError.", "quantifier": "all samples, sample sizes, dimensions, numbers of samples, bandwidths, neighbour counts, norms, names and bases", "why_tests_cant": "bounds, identities and sign statements over all real samples; tests compare a few stored numbers", "anchors": ["infomeasure/composite_measures/jsd.py:jensen_shannon_divergence", "infomeasure/composite_measures/kld.py:kullback_leiber_divergence", "infomeasure/estimators/entropy/kernel.py:KernelEntropyEstimator", "infomeasure/estimators/entropy/kozachenko_leonenko.py:KozachenkoLeonenkoEntropyEstimator"]}
{"id": "C70", "title": "Discrete entropy estimators built from counts", "statement": "cls.from_counts(uniq, counts, base, …) of every discrete entropy class except Grassberger's (NSB included) gives the value, or error, of the class on any sample with these counts: neither the labels nor the order of the counts matter, and every list of positive integer counts is covered; from_counts(*np.unique(x, return_counts=True)) is the estimator of x. Counts that are not integer, negative, all zero or of another length than the labels are ValueErrors. Findings: repeated labels are counted as different symbols; a zero count makes the plug-in, Miller–Madow and Chao–Shen values nan, while Chao–Wang–Jost and Zhang ignore it; Grassberger's estimator and the local values of the others need the sample itself and raise TypeError.", "quantifier": "every class and its parameters, every base, every list of labels and counts and every sample", "why_tests_cant": "unbounded tables of counts, all samples sharing them, several estimators", "anchors": ["infomeasure/estimators/base.py:DiscreteHEstimator.__init__", "infomeasure/estimators/base.py:DiscreteHEstimator.from_counts", "infomeasure/utils/data.py:DiscreteData.from_counts"]}
{"id": "C71", "title": "Gaussian-kernel estimates are the resubstitution values of a normal mixture", "statement": "With kernel='gaussian', entropy, joint entropy, mutual information (any number of variables), conditional mutual information, transfer entropy, conditional transfer entropy, cross-entropy and Kullback–Leibler divergence are the averages of (minus) log density ratios, where the density is the mean of normal densities centred at the sample points with covariance bandwidth² × unbiased sample covariance (a positive density integrating to 1), as long as every direction of the joint data has variance above 1e-10; the result does not depend on workers or on which eigensolver output is used. MI = sum of marginal entropies − joint entropy. Entropy under x ↦ Ax+c adds log|det A|; MI, CMI, TE and CTE do not change under separate affine maps (so normalize does not matter) nor KLD under a common one; MI does not change under reordering the variables or the samples; a sample is at KLD 0 from itself. Entropy lies within log n of the normal entropy with covariance h²S; MI tends to the MI of the fitted normal −½log det(corr) for h → ∞, and exceeds it by (m−1)·log n for h → 0 on distinct data. Findings: a constant variable or a joint variance below 1e-10 (small units) is a ValueError; exactly collinear variables are projected, so MI(X;X) = H(X) − ½·log 2, not H(X), and the MI of collinear variables depends on their units; the Jensen–Shannon value of two samples is not bounded by log 2 but grows without bound with their distance.", "quantifier": "every real data set with the stated spread, every number of variables, bandwidth, base, number of workers and every eigensolver meeting the contract of numpy.linalg.eig", "why_tests_cant": "real-valued data of any size and dimension, limits in the bandwidth, all eigensolver outputs", "anchors": ["infomeasure/estimators/utils/kde.py:gaussian_kernel_densities", "infomeasure/estimators/utils/kde.py:parallel_kde_evaluate", "infomeasure/estimators/entropy/kernel.py:KernelEntropyEstimator", "infomeasure/estimators/mutual_information/kernel.py:KernelMIEstimator", "infomeasure/estimators/mutual_information/kernel.py:KernelCMIEstimator", "infomeasure/estimators/transfer_entropy/kernel.py:KernelTEEstimator", "infomeasure/estimators/transfer_entropy/kernel.py:KernelCTEEstimator", "infomeasure/composite_measures/jsd.py:jensen_shannon_divergence", "infomeasure/composite_measures/kld.py:kullback_leiber_divergence"]}
{"id": "C72", "title": "Transfer entropy of vector-valued series", "statement": "For two-dimensional series every observation enters as one vector: the embedding flattens each history in time order; a one-column array gives exactly the result of the one-dimensional series; plug-in and Miller–Madow transfer entropy depend only on which vectors coincide, so replacing vectors by any injective code, adding a redundant component or permuting components changes nothing, and the value is the textbook conditional mutual information of the vectors, its local values averaging to it; kernel, KSG, Rényi and Tsallis transfer entropy (and the conditional ones) are the corresponding conditional mutual information of the destination vectors and the flattened histories, with the same bounds; bias-corrected conditional transfer entropy is the four-entropy combination of the flattened rows; observation noise is added to the arrays before the embedding.", "quantifier": "all vector-valued series, widths, history lengths, steps, propagation times and random source selections", "why_tests_cant": "ranges over all widths, lengths and real or integer vectors", "anchors": ["infomeasure/estimators/utils/te_slicing.py:te_observations", "infomeasure/estimators/utils/te_slicing.py:cte_observations", "infomeasure/estimators/transfer_entropy/discrete.py:DiscreteTEEstimator", "infomeasure/estimators/transfer_entropy/kernel.py:KernelTEEstimator", "infomeasure/estimators/transfer_entropy/kraskov_stoegbauer_grassberger.py:KSGTEEstimator"]}
{"id": "C73", "title": "Transfer entropy accepts exactly the valid calls", "statement": "Every transfer-entropy estimator raises ValueError when source and destination differ in length, when prop_time and offset are both given (non-zero), or when the one given is not an integer; every conditional estimator additionally when there is no condition, its length differs, or prop_time is not the integer 0 or offset is non-zero. For the plug-in and Miller–Madow estimators a value is returned exactly when the series have equal length, shift, history lengths and step are integers (the latter three positive) and the overlap left by the shift exceeds the largest delay; everything else is ValueError, except a step that cannot be multiplied or compared with integers, which is TypeError.", "quantifier": "every pair or triple of series and every combination of argument values", "why_tests_cant": "exact guard over all integers, lengths and argument types", "anchors": ["infomeasure/estimators/base.py:TransferEntropyEstimator.__init__", "infomeasure/estimators/base.py:ConditionalTransferEntropyEstimator.__init__", "infomeasure/estimators/utils/te_slicing.py:te_observations"]}
{"id": "C74", "title": "Mutual information accepts exactly the valid calls", "statement": "Every mutual-information estimator raises ValueError with fewer than two variables, with variables of different length, or with a non-zero offset and more than two variables, and TypeError for a None offset of an otherwise valid call. For two integer series the plug-in and Miller-Madow estimators return a value exactly when the lengths agree and the integer offset leaves at least one pair; for three and more non-empty series exactly when the lengths agree. Conditional mutual information raises ValueError without a condition, for a non-zero offset, or when a length differs from that of the condition, and IndexError for fewer than two variables; with a non-empty one-dimensional condition the plug-in and Miller-Madow estimators return a value exactly otherwise. A two-dimensional condition is read row by row as one symbol, and only by the plug-in estimator.", "quantifier": "every list of series of every length, condition, offset and estimator configuration", "why_tests_cant": "exact guard over all list lengths, variable counts and offsets", "anchors": ["infomeasure/estimators/base.py:MutualInformationEstimator.__init__", "infomeasure/estimators/base.py:ConditionalMutualInformationEstimator.__init__", "infomeasure/estimators/mutual_information/discrete.py:DiscreteMIEstimator", "infomeasure/estimators/utils/discrete_interaction_information.py:mutual_information_global"]}
{"id": "C75", "title": "Discrete conditional transfer entropy: any form of condition, vector-valued series, special conditions", "statement": "conditional_transfer_entropy with approach discrete is I(future; source history | destination and condition history) of the embedded series, also when source, destination or condition are vector-valued; for it and for Miller-Madow only which vectors are equal matters, so any injective relabelling changes nothing, exceptions included. For the plug-in estimator a tuple of series, a 2-D array and a nested list describing the same condition give the same result, and order and repetition inside a tuple are irrelevant; the Miller-Madow estimator reads a tuple as a list of time points (ValueError unless there are as many series as samples, silently transposed then). Conditioning on a constant or on the destination's own past gives the unconditional transfer entropy, conditioning on the source's past gives 0, a constant source gives 0. The local values average to the global value; the ordinal conditional transfer entropy has the same mean property, is 0 for embedding dimension 1 and is unchanged by strictly increasing maps.", "quantifier": "all integer-valued series of any dimension and length (below 2^32 samples), all forms of the condition, all history lengths, steps and bases, all injective relabellings and increasing maps", "why_tests_cant": "quantifies over all series, relabellings and parameters; tests compare a handful of arrays", "anchors": ["infomeasure/estimators/transfer_entropy/discrete.py: BaseDiscreteTEEstimator, DiscreteCTEEstimator", "infomeasure/estimators/transfer_entropy/miller_madow.py: MillerMadowCTEEstimator", "infomeasure/estimators/transfer_entropy/ordinal.py: OrdinalCTEEstimator", "infomeasure/estimators/utils/te_slicing.py: cte_observations", "infomeasure/estimators/base.py: ConditionalTransferEntropyEstimator"]}
{"id": "C76", "title": "Information inequalities between calls of the discrete estimators", "statement": "For the values returned by separate calls of the plug-in estimators, with any base > 1 (fewer than 2^32 samples): recoding a sample never increases its entropy, with equality exactly when no occurring values are merged; recoding variables never increases mutual information, conditional mutual information, transfer entropy (source recoded), Kullback-Leibler (included support) or Jensen-Shannon divergence; conditional mutual information is at most either entropy, transfer entropy at most the logarithm of the number of destination values; I((X,Z);Y) = I(Z;Y) + I(X;Y|Z); the variation of information is a pseudo-metric; a longer source history (not exceeding the destination history) never lowers transfer entropy; the entropy of a concatenation lies between the weighted mean of the entropies and that plus the entropy of the weights, with exact equality cases; Jensen-Shannon divergence of equally long samples is the entropy of the concatenation minus the mean entropy; repeating the sample k times keeps entropy and mutual information and divides the Miller-Madow correction by k.", "quantifier": "all non-empty integer samples of equal length, all recoding functions, all pair codes injective on the data, all history lengths and step sizes the data permits, all repetition counts, all bases greater than one", "why_tests_cant": "universally quantified inequalities over all samples and all recodings; equality cases are statements about all data", "anchors": ["infomeasure/estimators/entropy/discrete.py:DiscreteEntropyEstimator", "infomeasure/estimators/mutual_information/discrete.py:DiscreteMIEstimator", "infomeasure/estimators/mutual_information/discrete.py:DiscreteCMIEstimator", "infomeasure/estimators/transfer_entropy/discrete.py:DiscreteTEEstimator", "infomeasure/composite_measures/kld.py:kullback_leiber_divergence", "infomeasure/composite_measures/jsd.py:jensen_shannon_divergence"]}
{"id": "C77", "title": "Bias corrections vanish as the sample grows (all but ANSB)", "statement": "For every data set and base > 1 the bias-corrected entropies stay within an explicit distance of the plug-in entropy of the same data (N values, K distinct): Zhang in [0,(K-1)/N], Grassberger in [-K/N, 2K/N], Chao-Wang-Jost above Zhang by at most the Chao1 number of unseen symbols divided by N, Chao-Shen, Bonachela, shrinkage and Bayes likewise; for all of them |estimate - plug-in| <= C(K)(1+log N)/sqrt(N) with a constant depending on the method and K only, and the same holds for mutual information (any number of variables), conditional mutual information and transfer entropy. Hence along every sequence of data sets over a finite alphabet whose lengths go to infinity and whose relative frequencies converge, the estimates converge to the entropy, mutual information or transfer entropy of the limit distribution. ANSB is the exception: it exceeds the logarithm of the alphabet size as soon as N >= 2K and diverges.", "quantifier": "all data sets, alphabet sizes, sequences of data sets, classes and keyword values, bases > 1", "why_tests_cant": "a statement about all sample sizes and a limit; no finite set of runs bounds the distance or shows convergence", "anchors": ["infomeasure/estimators/entropy/zhang.py", "infomeasure/estimators/entropy/grassberger.py", "infomeasure/estimators/entropy/chao_shen.py", "infomeasure/estimators/entropy/chao_wang_jost.py", "infomeasure/estimators/entropy/bonachela.py", "infomeasure/estimators/entropy/shrink.py", "infomeasure/estimators/entropy/bayes.py", "infomeasure/estimators/entropy/ansb.py", "infomeasure/estimators/mixins.py:DiscreteMIMixin"]}
{"id": "C78", "title": "Calibration of the permutation p-value", "statement": "Take any n+1 numbers (n >= 2) as observed value and test values. When each of them in turn is the observed one, at least j+1 of the n+1 reported p-values are at most j/n (exactly j+1 if the numbers are distinct), for every j <= n; this fraction (j+1)/(n+1) exceeds j/n for j < n, so under exchangeability the reported p-value rejects too often at every attainable level below 1, and is 0 with probability at least 1/(n+1). The corrected value (n p + 1)/(n + 1) keeps every level when the values are distinct. If all values are equal the reported p-value is 0.", "quantifier": "all lists of at least three real values, all choices of the observed one, all levels", "why_tests_cant": "calibration is a statement about all value configurations and all ranks at once; simulation only estimates it", "anchors": ["infomeasure/estimators/mixins.py:_statistical_test_result", "infomeasure/estimators/mixins.py:statistical_test"]}
{"id": "C79", "title": "Equality cases: when values are zero or as large as possible", "statement": "Discrete conditional mutual information is 0 exactly when the variables are empirically independent given the condition, at most H(X,Z)-H(Z) as reported by entropy, and equal to it exactly when X is a function of (Y,Z). Two-variable mutual information equals H(X) exactly when X is a function of Y. Mutual information of n variables is 0 exactly when all joint frequencies factorise. Transfer entropy and conditional transfer entropy (scalar or vector series) are 0 exactly when the target's future is independent of the source history given the past, and equal the conditional entropy of the future exactly when the histories determine it; the same for ordinal estimators on patterns. The discrete Jensen-Shannon divergence of n samples is log_b n exactly when no two samples share a symbol.", "quantifier": "all aligned samples / series within the documented preconditions, all history lengths, step sizes, admissible bases", "why_tests_cant": "The equivalences quantify over all samples in both directions; a test can only exhibit single independent or dependent samples.", "anchors": ["infomeasure/estimators/utils/discrete_interaction_information.py:mutual_information_global", "infomeasure/estimators/utils/discrete_interaction_information.py:conditional_mutual_information_global", "infomeasure/estimators/utils/discrete_transfer_entropy.py:combined_te_form", "infomeasure/estimators/transfer_entropy/discrete.py", "infomeasure/composite_measures/jsd.py"]}
{"id": "C80", "title": "Symbolisation reads only the series; sort-once patterns agree with window-wise sorting", "statement": "For every memory content, start address and stride (sliced or reversed views included) the unchecked strided view behind symbolize_series contains exactly the delay vectors of the array and touches no address outside it. Sorting the whole array once and distributing positions (_get_subarray_patterns) gives one pattern per window, each a sorting permutation of its window; with the stable sort, or without ties, these are the patterns of symbolize_series with step 1; a window more than one longer than the array is an IndexError.", "quantifier": "all memories, layouts, series, embedding dimensions, steps, window lengths, sort implementations", "why_tests_cant": "Out-of-bounds strided reads return whatever memory holds, so a test can pass by accident; agreement must hold for every series and sort implementation.", "anchors": ["infomeasure/estimators/utils/ordinal.py:symbolize_series", "infomeasure/estimators/entropy/ordinal.py:OrdinalEntropyEstimator._get_subarray_patterns"]}
{"id": "C81", "title": "Keyword arguments of every estimator", "statement": "For each of the 80 estimator classes (16 families, five measures): a call builds an estimator exactly when it has the right number of series (two for transfer entropies) and the right kind of condition, gives every required keyword argument (alpha for Bayes; bandwidth and kernel for kernel entropy; embedding_dim for ordinal entropy and transfer entropies) and no keyword outside the documented list; an unknown keyword or a missing required one is always a TypeError, and a conditional measure without a condition is a ValueError if the rest of the call is right. Every parameter then has the value given, or else its documented default; passing the default explicitly is the same call as leaving it out. Keywords that are accepted without effect (step_size of Rényi and Tsallis mutual information) change nothing. Findings: normalize is a TypeError for the plug-in, Miller-Madow and ordinal mutual information; the Kozachenko-Leonenko entropy takes no seed.", "quantifier": "all estimator classes, all keyword dictionaries (any names and values), all data, all configured bases", "why_tests_cant": "Which keywords are accepted and where their values end up depends on a chain of up to seven __init__ methods per class that hand on **kwargs; a test can only try single dictionaries.", "anchors": ["infomeasure/estimators/base.py:Estimator", "infomeasure/estimators/base.py:MutualInformationEstimator", "infomeasure/estimators/base.py:ConditionalMutualInformationEstimator", "infomeasure/estimators/base.py:TransferEntropyEstimator", "infomeasure/estimators/base.py:ConditionalTransferEntropyEstimator", "infomeasure/estimators/mixins.py", "infomeasure/estimators/entropy", "infomeasure/estimators/mutual_information", "infomeasure/estimators/transfer_entropy"]}
{"id": "C82", "title": "End to end: name, keywords, data to the textbook value", "statement": "The public functional interface composes correctly: a call such as im.entropy(data, approach=name, **keywords), im.mutual_information(*data, ...), im.conditional_mutual_information, im.transfer_entropy or im.conditional_transfer_entropy, with any registered spelling of a family's name, an accepted keyword dictionary and data of the right type, returns the value the definition of that measure gives for that family, computed with exactly the base, alpha, q, k, bandwidth, kernel, embedding dimension, offset, history lengths, step size and propagation time that the keywords (or their documented defaults) denote, each data series in its own role (source, destination, condition).", "quantifier": "all spellings of the method names, all keyword dictionaries, all data sets, all bases, all parameters; for every estimator family", "why_tests_cant": "The value passes through name lookup, keyword binding through up to seven constructors, slicing and the estimator; a swapped or dropped parameter is visible only for particular combinations of keywords and data, and there are 80 classes.", "anchors": ["infomeasure/utils/config.py", "infomeasure/estimators/functional.py:entropy", "infomeasure/estimators/functional.py:mutual_information", "infomeasure/estimators/functional.py:conditional_mutual_information", "infomeasure/estimators/functional.py:transfer_entropy", "infomeasure/estimators/functional.py:conditional_transfer_entropy", "infomeasure/estimators/functional.py:estimator", "infomeasure/estimators/base.py:Estimator"]}
{"id": "C83", "title": "Composite measures end to end", "statement": "im.kullback_leiber_divergence(p, q, approach=..., **keywords) is, for every approach and every keyword dictionary, im.cross_entropy(p, q) minus im.entropy(p) with the same approach and keywords (noise of the metric estimator drawn independently); for integer data, ordinal patterns, the box kernel and the metric estimator this is the documented divergence, non-negative and zero exactly for equal distributions when the support of p is contained in the one of q. im.jensen_shannon_divergence(*data, approach=..., **keywords) is the entropy of the mixture minus the mean entropy, between 0 and log m, zero exactly for equal distributions, independent of the order of the arguments. Missing or unknown names, unsupported estimators and tuples raise ValueError; missing or unknown keywords raise TypeError; no data raises ZeroDivisionError (kernel: ValueError); all spellings of a name agree. With approach='miller_madow' the cross-entropy is the plug-in one plus ((Kx + Ky)/2 - 1)/(Nx + Ny) nats (0 for samples without a common symbol) and im.kld the difference of the corrected terms: for samples of equal size N that share a symbol, the plug-in divergence plus (Ky - Kx)/(4N). With approach='bayes' the cross-entropy is the one of the Bayesian probabilities (n + alpha)/(N + K alpha) of the two samples over their common symbols and im.kld that minus the Bayesian entropy of the first.", "quantifier": "all names, keyword dictionaries, data sets, numbers of data sets, bases and parameters", "why_tests_cant": "The value passes through name lookup, keyword binding and up to m+1 estimator objects; sign, boundedness and symmetry must hold for every data set, and each error class for every combination of the other arguments.", "anchors": ["infomeasure/composite_measures/kld.py:kullback_leiber_divergence", "infomeasure/composite_measures/jsd.py:jensen_shannon_divergence", "infomeasure/estimators/functional.py:get_estimator_class", "infomeasure/estimators/functional.py:cross_entropy", "infomeasure/estimators/functional.py:entropy"]}
{"id": "C84", "title": "Local values end to end", "statement": "For im.estimator(*data, measure=m, approach=a, cond=..., **keywords): (1) for kernel density and nearest neighbours (every measure) and the bias-corrected approaches (every measure but the entropy), whenever local_vals() returns values, result() is their mean, and for kernel density and nearest neighbours a value always comes with local values; (2) for plug-in, Miller-Madow, Grassberger and Zhang entropy, ordinal entropy, plug-in / Miller-Madow / ordinal mutual information, plug-in, Miller-Madow and ordinal conditional mutual information, and plug-in / Miller-Madow / ordinal (conditional) transfer entropy both calls return, there is one local value per sample (window, row of histories) and result() is their mean; the local values of the plug-in entropy are -log_b of the relative frequencies in the order of the data; (3) an exception of result() (other than a non-finite value) is the exception of local_vals(); (4) Renyi, Tsallis, Chao-Shen, Bayes, Chao-Wang-Jost, Bonachela, ANSB and NSB never return local values: they raise UnsupportedOperation (entropy of Chao-Wang-Jost, Bonachela, ANSB, NSB: TheoreticalInconsistencyError), and so does every cross-entropy; (5) for the shrinkage entropy the mean of the local values is not the value in general.", "quantifier": "all measure and approach spellings, keyword dictionaries, data sets, conditions, bases, parameters and noise draws", "why_tests_cant": "The two methods are separate code paths of some sixty classes behind one factory; that they agree (or refuse) must hold for every class, data set and parameter combination.", "anchors": ["infomeasure/estimators/base.py:Estimator.local_vals", "infomeasure/estimators/base.py:Estimator.res_global", "infomeasure/estimators/base.py:EntropyEstimator.local_vals", "infomeasure/estimators/functional.py:estimator"]}
{"id": "C85", "title": "noise_level adds Gaussian noise of exactly that level to every number", "statement": "For the nearest-neighbour estimators (Kozachenko-Leonenko entropy and cross-entropy; KSG, Renyi and Tsallis mutual information, conditional mutual information, transfer entropy and conditional transfer entropy) a call of the functional API with noise_level=v returns exactly what the call with noise_level=0 returns on data to each number of which v times a fresh standard-normal draw has been added, every variable having its own draws. With v=0 nothing random enters. Exception, proved as such: the condition of the KSG conditional mutual information of n samples gets n noise arrays, so the noise on it has variance n*v^2 (standard deviation sqrt(n)*v), not the documented v. A negative level is a ValueError of Kozachenko-Leonenko entropy.", "quantifier": "all data, all levels v>=0, all draws, all other keyword arguments, all sample sizes; the variance statement for all independent draws of variance one", "why_tests_cant": "a test sees one seed and one data set and compares rounded numbers; the law of the noise and its independence between variables hold over all draws", "anchors": ["infomeasure/estimators/mutual_information/kraskov_stoegbauer_grassberger.py:169-172,282-286", "infomeasure/estimators/transfer_entropy/kraskov_stoegbauer_grassberger.py:189-191,335-338", "infomeasure/estimators/entropy/kozachenko_leonenko.py:154,183-184,238-240", "infomeasure/estimators/base.py:565-568,705-714,903-907,1056-1062"]}
{"id": "C86", "title": "The base keyword of the functional API only changes the unit", "statement": "im.entropy, im.cross_entropy, im.mutual_information, im.conditional_mutual_information, im.transfer_entropy and im.conditional_transfer_entropy called with base=x raise exactly the exception they raise with base='e', or return that value divided by ln x, whatever the approach, the data, the condition and the other keyword arguments; two bases above 1 convert by ln x / ln y. A Tsallis measure of order 1 does the same, of any other order it returns the same number for every base. (Plain mutual information: bases above 1, because the two-variable value is cut off at zero.)", "quantifier": "all six public functions, all approaches and spellings, all data and conditions, all other keyword arguments (accepted or not), all bases x > 0, x ≠ 1 given as int or float", "why_tests_cant": "a law relating the results of two calls over all approaches, data, keyword combinations and bases, including which exception is raised", "anchors": ["infomeasure/estimators/functional.py", "infomeasure/estimators/base.py:Estimator.__init__,_log_base", "infomeasure/estimators/mixins.py", "infomeasure/estimators/utils/exponential_family.py"]}
{"id": "C87", "title": "Statistical tests through the functional API, for every approach", "statement": "im.estimator(...).statistical_test(n_tests, method): for (conditional) mutual information of every approach but ordinal, each test value is exactly what im.estimator returns for the resampled data (rows of the first variable drawn - permuted, or with replacement - among the samples kept by the offset; second variable and condition untouched), and the observed value is what im.estimator returns for the data given; for transfer entropy of every approach each test value is the same function of the history tables with drawn source-history rows only; p-value, null mean and counts summarise these values. Entropies raise AttributeError, invalid n_tests and unknown methods raise ValueError. Ordinal (conditional) mutual information and every conditional transfer entropy are never randomised by their test: all test values equal the observed value and p = 0 (noise aside).", "quantifier": "all measures, approaches and their spellings, all arrays (1-D and 2-D), keyword arguments, offsets, numbers of tests, random generators and their states, noise draws", "why_tests_cant": "the null distribution depends on every draw of the generator in every round; a seeded run shows one history, and a test that leaves some variable unshuffled or recomputes nothing still produces plausible numbers", "anchors": ["infomeasure/estimators/mixins.py: StatisticalTestingMixin.statistical_test, _test_mi, _test_te", "infomeasure/estimators/functional.py: estimator", "infomeasure/estimators/base.py: MutualInformationEstimator, ConditionalMutualInformationEstimator, TransferEntropyEstimator, ConditionalTransferEntropyEstimator", "infomeasure/estimators/mutual_information/ordinal.py", "infomeasure/estimators/transfer_entropy"]}
{"id": "C88", "title": "Effective values through the functional API", "statement": "im.estimator(..., measure='te').effective_val(method) is, for every approach, the transfer entropy of the data given minus the same function of the history tables with one draw of source-history rows (permuted or with replacement, by the method given or configured): exactly the first test value of a statistical test on the same generator. The effective value of every conditional transfer entropy is 0 whatever the data (noise aside). An unknown method is a ValueError; entropies and (conditional) mutual information have no effective value (AttributeError).", "quantifier": "all measures, approaches and their spellings, all data, keyword arguments, methods, settings, random generators and their states, noise draws", "why_tests_cant": "depends on every possible draw of the generator; a single seeded value says nothing about which rows were drawn or whether anything was randomised", "anchors": ["infomeasure/estimators/mixins.py: EffectiveValueMixin.effective_val, StatisticalTestingMixin._statistical_test, _test_te", "infomeasure/estimators/base.py: TransferEntropyEstimator, ConditionalTransferEntropyEstimator", "infomeasure/estimators/functional.py: estimator"]}
{"id": "C89", "title": "Integers and floats are interchangeable, and literal parameters mean what they say", "statement": "For the ordinal, kernel, metric (KL/KSG), Rényi and Tsallis approaches, entropy, cross_entropy, mutual_information, conditional_mutual_information, transfer_entropy and conditional_transfer_entropy return (or raise) the same for integer arrays and for float arrays holding the same numbers, also inside a tuple and as condition, and so do local_vals(), statistical_test() and effective_val(). With every approach the same holds when a real-valued parameter (base, bandwidth, alpha, q, noise_level, minkowski_p, undersampled) is given as an integer or as the same number as a float. base=\"e\" means nats and base=x divides by ln x; alpha=c and K=k of the Bayesian entropy enter the formula as these numbers; minkowski_p=inf is the maximum norm and minkowski_p=x the Minkowski norm of order x; a bandwidth or an order that is None, a string, zero or negative makes every function raise.", "quantifier": "every public function, approach, data (arrays, tuples, conditions), keyword arguments, integer value of the parameter, random state of the test", "why_tests_cant": "The statement ranges over all data, all parameter values and all combinations of function and approach; a test compares a few pairs of calls.", "anchors": ["infomeasure/estimators/functional.py:entropy", "infomeasure/estimators/base.py:Estimator", "infomeasure/estimators/utils/kde.py:kde_probability_density_function", "infomeasure/estimators/entropy/renyi.py:RenyiEntropyEstimator", "infomeasure/estimators/entropy/bayes.py:BayesEntropyEstimator", "infomeasure/estimators/entropy/kozachenko_leonenko.py:KozachenkoLeonenkoEntropyEstimator"]}
{"id": "C90", "title": "Two-dimensional arrays and joint conditions mean series of vectors, through the public functions", "statement": "transfer_entropy(source, dest, …) and conditional_transfer_entropy(source, dest, cond=z, …) accept two-dimensional arrays as series of vectors (a one-dimensional array is a series of one-component vectors, in any combination). With the discrete approach the value is I(future; source history | dest history[, condition history]) / ln(base) of the embedded vectors; Miller-Madow, the bias-corrected approaches, ANSB and NSB return the combination of the four entropies of their method (or fail exactly where the method is undefined); the box kernel returns the kernel estimate on the concatenated history vectors; KSG, Renyi and Tsallis without noise return what conditional_mutual_information returns for these embedded vectors. A tuple of conditions acts as the joint condition in the discrete approach, for conditional mutual information and conditional transfer entropy; Miller-Madow rejects joint conditions given as a tuple with ValueError (conditional mutual information also a two-dimensional one). The ordinal approach raises TypeError for two-dimensional series. mutual_information of two-dimensional integer arrays (discrete, Miller-Madow) is the total correlation of the rows, also with constant variables; mixing one- and two-dimensional arrays is a TypeError. conditional_mutual_information with the discrete approach is I(X; Y | Z) of the vectors (one- and two-dimensional arrays may be mixed there), with Miller-Madow the combination of its entropies for a one-dimensional condition. The bias-corrected approaches, ANSB and NSB return the sum of the entropies minus the joint entropy of the vectors (conditional: of the vectors together with the condition), in any mix of one- and two-dimensional arrays; normalize=True with a two-dimensional array is a ValueError; a tuple of conditions is read there as the array whose rows are the given series, so it is a ValueError unless there are as many series as samples, and is read transposed if there are.", "quantifier": "all series of vectors (any number of components and samples that leaves at least one embedded sample), history lengths, step sizes, base, keyword arguments, approaches, spelling of the approach", "why_tests_cant": "Embedding of vectors, reduction of joint conditions and the keyword binding interact; tests fix a handful of shapes and parameter sets, the property ranges over all of them.", "anchors": ["infomeasure/estimators/functional.py:transfer_entropy", "infomeasure/estimators/functional.py:conditional_transfer_entropy", "infomeasure/estimators/utils/te_slicing.py:te_observations", "infomeasure/estimators/utils/te_slicing.py:cte_observations", "infomeasure/estimators/transfer_entropy/discrete.py:DiscreteCTEEstimator", "infomeasure/estimators/transfer_entropy/ordinal.py:OrdinalTEEstimator", "infomeasure/estimators/utils/discrete_interaction_information.py:mutual_information_global", "infomeasure/estimators/base.py:MutualInformationEstimator", "infomeasure/estimators/base.py:ConditionalMutualInformationEstimator"]}
{"id": "C91", "title": "Identities between the public functions", "statement": "The results of different public functions, called with the same estimator, base and parameters, fit together as the definitions of the measures say. im.entropy((x, y, ...)) equals im.entropy(codes) for every sequence codes that labels equal joint observations equally and different ones differently. im.mutual_information(x1, ..., xn) is the sum of im.entropy(xi) minus im.entropy((x1, ..., xn)); im.conditional_mutual_information(x1, ..., xn, cond=z) is the sum of im.entropy((xi, z)) minus im.entropy((x1, ..., xn, z)) minus im.entropy(z); im.transfer_entropy and im.conditional_transfer_entropy are the corresponding combination of im.entropy on tuples of lagged columns of the series; im.mutual_information(x, x) is im.entropy(x). The non-parametric estimators ANSB and NSB either satisfy the identity or report a non-finite result on both sides. KSG (conditional) transfer entropy is im.conditional_mutual_information of the embedded series. The shrinkage estimator is the one documented exception: its mutual information of x with itself differs from its entropy.", "quantifier": "all integer data sets (tie-free real series for the ordinal estimator, all real series for KSG), all numbers of variables, all history lengths and step sizes, all bases, all spellings of the estimator names and all accepted keyword dictionaries", "why_tests_cant": "The functions are implemented by independent code paths (np.unique on rows, label reduction, crosstabs, dictionaries, embedding) that agree on the examples of a test suite; agreement on every data set is a statement about all inputs.", "anchors": ["infomeasure/estimators/functional.py:entropy", "infomeasure/estimators/functional.py:mutual_information", "infomeasure/estimators/functional.py:conditional_mutual_information", "infomeasure/estimators/functional.py:transfer_entropy", "infomeasure/estimators/functional.py:conditional_transfer_entropy", "infomeasure/estimators/mixins.py", "infomeasure/estimators/mutual_information/shrink.py"]}
{"id": "C92", "title": "The order of the arguments, the order of the observations and the names of the symbols do not matter", "statement": "Through the public functions, data that carry the same information give the same result, the same value or the same error. For every discrete estimator (plug-in, Miller-Madow, the parameter-free bias corrections, Bayes, ANSB, NSB): im.entropy of a sequence or of a tuple of sequences, im.mutual_information of any number of variables and im.conditional_mutual_information of any number of variables (also through mutual_information with cond) do not change when the variables are given in another order, the observations of all variables (and of the condition) are put in another order, or the symbols of each variable are renamed one to one, in any combination; im.transfer_entropy and im.conditional_transfer_entropy do not change when the symbols of source, destination and condition are renamed one to one. For real data: mutual and conditional mutual information with the box kernel, the KSG estimators, Renyi and Tsallis estimators do not depend on the order of the variables nor on the order of the observations; the Gaussian kernel mutual information likewise, the ordinal mutual information and the Gaussian conditional mutual information are symmetric; kernel, Kozachenko-Leonenko, Renyi and Tsallis entropies do not depend on the order of the observations (noise_level=0). Exchanging the two variables of a mutual information is changing the sign of offset.", "quantifier": "all data of any length and number of variables, all permutations of the variables and of the observations, all injective renamings of the symbols of each variable, all their finite combinations; all spellings of the estimator, bases and parameters accepted by the call", "why_tests_cant": "the permutations, renamings and data are unbounded in number; a test compares a few fixed pairs", "anchors": ["infomeasure/__init__.py: entropy, mutual_information, transfer_entropy", "infomeasure/estimators/functional.py: entropy, mutual_information, conditional_mutual_information, transfer_entropy, conditional_transfer_entropy", "infomeasure/utils/data.py: DiscreteData", "infomeasure/estimators/base.py: MutualInformationEstimator, ConditionalMutualInformationEstimator, TransferEntropyEstimator", "infomeasure/estimators/mutual_information/"]}
{"id": "C93", "title": "Float arrays given to the discrete estimators are sequences of symbols, and scaling them changes nothing", "statement": "The estimators of discrete data accept float arrays. Through the public functions such a call gives the same result, the same value or the same error, as the call with the numbers coded by integers, equal numbers by equal and different numbers by different integers: im.entropy of a float array or a tuple of float arrays, im.mutual_information and im.conditional_mutual_information of any number of variables (also through mutual_information with cond), im.transfer_entropy and im.conditional_transfer_entropy, where some of the arguments may be integer arrays; plug-in, Miller-Madow, the parameter-free bias corrections, Bayes, ANSB and NSB. In particular the discrete entropy of a float array is the Shannon entropy of its numbers compared exactly: nothing is binned or rounded. In the bias-corrected mutual and conditional mutual information normalize=True changes nothing, for integers and floats alike, as long as every variable (and the condition) takes at least two values.", "quantifier": "all float and integer arrays of any length, all mixtures of them, all numbers of variables, all injective codings, all spellings of the estimator, bases and parameters accepted by the call", "why_tests_cant": "the numbers, their codings and the mixtures of arguments are unbounded in number; a test compares a few fixed arrays", "anchors": ["infomeasure/estimators/functional.py: entropy, mutual_information, conditional_mutual_information, transfer_entropy, conditional_transfer_entropy", "infomeasure/estimators/base.py: DiscreteHEstimator, MutualInformationEstimator, ConditionalMutualInformationEstimator", "infomeasure/utils/data.py: DiscreteData", "infomeasure/utils/normalize.py: normalize_data_0_1", "infomeasure/estimators/mutual_information/"]}
{"id": "C94", "title": "On random observations the discrete estimates converge almost surely to the true value", "statement": "Let the observations be random symbols of a finite alphabet with a fixed distribution, independent when they are far enough apart (in particular independent and identically distributed). Then with probability one the public call on the first n observations has a result for every n (n large enough for the histories), and as n grows the results converge to the true value in the unit of the base: im.entropy with each of the eight parameter-free discrete approaches and the Bayesian one to the Shannon entropy; im.mutual_information and im.conditional_mutual_information with each bias-corrected approach (ANSB and NSB excepted) to the (conditional) mutual information of the joint distribution; im.transfer_entropy and im.conditional_transfer_entropy to I(future; source history | other histories) of the distribution of the windows. The plug-in values of the last four are the textbook values of the sample below 2^32 observations, and these converge to the same limits. For independent observations the mutual information converges to 0 if the two variables are independent, and the transfer entropy converges to 0. The conditional transfer entropy between independent, identically distributed triples of observations (the members of a triple may depend on each other) converges to 0.", "quantifier": "all probability spaces, alphabets, distributions, dependence ranges, bases, parameters and history lengths; almost all outcomes; all sample sizes", "why_tests_cant": "a limit over all sample sizes on a set of outcomes of probability one: a test sees finitely many samples of finite size and must accept a tolerance", "anchors": ["infomeasure/estimators/functional.py: entropy, mutual_information, conditional_mutual_information, transfer_entropy, conditional_transfer_entropy", "infomeasure/estimators/entropy/", "infomeasure/estimators/mutual_information/", "infomeasure/estimators/transfer_entropy/"]}
{"id": "C95", "title": "Units, origins and increasing maps of the readings, through the public functions", "statement": "Ordinal approach: replacing each series by its image under its own strictly increasing map changes no public result — value or exception — of im.entropy, im.mutual_information, im.conditional_mutual_information, im.transfer_entropy and im.conditional_transfer_entropy if the windows have no ties or stable=True is passed (joint entropy and cross-entropy: if the windows have no ties). Metric approach without noise: with a common unit c ≠ 0 and an own origin for every column the entropy grows by d·log|c| in the unit of the base and MI, CMI, TE and CTE do not change. Box kernel: the same if the bandwidth is given in the new unit, |c|·h. Gaussian kernel: the bandwidth needs no change and every variable can have its own unit. Rényi and Tsallis: origins change no value and no exception; a common unit adds d·log|c| to the Rényi entropy, nothing to the Rényi MI (any number of variables), TE and CTE, (m-2)·d_z·log|c| to the Rényi CMI of m variables, and turns the Tsallis entropy T into T' with 1+(1-q)T' = (|c|^d)^(1-q)(1+(1-q)T).", "quantifier": "all readings, maps, units, origins, approach spellings and accepted keyword arguments; all worlds (argsort, eigen-decomposition, configured base)", "why_tests_cant": "ranges over all increasing maps of the reals, all units and all data; a test checks one unit on one data set", "anchors": ["infomeasure/__init__.py: entropy, mutual_information, transfer_entropy", "infomeasure/estimators/utils/ordinal.py: symbolize_series", "infomeasure/estimators/entropy/kozachenko_leonenko.py: KozachenkoLeonenkoEntropyEstimator", "infomeasure/estimators/mutual_information/kraskov_stoegbauer_grassberger.py: BaseKSGMIEstimator", "infomeasure/estimators/utils/kde.py: kde_probability_density_function", "infomeasure/estimators/entropy/renyi.py: RenyiEntropyEstimator", "infomeasure/estimators/entropy/tsallis.py: TsallisEntropyEstimator"]}
{"id": "C96", "title": "Ordinal measures of random readings: permutation entropy of white noise is log d!, information between independent noises is 0", "statement": "Let readings be random. If the ordinal patterns of a series (embedding dimension d, step s) behave like samples — the same distribution p at every time, patterns far apart independent — then the result of im.entropy with approach 'ordinal'/'symbolic'/'permutation' converges almost surely to the entropy of p in the unit of the base, as the number of readings grows; im.mutual_information of two series converges to the mutual information of the joint pattern distribution, and im.conditional_mutual_information of three to their conditional mutual information. For white noise (independent readings with one distribution without atoms, whatever it is) each of the d! patterns has probability 1/d! and the permutation entropy converges to log d!; mutual information of two independent noises converges to 0, and so does transfer entropy with any history lengths and step.", "quantifier": "all probability spaces, all sequences of random readings with the stated distributional property, all d in 1..20, steps, history lengths, bases, worlds; all numbers of readings below 2^32 for the value of the call, and the limit of the textbook value to which the call is equal", "why_tests_cant": "an almost-sure limit over all noise distributions; a test draws one finite sample", "anchors": ["infomeasure/__init__.py: entropy, mutual_information, transfer_entropy", "infomeasure/estimators/entropy/ordinal.py: OrdinalEntropyEstimator", "infomeasure/estimators/mutual_information/ordinal.py: OrdinalMIEstimator", "infomeasure/estimators/transfer_entropy/ordinal.py: OrdinalTEEstimator", "infomeasure/estimators/utils/ordinal.py: symbolize_series, reduce_joint_space"]}
{"id": "C97", "title": "Ordinal measures of inverted and of time-reversed series", "statement": "With approach 'ordinal'/'symbolic'/'permutation' and windows without ties: replacing a series by its image under a strictly monotone map — decreasing as well as increasing, e.g. flipping the sign of the readings, a different one for every series — changes no value of im.entropy (one series or a tuple), im.mutual_information, im.conditional_mutual_information, im.transfer_entropy and im.conditional_transfer_entropy. Reading all series backwards in time changes no entropy, joint entropy, mutual information or conditional mutual information.", "quantifier": "all series without ties in a window (lengths below 2^32 where the value is a mutual information or transfer entropy), all strictly monotone maps, all embedding dimensions, steps, history lengths, bases, approach spellings, worlds", "why_tests_cant": "all monotone maps and all series; the code has separate fast paths for dimensions 2 and 3 and the Lehmer code, which treat rising and falling patterns differently", "anchors": ["infomeasure/__init__.py: entropy, mutual_information, transfer_entropy", "infomeasure/estimators/entropy/ordinal.py: OrdinalEntropyEstimator", "infomeasure/estimators/mutual_information/ordinal.py: OrdinalMIEstimator", "infomeasure/estimators/transfer_entropy/ordinal.py: OrdinalTEEstimator", "infomeasure/estimators/utils/ordinal.py: symbolize_series, permutation_to_integer"]}
{"id": "C98", "title": "The log level and the settings are independent, and a refused level changes nothing", "statement": "Config.set_log_level accepts every integer and every documented level name in any mixture of upper and lower case, and the level of the package's logger is then that value. A name that logging does not know, or an object that is no integer and no text, is refused — with AttributeError, although the documentation promises ValueError — and names of other attributes of logging with ValueError or TypeError; the level is then unchanged. After any history of calls of Config.set, reset, set_logarithmic_unit and set_log_level, accepted or refused, in any order, the settings are those after the settings calls alone and the level is that of the last accepted set_log_level.", "quantifier": "all arguments, all histories of calls, all states of the logging module's attribute table and name registry", "why_tests_cant": "ranges over all interleavings of accepted and refused calls and all attribute tables", "anchors": ["infomeasure/utils/config.py: Config.set_log_level, Config.set, Config.reset, Config.set_logarithmic_unit, logger"]}
{"id": "C99", "title": "Percentiles and confidence intervals with every interpolation method", "statement": "For every non-empty list of resampled values StatisticalTestResult.percentile(q, method) is, for each of NumPy's thirteen method names, defined for every q from 0 to 100, non-decreasing in q, the smallest value at q = 0 and the largest at q = 100; another name or a q outside the range is a ValueError. confidence_interval(level, method) exists exactly for 0 < level < 100, is ordered, lies within the values, contains the median of the same method and grows with the level. 'linear' is the default percentile; 'lower', 'higher', 'nearest', 'inverted_cdf' and 'closest_observation' return one of the values; 'linear', 'midpoint' and 'nearest' lie between 'lower' and 'higher'; 'inverted_cdf' is the smallest value whose share of values at or below it reaches q percent; the order of the values is irrelevant. The value of each method is exact: with the plotting constants (alpha, beta) of an interpolating method the k-th smallest of n values is the percentile of the fraction (k - alpha)/(n + 1 - alpha - beta) and between neighbours it is linear; between k/(n-1) and (k+1)/(n-1) 'lower', 'higher', 'midpoint' and 'nearest' take the lower neighbour, the upper one, their mean, the nearer one; 'averaged_inverted_cdf' is the mean of two neighbours at a multiple of 1/n and 'inverted_cdf' elsewhere; 'closest_observation' takes the value of the nearest rank.", "quantifier": "all non-empty value lists, all percentages and levels, all method names, all tie rules of closest_observation", "why_tests_cant": "ranges over all value lists, percentages and levels for thirteen rounding rules", "anchors": ["infomeasure/utils/data.py: StatisticalTestResult.percentile, StatisticalTestResult.confidence_interval"]}
{"id": "C100", "title": "A few changed observations move the results little", "statement": "If m of N observations are replaced by any others, im.entropy of discrete data moves by at most m (1 + log N)/N nats (Miller-Madow: m (3/2 + log N)/N; joint entropy likewise with m changed joint observations), im.mutual_information(x, y) by at most three times and im.conditional_mutual_information(x, y, cond=z) by at most four times as much (m changed pairs or triples). A changed sample of the source touches at most src_hist_len rows of the transfer-entropy embedding and one of the destination at most dest_hist_len + 1, so im.transfer_entropy moves by at most 4 (l m_x + (k+1) m_y)(1 + log R)/R for R rows; im.conditional_transfer_entropy by at most 4 (l m_x + (k+1) m_y + c m_z)(1 + log R)/R. With the ordinal approach a changed reading, however large, touches at most embedding_dim patterns, and the same bounds hold times embedding_dim, for the entropy, the mutual and conditional mutual information, the transfer and conditional transfer entropy. For n variables, none of them constant, mutual information moves by at most (n+1) m (1 + log N)/N; if one of three or more variables becomes constant by a single changed observation, the result can drop from H(x) to 0 whatever N is.", "quantifier": "all samples and series of any length, all replacements of any number of observations, all bases > 1, all history lengths, steps and embedding dimensions", "why_tests_cant": "ranges over all samples and all their modifications", "anchors": ["infomeasure/estimators/functional.py: entropy, mutual_information, conditional_mutual_information, transfer_entropy", "infomeasure/estimators/entropy/discrete.py", "infomeasure/estimators/mutual_information/discrete.py", "infomeasure/estimators/transfer_entropy/discrete.py", "infomeasure/estimators/entropy/ordinal.py", "infomeasure/estimators/functional.py: conditional_transfer_entropy"]}
{"id": "C101", "title": "Average error of the plug-in estimates on random observations", "statement": "If observations are random symbols of a finite alphabet of K symbols with distribution p, and observations at least M steps apart are independent (M = 1: independent observations), then for every n the expectation of im.entropy of n observations (discrete estimator) lies between H(p) - (2M-1)(K-1)/n and H(p) nats: on average the estimate is never too large. Miller-Madow: between H(p) - (2M-1)(K-1)/n and H(p) + (K-1)/(2n). The expectation of im.mutual_information of n pairs lies between I - (2M-1)(Kx-1 + Ky-1)/n and I + (2M-1)(Kxy-1)/n, of conditional mutual information, of transfer entropy and of conditional transfer entropy (windows as observations) likewise with the alphabets of its four entropies. The mean absolute error of im.entropy is at most sqrt((2M-1)V/n) + (2M-1)(K-1)/n nats, where V is the variance of -log p(x); so the probability of an error of eps or more is at most this divided by eps. The mean absolute error of the mutual information, conditional mutual information, transfer entropy and conditional transfer entropy is at most the sum of such bounds for its three or four entropies. Where there is no information, little is measured: for n independent pairs with independent members (Kx, Ky symbols) the expectation of im.mutual_information lies between 0 and (Kx Ky - 1)/n nats and the result is eps or more with probability at most that divided by eps; for transfer entropy between independent pairs likewise with (2 max(k,l)+1)(Ky Kx^l Ky^k - 1 + Ky^k - 1) over the number of rows. The same kind of bound holds for the plug-in conditional transfer entropy between independent triples (Kx, Ky, Kz symbols, R rows): on average at most (2 max(k,l,c) + 1)(Ky Kx^l Ky^k Kz^c - 1 + Ky^k Kz^c - 1)/R nats, and eps or more with probability at most that divided by eps.", "quantifier": "all finite alphabets and distributions, all numbers of observations, all dependence ranges M, all bases > 1, all history lengths and steps", "why_tests_cant": "an expectation over all outcomes for every distribution and sample size; simulation only samples it", "anchors": ["infomeasure/estimators/functional.py: entropy, mutual_information, conditional_mutual_information, transfer_entropy", "infomeasure/estimators/entropy/discrete.py", "infomeasure/estimators/entropy/miller_madow.py", "infomeasure/estimators/mutual_information/discrete.py", "infomeasure/estimators/transfer_entropy/discrete.py", "infomeasure/estimators/functional.py: conditional_transfer_entropy"]}
{"id": "C102", "title": "A two-dimensional array of discrete data is the sequence of its rows for the entropies", "statement": "For every entropy estimator of discrete data (discrete, Miller-Madow, Grassberger, Chao-Shen, Chao-Wang-Jost, shrinkage, Zhang, Bonachela, Bayes, ANSB, NSB) im.entropy of a non-empty two-dimensional integer array, and its local values, are those of a sequence with one label per row, equal exactly for equal rows; for the estimators without parameters the value is the published formula for any such labelling, for the plug-in estimator the Shannon entropy of the rows. A tuple of sequences gives the same value and local values as the array whose columns they are. The cross-entropy of two arrays is that of the two sequences in which each array's different rows are numbered from 0 by themselves (so rows of different arrays are compared by these numbers, not by their content).", "quantifier": "all non-empty integer arrays (any number of rows and columns), all labellings, all spellings of the approach, all accepted keyword dictionaries, all bases, all parameters", "why_tests_cant": "ranges over all arrays, labellings and keyword dictionaries for eleven estimators", "anchors": ["infomeasure/estimators/base.py: EntropyEstimator.__init__, DiscreteHEstimator.__init__", "infomeasure/estimators/utils/ordinal.py: reduce_joint_space", "infomeasure/estimators/functional.py: entropy, cross_entropy, estimator"]}
{"id": "C103", "title": "Ordinal measures of finitely many random readings", "statement": "For n random readings (embedding dimension d, step s, R = n - (d-1)s windows): if the ordinal patterns have a distribution p on K patterns and patterns at least M apart are independent, the expectation of im.entropy(x, approach='ordinal') lies between H(p) - (2M-1)(K-1)/R and H(p) nats. The expectation of the ordinal conditional mutual information is within the bounds of C101 (R windows) of that of the pattern distribution. For white noise (independent readings with one distribution without atoms, whatever it is): permutation entropy never exceeds log d!, its expectation is at least log d! - (2(d-1)s+1)(d!-1)/R, and it is eps or more below log d! with probability at most that gap divided by eps. The ordinal mutual information of two independent noises is on average at most (2(d-1)s+1)(d!^2-1)/R nats, and is eps or more with probability at most that divided by eps; ordinal transfer entropy with history lengths l, k likewise with (2(max(k,l)+d)-1)(d!^(l+k+1) + d!^k - 2) over the number of rows. All in the unit of the base.", "quantifier": "all continuous distributions of the readings, all numbers of readings (below 2^32 for the information measures), embedding dimensions, steps, history lengths, bases > 1 and thresholds eps > 0", "why_tests_cant": "a probability over all outcomes for every distribution and length; simulation only samples it", "anchors": ["infomeasure/estimators/functional.py: entropy, mutual_information, transfer_entropy", "infomeasure/estimators/entropy/ordinal.py", "infomeasure/estimators/mutual_information/ordinal.py", "infomeasure/estimators/transfer_entropy/ordinal.py", "infomeasure/estimators/utils/ordinal.py: symbolize_series"]}
{"id": "C104", "title": "The cross-entropy and the divergences of random samples converge to those of their distributions", "statement": "If the observations of two samples are symbols of a finite set S with distributions p and q, independent when far enough apart, then almost surely, as the number n of observations grows: im.cross_entropy(x, y, approach='discrete') converges to -sum p(a) log q(a) over the symbols with q(a) > 0, and im.kld to that minus the Shannon entropy of p; if q is positive wherever p is, this is the Kullback-Leibler divergence of p and q, never negative and zero exactly if p = q. im.jsd of m such samples converges to the generalised Jensen-Shannon divergence of their distributions, never negative and zero exactly if all are equal. The same holds for approach='ordinal' and the distributions of the ordinal patterns; for independent readings with (two, possibly different) distributions without atoms both ordinal divergences converge to 0. The Miller-Madow and the Bayesian cross-entropy and divergence (a number as alpha, any K) have the same limits as the plug-in ones. All in the unit of the base; the samples need not be independent of each other.", "quantifier": "all finite alphabets, distributions, probability spaces, numbers of samples, dependence lengths, embedding dimensions (for im.kld at most 20) and steps, bases, and almost every outcome", "why_tests_cant": "an almost-sure limit over all distributions; tests see finitely many finite samples", "anchors": ["infomeasure/composite_measures/kld.py:kullback_leiber_divergence", "infomeasure/composite_measures/jsd.py:jensen_shannon_divergence", "infomeasure/estimators/functional.py:cross_entropy", "infomeasure/estimators/entropy/discrete.py:DiscreteEntropyEstimator", "infomeasure/estimators/entropy/ordinal.py:OrdinalEntropyEstimator"]}
