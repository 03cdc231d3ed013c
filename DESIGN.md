# Design of the formal model of infomeasure

The model is written in Lean 4 (single Mathlib modules). `lean/Verif/Np.lean` and `lean/Verif/Model/*.lean` are the model (every
definition cites file and lines of `/repo`), `lean/Verif/Spec/*.lean` are the textbook quantities, written without the model,
`lean/Verif/Lemmas/*.lean` the proofs, `lean/Verif/Props/*.lean` the property theorems, named `Cnn_…` after the property in
`properties.jsonl`. `MANIFEST.json` lists every theorem of every property (generated by `tools/manifest.py`).

## How things are modelled

- **Numbers.** Floats are real numbers. A computation whose IEEE result would be `inf` or `nan` (log 0, 0/0, Γ or ψ at a pole, mean of an
  empty array) is `Except.error .nonFinite`; this is absorbing, like `nan`, and is not a Python exception. Rounding is not modelled.
  Integers are unbounded except where the code's wrap-around is observable: products of counts are modulo 2^64 (C14), permutation
  codes are modulo the bits of their dtype (C26).
- **Exceptions.** `Except Exc α`, with the Python exception class. Checks are in the order of the code, so the exception that wins is the
  code's.
- **Arrays.** 1-D arrays are lists, 2-D arrays lists of rows (plus the number of columns for floats). Symbols are integers for discrete
  data, an arbitrary linear order for ordinal data, reals for kernel and nearest-neighbour estimators.
- **Mutable state.** Estimator objects with their caches and flags (C40, C41, C44) and the configuration (C38, C39) are state machines; a
  method returns the new state together with a value or an exception, so crash points are the error branches.
- **Randomness.** A generator is an arbitrary state with arbitrary outcomes: an arbitrary permutation, arbitrary indices, an arbitrary
  noise array. Theorems hold for all of them.
- **Parallelism.** `Pool.map` is a list map (the contract of the library); what is proved is the splitting and re-assembly (C48).

## Trusted base

1. Lean 4.33.0's kernel and the three standard axioms. `#print axioms` over all theorems of `MANIFEST.json` gives only `propext`,
   `Classical.choice`, `Quot.sound` (most theorems use all three because of ℝ). No other axioms, no `native_decide`, no `bv_decide`.
2. That the model reads the code right. There is no extraction and the code was not run; the line references are there to be checked.
   `seeded/LOG.jsonl` records edits of the model (seeded bugs) and the theorems that noticed.
3. Library behaviour that the model states instead of proving:
   - NumPy: `unique` (sorted, counts, inverse), `column_stack`, fancy indexing, `arange`, `array_split`, `percentile` (the thirteen methods, after NumPy's documented table), `argsort`
     (the default kind is an arbitrary function that sorts, the order of ties unspecified; `kind="stable"` exactly), `mean` of an empty array, slices, integer wrap-around.
   - SciPy: `KDTree.query` returns the `k` smallest distances in increasing order, padded with `inf`, and squeezes `k = 1`;
     `query_ball_point` counts points within the closed ball; `gaussian_kde` with a number as `bw_method` is the average of normal densities with
     covariance `h² · cov` (C71; in the theorems about both kernels it is an arbitrary function of data, bandwidth and point); `numpy.linalg.eig` returns unit eigenvectors
     (`Spec.EigOK`);
     `digamma` and `gamma` are the mathematical functions, `polygamma(1, x)` is Σ 1/(n+x)², `loggamma` is log Γ, and `quad`
     returns the integral. Γ at its poles depends on the SciPy version (`inf` or `nan`): both are
     `nonFinite` here.
   - `nextafter(r, -inf)` followed by a closed-ball count is a strict count: true of floats for the maximum norm (the default). For
     other norms SciPy compares powers of distances, so rounding and, at `r = 0`, underflow can decide; this is not modelled.
   - `sparse.COO` sums duplicate cells; `Counter` counts; `str.lower` lowers ASCII (`PyLower`, arbitrary outside ASCII).
   - The random generator contracts: `permutation` returns a permutation, `choice` indices in range.

## What is modelled

`utils/data.py`, `utils/config.py`, `estimators/functional.py`, `estimators/base.py` (life cycle, constructors and generic combinations),
`estimators/mixins.py` (statistical tests, effective values, distribution resampling), all of `estimators/utils/`, `composite_measures/`, and
in `estimators/entropy`, `mutual_information`, `transfer_entropy`: discrete, Miller–Madow, Grassberger, Chao–Shen, Chao–Wang–Jost, shrinkage,
Bayes, Zhang, Bonachela, ANSB, NSB, ordinal, kernel, Kozachenko–Leonenko, KSG, Rényi, Tsallis.

## What is not modelled

- NSB (`entropy/nsb.py`): the numerical quadrature is the exact integral and the root finder an arbitrary function (proved to have no
  influence); a support size `K ≤ 0` given to the entropy class itself is outside the model (the MI and TE classes reject it).
- Rounding, overflow to `inf` of finite expressions, `nan` inside data, log messages and warnings, docs, performance.
- The actual distribution of random numbers.
- Float arrays given to the discrete estimators, and `normalize=True` in the bias-corrected mutual informations, are evaluated by `World.symbols`
  (`Model/EndToEndSymbols.lean`, C93): each number is replaced by its rank among the numbers of the call. That the code uses nothing but equality and
  order of symbols is read off the code (the lines are cited there), not proved. A constant variable with `normalize=True` (`nan`s) is outside.
- Small deviations kept on purpose: the Bayes rules `"sch-grass"` and `"min-max"` with `K = 0` are a ZeroDivisionError in Python and `nonFinite`
  here; with `base = 0` the local values are the scalar `0` in Python and a list of zeros here.
- Process pools beyond the contract of `map`.

## Plan per property

- **C01** Discrete data summary is exact: Model `DiscreteData.fromData` over lists (unique = sort∘dedup, counts = List.count). Invariant by list lemmas.
- **C02** Count validation is exact: Model `from_counts`+`__post_init__` as an `Except`-returning function branch by branch; iff theorem for success, each error branch.
- **C03** Discrete entropy is the Shannon entropy of the sample: Entropy model = −Σ p·log_b p over the counts; spec = Σ over the Finset of symbols of negMulLog(freq); equality via sum over dedup.
- **C04** Discrete entropy bounds: log x ≤ x−1 with equality case, on the spec.
- **C05** Discrete entropy ignores order and labels: Spec depends only on multiset of counts; transport through C03.
- **C06** Local discrete entropies average to the global value: List sum by counts.
- **C07** Joint-space reduction is lossless: Model reduce_joint_space (column_stack, unique inverse); idxOf injective on members.
- **C08** Joint entropy is the entropy of the joint rows: C07+C05 (codes are an injective relabelling of rows), then Gibbs inequality.
- **C09** Base change is a pure rescaling: By C03-like identities for each model.
- **C10** Log-base guard: Case analysis on the modelled base type.
- **C11** Discrete mutual information equals the entropy combination and is non-negative: Contingency-table model; identity by re-summing; non-negativity by Gibbs.
- **C12** Discrete mutual information algebra: From C11 and spec lemmas; zero-iff-independent via equality case of log x ≤ x−1.
- **C13** Multi-variable mutual information is total correlation: n-ary contingency model; value for every number of variables (`C13_total_correlation_iff` says exactly when it is the total correlation) and a concrete violation.
- **C14** Marginal-count products do not wrap: uint64 product modelled modulo 2^64; exactness below the bound and a witness beyond it.
- **C15** Local mutual information averages to global: Local model; sum over samples = weighted sum over support.
- **C16** Conditional mutual information of two variables: Three-way spec; strong sub-additivity by Gibbs.
- **C17** Conditional mutual information of n variables: n-ary identity for the code's actual value including constant variables, exactly when it is the conditional total correlation, violation for n=3.
- **C18** All mutual-information code paths agree: Three models, pairwise equality theorems.
- **C19** Miller–Madow corrections are consistent: Correction-term arithmetic + C03/C13/C17, for any number of variables, constant ones included.
- **C20** Transfer-entropy embedding indexes correctly: Index model with `arange`, exact formula, bounds by omega/induction.
- **C21** Transfer-entropy embedding rejects exactly the invalid parameters: iff on the Except-valued model.
- **C22** Source permutation touches only the source: Random generator = arbitrary permutation / arbitrary index choice (parameter of the model).
- **C23** Embedded joint and marginal spaces are consistent: Definitional model + row-wise projection theorem.
- **C24** Discrete transfer entropy is the right entropy combination: combined_te_form = CMI of embedded lists (C16); generic path by entropies.
- **C25** Offset pairs the right samples: Python slice semantics on lists; getElem characterisation.  `C25_continuous_offset` for continuous data of any dimension.
- **C26** Permutation codes are a bijection: Lehmer code by induction on the list; factorial bounds; BitVec-like modulus for dtype.
- **C27** Symbolisation is ordinal: argsort as stable merge sort of indices; invariance under strictly monotone maps.
- **C28** Ordinal entropy fast paths agree with the generic path: Models of the three code paths; equality of count multisets; witness with ties.
- **C29** Ordinal entropy bounds: Bound of number of distinct patterns.
- **C30** Chao–Shen estimator is well defined: Real arithmetic on the count-vector model.
- **C31** Chao–Wang–Jost estimator is well defined: Real arithmetic on the count-vector model.
- **C32** Shrinkage estimator: Concavity / Gibbs on the count-vector model.
- **C33** Bayesian estimator: Real arithmetic + Gibbs.
- **C34** Local values average to global for bias-corrected estimators: Per-estimator list sums; negation witnesses.
- **C35** Vectorised Zhang and Bonachela formulas equal the published sums: Mask removal lemmas over List.range.
- **C36** Cross-entropy and KL divergence: Gibbs; negation witness.
- **C37** Jensen–Shannon divergence: Concavity of entropy (log-sum).
- **C38** Configuration store is transactional: Config as a finite map state machine; induction over op list.
- **C39** Changing the default base affects later calls: Two-phase model (import-time capture, call-time lookup); negation theorem.
- **C40** Results are cached and stable: Lifecycle state machine; induction over op list.
- **C41** Statistical tests leave the estimator unchanged: State machine with crash points; restoration theorem and negation for the crash.
- **C42** p-value semantics: Count model.
- **C43** Confidence intervals are ordered, contained and nested: Model of numpy linear percentile on the sorted list; monotonicity.
- **C44** Statistical tests randomise the source: Model of test loop with flags threaded as in the code; equality theorem = negation of the wanted property.
- **C45** Approach names dispatch consistently: Tables transcribed; theorem over all strings through lower-casing.
- **C46** Functional arity guards: Except model.
- **C47** Box-kernel density bounds: Counting model of the box kernel: a density is a neighbour count; bounds, extremal cases, invariances and the errors follow from counting lemmas; integer data reduces to the plug-in entropy (C03).
- **C48** Parallel density evaluation equals sequential: `array_split` model over lists; concatenation lemma; the one-point exception is a separate theorem; `workers` as resolved by the mixin (`C48_all_processors`, `C48_workers_as_given`).
- **C49** Normalisation: Real arithmetic on min/max of a list.
- **C50** Unit-ball volume special cases agree with the general formula: Γ identities and Mathlib's Lebesgue measure of ℓ^p balls.
- **C51** KSG digamma arguments are positive: Neighbour counts over the spec in `Spec/Knn.lean` (`IsKthDist`, counts of indices), digamma at positive integers is harmonic minus γ; counting bounds; `k ≥ n` uses the `inf` padding of the KD-tree contract.
- **C52** k-NN entropy guards: Same neighbour spec; log-volume from C50; cross-entropy with its own divisor; errors branch by branch.
- **C53** Entropy-combination measures use the estimator's own entropies: the generic MI/CMI/TE/CTE of `base.py` over an arbitrary entropy estimator (`HEst`); hypothesis: its local values average to its global value, or it has none. The hypothesis is discharged per estimator (C34).
- **C54** Zhang versus Chao–Wang–Jost: harmonic-number form of Zhang's double sum; term-wise comparison.
- **C55** ANSB: digamma at integers; pole at 0 is `nonFinite`.
- **C56, C57** Ordinal MI/CMI/TE/CTE: symbolisation (C27) composed with the discrete model (C11, C16, C24); codes are an injective relabelling of rank patterns (C26).
- **C58** Factory versus functional interface: both return the constructor call (class, data, condition, keyword arguments); equality of calls, and the parameters for which it fails.
- **C59–C61** Box-kernel MI, CMI, TE: neighbour counts, bandwidth factors cancel; integer data reduces to C11/C16/C24.
- **C62, C63** KSG CMI and TE: as C51; TE is proved equal to CMI of the embedded rows.
- **C64** Rényi and Tsallis entropy: formula from the k-th neighbour distances; limit at order one by L'Hôpital-type derivative lemma on log Γ; counterexample to monotonicity in the order.
- **C65** Rényi and Tsallis MI/CMI/TE/CTE: sums of C64 entropies; the joint entropy depends only on distances, so orders, shifts and TE=CMI follow.
- **C66** Bias-corrected MI/CMI/TE/CTE classes: constructor + parameter check + generic combination; each method's value is specified over
  counts only (`Spec/BiasInfo.lean`), so order, relabelling, constants and self-information follow from equality of counts.
- **C67** NSB: the estimate is a ratio of integrals over the concentration β; spec written with rising factorials and the prior mean
  entropy's derivative. Bounds by a weighted-mean argument, integrability from monotonicity of the prior mean; the published estimator is a
  second spec and the difference on constant samples is a theorem.
- **C68** Ordinal divergences: the dictionary JSD and the cross-entropy/KLD over the ordinal model; patterns specified as rank
  patterns of delay vectors; proved by transport of `jsd`/`kl` along the injective coding of tie-free windows; witnesses for the
  single-window key mismatch and for ties.
- **C69** Kernel JSD/KLD over the box-kernel entropy model (pooling = `concatVars`), nearest-neighbour KLD over the KL model, and the
  name dispatch of both composite measures; specified with `boxJsd`, `boxKl`; proved by averaging lemmas and neighbour counting;
  witnesses for negative values.
- **C70** `from_counts` over the models of all discrete classes (`Model/FromCounts.lean`); proved by showing that each class's global value is
  invariant under permutation of the table of counts (including which error is raised), independent of the C03–C67 value theorems.
- **C71** Gaussian kernel densities (`Model/Kernel` with `gaussCfg`): the covariance, eigen-decomposition, cut-off at 1e-10, projection and
  `scipy.stats.gaussian_kde` are modelled over ℝ; `numpy.linalg.eig` is an arbitrary function with the contract `Spec.EigOK`. Proved against
  `Spec/Gauss.lean` (mixture of normal densities) by linear algebra; limits in the bandwidth by dominated terms of a finite sum.
- **C72** Vector-valued series (`Model/VecTE`): a two-dimensional array is the list of its rows, so shift and embedding are the functions of
  `Model/TE` at row type followed by the flattening of `te_slicing.py:219-233`. Proved by naturality of the slicing in the element type, injectivity
  of flattening for rows of equal width, and the calculation lemmas of C24, C61, C63, C65 for futures of any width.
- **C73** Which calls are accepted: case analysis of `teInit`, `cteInit` and of the slicing guards for all argument values (integer, real,
  other, absent), combined with the totality of the plug-in value (C24).
- **C74** Which mutual-information calls are accepted: case analysis of `miInit`, `kmiInit`, `cmiInit`, `kcmiInit` (any element type) and of the
  condition argument, combined with totality of the plug-in and Miller–Madow values (C14, C19). Empty two-variable data are `ValueError` (the contingency
  table of no observations cannot be built) and the Miller–Madow correction divides by the number of observations; empty data with three and
  more variables are outside the statement.
- **C75** Discrete conditional transfer entropy: `discreteCTEVec` reduced (`cmiNdInt_codes`) to four entropies of the embedded rows, so that only equality of
  rows matters; forms of the condition (`CondSeries`, `condSeriesRows`) by `reduce_joint_space` = injective labels; special conditions and local values from the same reduction; ordinal via its codes.
- **C76** Inequalities between separate calls (`Props/Inequalities*.lean`): data processing for MI/CMI/TE from strong subadditivity (`cmi_processing`), for divergences
  from Gibbs' inequality with pushed-forward weights (`div_processing`), chain rule and variation of information from entropy identities on the aligned table, pooling via
  divergences from the pool and a tagged sample, repetition via equality of frequencies.  Equality cases from `entropy_map_eq_iff`.
- **C77** Distance of every bias-corrected estimate from the plug-in estimate (`Props/Consistency.lean`, `Spec/Consistency.lean`, lemmas `Close*.lean`): harmonic sums against logarithms (`harmonic_between`, `psi_between`), tangent inequality of `−x log x`, Cauchy–Schwarz for the shrinkage weight, a geometric tail for Chao–Wang–Jost; one common rate `(1+log N)/√N` (`value_rate`); limits over `Filter.atTop` by continuity of `x log x`. MI/CMI/TE by the entropy combinations of C66. ANSB diverges (negative theorem).
- **C78** What the reported p-value means under exchangeability (`Props/PValue.lean`): counting over `Fin (n+1)` for arbitrary real values; the value with fewest values above it among the rest gives the exact number of small p-values.
- **C79** Equality cases (`Props/Equality.lean`, `Spec/Independence.lean`, lemmas `Equality.lean`, `EqualityJsd.lean`): equality in Gibbs' inequality forces ratio 1 on the support, comparing total masses over the product of supports gives the rest; total correlation by induction over the columns (`TC(c::cs) = I(c; cs) + TC(cs)`); JSD by comparing each `p_i/m` with `n`.
- **C80** Memory reads of `as_strided` and the sort-once pattern extraction (`Model/OrdinalExtra.lean`, `Props/OrdinalExtra.lean`): address arithmetic; loop invariants over both loops (entries of the windows not yet truncated), the part of a global sorting permutation inside a window sorts the window, uniqueness of the stable order.
- **C81** Keyword arguments (`Model/Ctor.lean`, `Spec/Ctor.lean`, `Props/Ctor.lean`): every `__init__` of the method resolution order is a `Layer` (required and optional parameters, `**kwargs`, what it hands on); Python's argument binding is `Layer.bind`. A name bound by several constructors has the value of the innermost one, so a parameter that a constructor forgets to hand on would show as the inner default (`chainKeep` excludes that for all chains that can succeed). A conditional class without a condition is a ValueError (`C81_missing_condition`). Induction over a chain of layers gives acceptance and values for any well-formed chain; the 80 chains are checked against the documented tables by `rfl`. Simplified: all binding happens before the checks on data. Where noise arrays enter: `C51_noise_added`, `C52_cross_noise`, `C62_noise`, `C63_noise`, `C63_cte_noise`, `C65_*_noise`, `C69_kl_noise`, `C72_noise`.
- **C82** End to end (`Model/EndToEnd.lean`, `Spec/EndToEnd.lean`, `Props/EndToEnd*.lean`): the functional interface (C45, C46), the constructors (C81) and the estimators are composed: Python values in, value or exception out. `World` collects what is outside the model (lower-casing, argsort, eigenvalues, digamma, noise arrays, configured base). For each family the theorem states the textbook value under the spec structures `Call` (which name, which keywords, which base), `Plain` and `History`. The evaluation lemmas (`Lemmas/EndToEnd{Entropy,MI,CMI,TE,CTE}.lean`) are generated by `tools/gen_e2e.py`. Simplified: a data argument is one of five shapes (integers, reals, rows, …), arrays of other dtypes are outside the model. Further theorems for all public functions at once: an unknown approach name, the wrong number of series or a missing condition is a ValueError (`C82_value_error`); undocumented or missing keyword arguments are a TypeError (`C82_type_error`); spelling, explicit defaults and ignored keywords do not matter; `im.estimator(…).result()` is the functional call (`C82_factory_*`); a propagation time or offset is a shift of the series for transfer entropy (`C82_te_lag_*`) and a ValueError for conditional transfer entropy (`C82_cte_lag_*`). Joint entropies of tuples of real-valued series (`C82_joint_*`, `Props/EndToEnd6.lean`) are the entropies of the rows set side by side. Concrete calls meeting the hypotheses: `Props/EndToEndEx.lean`.
- **C83** Composite measures end to end (`Model/EndToEndDiv.lean`, `Lemmas/EndToEndDiv.lean`, `Props/EndToEndDiv.lean`, `Props/EndToEndDivEx.lean`): `imKld` and `imJsd` compose the name lookup (`kldEntry`, `jsdEntry`), keyword binding (C81) and the estimators. The divergence is proved equal to the two public calls for *every* input (`C83_kld_difference`, with the second estimator's noise drawn after the first one's), then evaluated per family by C36, C37, C68, C69. What the Jensen–Shannon divergence does with parameter values outside the modelled fragment is an arbitrary function `oj`.
- **C84** Local values end to end (`Model/EndToEndLocal.lean`, `Lemmas/EndToEndLocal.lean`, `Spec/EndToEndLocal.lean`, `Props/EndToEndLocal.lean`, `Props/EndToEndLocal2.lean`, `Props/EndToEndLocalEx.lean`): `imLocal` composes the factory, keyword binding and `local_vals()` of every class (`none`: parameter values outside the modelled fragment, e.g. `normalize=True` for the bias-corrected approaches). One case lemma per measure (`pairEntropy` … `pairCTE`) pairs the model of the value with the model of the local values, class by class; the mean, exception and refusal theorems are instances. The ordinal conditional mutual information is covered by `C84_ordinal_cmi_mean` (via `C56_cmi_local_mean`). Existence and number of local values come from C06, C15, C16, C19, C24, C28, C34, C56, C57, C75 through `local_built`.
- **C85** Noise end to end (`World.noise1/noise2/noiseSum` in `Model/EndToEnd.lean`, `Spec/EndToEndNoise.lean`, `Spec/NoiseLaw.lean`, `Props/EndToEndNoise.lean`, `Props/EndToEndNoise2.lean`, `Props/EndToEndNoiseEx.lean`): the draws of NumPy's generator are a parameter of the world (`draw i t j`: array number `i`, row `t`, column `j`), so every theorem holds for all draws. A call with level `v` is rewritten to the call with level 0 on the data plus `v · draw`; `C85_noise_variance` gives the variance of the added numbers for pairwise independent draws of variance one, and independent standard normal draws (an infinite product measure) meet its hypotheses.
- **C86** Base end to end (`Spec/EndToEndBase.lean`, `Lemmas/EndToEndBase.lean`, `Props/BaseChange3.lean`, `Props/EndToEndBase.lean`, `Props/EndToEndBaseEx.lean`): a relation between two calls. The keyword layers of C81 are run on two keyword dictionaries that differ only in `base`, giving the same exception or two estimators that differ only in that parameter; the base-change theorems C09 (extended in `BaseChange3` to the Rényi/Tsallis measures, NSB and the bias-corrected measures) then relate the two values. `PubFn.Modelled` says that the call is inside the modelled fragment (its result does not depend on `World.other`).
- **C87** Tests end to end (`Model/EndToEndTest.lean`, `Spec/EndToEndTest.lean`, `Lemmas/EndToEndTest*.lean`, `Props/EndToEndTest.lean`, `Props/EndToEndTest2.lean`, `Props/EndToEndTestEx.lean`): every estimator class cut into the object its `__init__` leaves behind and its `_calculate` (`Est.miObj`, …; the two halves are proved to compose to the value functions of C82, `split_*_value`), run by the test loop of C41/C44. The loop is turned into `rounds` of draws, and each evaluation on resampled data into a call of the public factory on those data (`mi_test_eq`, `cmi_test_eq`); for transfer entropy the draws select rows of the source-history table (`viaTables`), and the table function is pinned by the value of the measure on all data. Limits: two variables, `normalize=False`, 1-D series for transfer entropies; the standard normal draws of a computation are a function of the generator state.
- **C88** Effective values end to end (`Model/EndToEndEffective.lean`, `Props/EndToEndEffective.lean`, `Props/EndToEndEffectiveEx.lean`): `imEffective` composes the factory, the constructors and `effective_val`. Proved with the same object lemmas as C87: the effective transfer entropy is the value of the data minus one value on drawn source-history rows (`C88_te`), that value is the first test value of a test on the same generator (`C88_first_test_value`), existence (`C88_te_succeeds`, `C88_cte_succeeds`), the conditional one is 0 (`C88_cte`), errors (`C88_rejects`, `C88_no_effective`). `Props/EndToEndAsked.lean`: only calls that ask for a known measure by a known approach with the right variables and condition have a value, local values, a test, an effective value (`C82_asked`, `C84_asked`, `C87_asked`, `C88_asked`), and a call the factory refuses is refused with the same exception everywhere (`C88_same_error`).
- **C89** Integers and floats (`Spec/Numbers.lean`, `Props/Numbers.lean`, `Props/NumbersPar.lean`, `Props/NumbersLit.lean`, `Props/NumbersEx.lean`): by cases over approaches, the estimators of the same numbers as integers and floats read the same arrays (`C89_int_data`, `…_local`, `…_test`, `…_effective`); two calls that differ in one real-valued keyword argument build estimators that differ in that parameter only (`twin_ctor`), and every reading of it agrees (`C89_int_param`, `…_local`, `…_test`, `…_effective`). The literal meanings of `base`, `alpha`, `K`, `minkowski_p` are stated through `Spec.UnitIs`, `NormIs`, `IsNumber`, which do not mention the model (`C89_base`, `C89_bayes`, `C89_norm`); invalid bandwidths and orders always raise (`C89_not_positive`).
- **C90** Two-dimensional arrays and joint conditions end to end (`Model/EndToEndVec.lean`, `Spec/EndToEndVec.lean`, `Props/EndToEndVec*.lean`): `World.vec` evaluates the cases that `Model/EndToEnd.lean` leaves to `World.other` with the vector-valued estimators of C72, C75 and C16; `result_vec_of` (Lemmas) shows that nothing changes for calls evaluated before. `IntVectors`, `RealVectors`, `Condition` say which Python arguments hold which vectors. The values follow from C72 (`C72_bias_te`, `C72_nsb_te`, … for the bias-corrected classes), C75 and C16 after the generated lemmas `e2e_v*`. The bias-corrected mutual informations of two-dimensional arrays are `Model/BiasMIVec.lean` (agreement with the one-dimensional model: `biasMIArr_one` and the like); their values follow because the stacked rows count like the tuples of vectors (`stack_same`, `arr_bias_mi`, `arr_bias_cmi`, `arr_nsb_mi`, `arr_nsb_cmi`). `C90_te*`, `C90_cte*`, `C90_mi*`, `C90_cmi*`; `Props/EndToEndVecEx*.lean` has concrete calls.
- **C91** Identities between the public functions (`Spec/EndToEndIdent.lean`: `MiFromEntropies`, `CmiFromEntropies`, `TeCombination` quantify over the *results* of `im.entropy`, no formula of an entropy occurs; `Lemmas/EndToEndIdent*.lean`: `PubH` collects what is needed of an entropy function — value on a sequence, on a tuple, dependence on the counts only; `Props/EndToEndIdent*.lean`): the end-to-end values of C82 for both sides, the joint samples compared by `SameCounts`. `C91_joint_*`, `C91_mi*`, `C91_cmi*`, `C91_te*`, `C91_cte*`, `C91_mi_self*`, `C91_te_metric_is_cmi`, `C91_cte_metric_is_cmi`, `C91_shrink_exception`; concrete calls in `Props/EndToEndIdentEx.lean`.
- **C92** Order of arguments, order of observations, names of symbols, end to end (`Spec/EndToEndSym.lean`: `Relabelled`, `Rearranged`, `RearrangedCond` — the closure of permuting variables, permuting observations and renaming symbols; for real data `Reordered`, `ReorderedCond` at the head of `Props/EndToEndSym3.lean`): `sym_info`/`sym_info_cond` show that rearranged tables have the same counts jointly and per variable, by induction over the steps; the end-to-end values of C82 depend on these counts only. `C92_entropy*`, `C92_mi*`, `C92_cmi*` (with `C82_cmi_many`, the discrete conditional mutual information of any number of variables), `C92_te*`, `C92_cte*`, `C92_mi_offset*`; concrete calls in `Props/EndToEndSymEx.lean`.
- **C93** Float arrays as symbols, end to end (`Model/EndToEndSymbols.lean`, `Spec/EndToEndSymbols.lean`: `Symbols v d` — the array `d` is `v` with symbols renamed one to one to numbers; `Lemmas/EndToEndSymbols.lean`, `Props/EndToEndSymbols.lean`, `Props/EndToEndSymbols2.lean`, `Props/EndToEndNormalize.lean`): the ranks are an injective coding (`rankIn_inj`), so the coded call is the integer call up to a renaming, and C92 applies; `C93_entropy_value` states the entropy of a float array without any coding. `C93_*_normalize_*`: `normalize01` is injective on a non-constant variable, so the scaled data are the same symbols. Concrete calls in `Props/EndToEndSymbolsEx.lean`.
- **C94** Almost sure convergence (`Spec/AlmostSure.lean`: `observed X n ω` — the first `n` observations; `Sampling` — symbols of a finite set with one law, product probabilities for observations at least `M` apart; `Iid`; `pairInfo`, `tripleInfo`, the true values; `teWindow`, `cteWindow`. `Lemmas/AlmostSure.lean`, `Lemmas/AlmostSureIid.lean`, `Props/AlmostSure.lean`, `Props/AlmostSureIid.lean`): Mathlib's strong law (`strong_law_ae_real`, pairwise independence) applied to the indicators along each residue class modulo `M` gives convergence of the relative frequencies; C77's rates (`value_rate`) and the formulas of C82 turn it into convergence of the calls; windows of independent observations are an `M`-dependent sampling (`C94_te_windows`) with transfer entropy 0. Concrete processes built on `Measure.infinitePi` in `Props/AlmostSureEx.lean`: coins, pairs and triples of coins, and a coin with its delayed copy, whose transfer entropy converges to 1 bit.
- **C95** Units, origins, increasing maps through the public functions (`Props/EndToEndUnits.lean` ordinal, `EndToEndUnits2.lean` metric, `EndToEndUnits3.lean` box and Gaussian kernel, `EndToEndUnits4.lean` Rényi and Tsallis, `Lemmas/Units.lean`, instances in `EndToEndUnitsEx.lean`): the end-to-end bridges of C82 compose the estimator-level invariances (C27/C57 ordinal, C51/C52/C62/C63 metric, C29/C60 box, C71 Gaussian, C64/C65 Rényi/Tsallis), with new work for the ordinal joint/cross/MI/CMI/CTE, the box CMI/TE/CTE and all CTE: an affine map of a series is an affine map of each column of its embedding (`units_fut`, `units_hist`, `units_both`), the box neighbourhood is invariant when the bandwidth follows the unit (`units_inBox`). The Tsallis information measures are only claimed for changes of origin: a change of unit really changes them.
- **C96** Ordinal measures of random readings (`Spec/WhiteNoise.lean`, `Lemmas/WhiteNoise.lean`, `Props/WhiteNoise.lean`, `Props/WhiteNoiseTE.lean`; the concrete process — independent uniform readings, even and odd times as two independent series — in `WhiteNoiseEx.lean`): the windows of an i.i.d. sequence are M-dependent, so the counts of patterns obey the M-dependent strong law behind C85/C94; exchangeability of the d readings of a window makes all d! patterns equally probable and absence of atoms makes ties a null event. For transfer entropy the (future, source history, target history) triples are M-dependent samples of a product law, whose conditional information vanishes. Kernel, metric and Rényi estimators of continuous noise are not covered (their limits need density estimation theory).
- **C97** Inverted and time-reversed series, ordinal approach (`Spec/Reversal.lean`, `Props/Reversal.lean`, instances in `ReversalEx.lean`): two windows have equal patterns iff their entries compare alike; a decreasing map inverts all comparisons and reversal mirrors the windows, so equality of patterns at any two times is kept, and Shannon entropies depend on nothing else (and not on the order of the rows). Composed with the end-to-end theorems of C82. Transfer entropy is not claimed to be invariant under reversal (it is not).
- **C98** Log level (`Model/LogLevel.lean`, `Props/LogLevel.lean`): `set_log_level` over an arbitrary attribute table of `logging` that has the eight standard levels; the process-wide state is the pair (settings, level), and a history theorem by induction on the list of calls separates the two. Finding: unknown names raise AttributeError, not the documented ValueError.
- **C99** Percentile methods (`Model/Percentile.lean`, `Props/Percentile.lean`): each of NumPy's methods is a position in the sorted values (library contract; the parity rule of `closest_observation` at a tie is arbitrary); monotonicity, range and median for all of them, nesting of the confidence intervals, and the defining property of `inverted_cdf` by counting. `Props/PercentileExact.lean` gives the exact value of every method (plotting constants, rounding rules) against an arbitrary increasing rearrangement of the values.
- **C100** Stability (`Spec/Robust.lean`: `changed`, the number of positions at which two samples differ; `Lemmas/Robust.lean`, `Props/Robust.lean`, `Props/RobustCte.lean`, `Props/RobustEx.lean`): both samples are a common part plus `m` observations each; adding one observation raises `Σ c log c` by between 0 and `1 + log N`, so the entropies differ by at most `m (1 + log N)/N`; the other measures are combinations of entropies of columns that change at most where the rows change.
- **C101** Average error (`Lemmas/ExpectedBias.lean`, `Props/ExpectedBias.lean`, `Props/ExpectedBiasCte.lean`, `Props/FalseAlarm.lean`, `Props/ExpectedBiasEx.lean`, vocabulary of C94): `x log x` lies between its tangent at `p` and `x log p + x²/p − x`; the mean of a relative frequency is `p` and its second moment is at most `p² + (2M−1) p(1−p)/n` (pairs of indices closer than `M`), so each summand is known up to `(2M−1)(1−p)/n`; the other measures are combinations of entropies of functions of the observation. The mean absolute error splits off the linear term `∑ (log p + H)·(relative frequency)`, whose second moment is at most `(2M−1)V/n`; the rest is non-negative with mean at most `(2M−1)(K−1)/n`; Markov's inequality gives the probability of a given error.
- **C102** Two-dimensional arrays of discrete data (`Props/Matrices.lean`): the constructor turns an array into its row codes, which is what it makes of the sequence of codes; value, cross-entropy and local values of the eleven classes depend on the data only through the result of that constructor. Formulas depend only on the counts, so any labelling will do.
- **C103** Ordinal measures of finite random series (`Props/FiniteNoise.lean`, `Props/WhiteNoiseCmi.lean`, vocabulary of C94 and C96): the windows of the readings are observations of the patterns, dependent only within `(d−1)s` (entropy, mutual information) or `max(k,l)+d` rows (transfer entropy), so the bounds of C101 apply; white noise has uniform patterns (C96), so every deviation is one-sided and Markov's inequality turns the mean into a probability.
- **C104** Divergences of random samples (`Spec/AlmostSureDiv.lean`, `Props/AlmostSureDiv.lean`, `Props/AlmostSureDivOrd.lean`): relative frequencies converge almost surely (C94); a symbol of probability 0 is almost surely never observed, so the jump of the code's sum over the common support at `q = 0` is not met, elsewhere the sum is continuous in the frequencies; the Jensen–Shannon divergence is written with `x log x`, which is continuous everywhere. The equality cases follow from Gibbs' inequality. `Props/DivergenceMM.lean` has the Miller–Madow values (C83) and limits, `Props/DivergenceBayes.lean` the Bayesian values (C83), `Props/AlmostSureDivBayes.lean` their limits.

## Findings: where the code does something else than a user expects

Each is a theorem about the model (so a claim about the code as read), most with a concrete witness.

| finding | theorem |
|---|---|
| Three or more variables, one constant: discrete MI is 0 whatever the others do | `C13_constant_variable_violates`, `C13_total_correlation_iff` |
| The `uint64` product of marginal counts wraps for `N^n ≥ 2^64` | `C14_wrap_witness` |
| CMI of n ≥ 3 variables subtracts H(Z) once: off by (n−2)·H(Z) (discrete), by (m−2)·ψ(n) (KSG), by (m−2)·log h (kernel), not scale invariant (Rényi) | `C17_complete`, `C62_constant_condition`, `C60_three_variables_wrong`, `C65_cmi_renyi_scale` |
| With a base below 1 two-variable MI is clipped to 0 | `C11_small_base_clips_to_zero` |
| The documented number of embedded rows is wrong | `C20_documented_row_count_is_wrong` |
| Conditional TE rejects its own default `prop_time` | `C24_cte_default_prop_time_rejected` |
| Ordinal fast paths (d = 2, 3) differ from the general path on ties | `C28_ties_disagree` |
| Ordinal local values for d = 1 and for joint variables raise TypeError | `C28_local_dim1_type_error`, `C28_joint_local_type_error` |
| Explicit small symbol dtype wraps | `C26_explicit_small_type_wraps` |
| Bayes with a larger support does not normalise; `Min-Max` is case sensitive | `C33_bayes_larger_support_not_normalised`, `C33_min_max_case_sensitive` |
| Shrinkage local values do not average to the global value, so its MI is not its entropy combination | `C34_shrink_local_mean_fails`, `C34_shrink_mi_not_entropy_combination` |
| KLD can be negative (cross-entropy over the common support only); 2-D rows are re-coded separately in P and Q | `C36_kld_can_be_negative`, `C36_multivariate_rows_recoded_separately`, `C37_…` |
| `Config.set("base", …)` does not change later calls | `C39_default_base_ignores_config`, `C39_constructors_disagree` |
| An exception during a statistical test leaves permuted data or flags behind | `C41_mi_interruption_corrupts_object`, `C41_te_interruption_corrupts_object` |
| Tests of ordinal MI/CMI/CTE and of discrete CTE never randomise: p = 0, effective value 0 | `C44_…_test_is_vacuous` |
| `n_tests = 1` is accepted by the argument check and then always raises | `C42_single_test_always_raises` |
| Kernel: one sample → TypeError; cross-entropy drops zero-density points; MI can be negative; one evaluation point in parallel → ValueError; columns of multi-dimensional CMI variables are mixed up | `C47_short_data`, `C47_cross_disjoint_is_zero`, `C59_can_be_negative`, `C48_single_point_parallel_fails`, `C60_multidimensional_wrong` |
| `estimator(...)` drops `step_size` and four other parameters for entropy and MI; with a single variable it ignores the condition | `C58_factory_drops_step_size`, `C58_single_variable_ignores_condition` |
| KSG with `k ≥ n` silently returns a value that does not depend on the data; `k = 0` is an IndexError | `C51_k_too_large`, `C62_k_too_large`, `C63_te_k_too_large`, `C51_bad_parameters` |
| KSG type II with a constant variable or source is at most −2/k instead of 0 | `C62_constant_variable`, `C63_constant_source` |
| KL cross-entropy divides by the wrong sample size; `k = 1` is an IndexError; `k ≥ n` is not finite without an error | `C52_cross_affine`, `C52_cross_k_one`, `C52_k_too_large` |
| Bonachela MI with a constant variable is strictly positive; Grassberger MI of constants is negative | `C66_bonachela_constant_positive`, `C66_grassberger_negative` |
| NSB is not the published estimator: it never exceeds the log of the observed support, and is 0 on a constant sample where the published value is positive; constant samples and `K = N` give no value | `C67_differs_from_published`, `C67_bounds`, `C67_no_value`, `C67_support_equals_sample_size` |
| Ordinal JSD of a series with exactly one window is the maximum `log 2` even if all patterns agree (step > 1, or dimension 3); with ties the ordinal KLD of a series from itself can be negative | `C68_single_window_step`, `C68_single_window_dim3`, `C68_ties_negative` |
| Kernel JSD/KLD can be negative (unequal sizes or smoothing); kernel KLD without overlap is minus the entropy of the first sample | `C69_kernel_jsd_negative_sizes`, `C69_kernel_negative`, `C69_kernel_kld_disjoint` |
| Nearest-neighbour KLD of a sample with itself is not 0 (negative unless (k−1)-th and k-th neighbour distances agree); changes under rescaling when sizes differ; `k = 1` is an IndexError | `C69_metric_kld_self`, `C69_metric_kld_scaling`, `C69_metric_kld_errors` |
| `from_counts` does not merge repeated labels; zero counts give `nan` (plug-in, Miller–Madow, Chao–Shen); Grassberger and all local values raise TypeError from counts | `C70_labels_irrelevant`, `C70_zero_count_is_nan`, `C70_grassberger_needs_the_sample`, `C70_local_values_need_the_sample` |
| Gaussian kernel: a constant variable or joint variances below the absolute cut-off 1e-10 raise ValueError; `MI(X;X) = H(X) − ½ log 2`; MI of collinear variables depends on their units; small-bandwidth MI exceeds the normal MI by `(m−1) log n`; the JSD of two samples is not bounded by `log 2` | `C71_constant_error`, `C71_mi_constant_error`, `C71_small_units_error`, `C71_self_mi`, `C71_collinear_mi`, `C71_mi_small_bandwidth`, `C71_jsd_unbounded` |
| A tuple of conditions is accepted by the plug-in conditional transfer entropy but read as time points by Miller–Madow (ValueError, or silently transposed when square) | `C75_mm_tuple_rejected`, `C75_mm_tuple_transposed` |
| Tsallis with order ≠ 1 ignores the base and so jumps at order 1; Rényi estimates are not monotone in the order | `C64_tsallis_limit`, `C09_tsallis_ignores_base`, `C64_not_decreasing_in_order` |
| ANSB exceeds the logarithm of the alphabet size whenever `N ≥ 2K` and diverges with `N` on a fixed alphabet | `C77_ansb_exceeds`, `C77_ansb_diverges` |
| A discrete entropy without data is an IndexError, not the documented ValueError | `C08_no_argument` |
| The reported p-value `#{v > observed}/n` rejects too often under exchangeability (level `(j+1)/(n+1)` instead of `j/n`); ties with the observed value give p = 0 | `C78_level`, `C78_ties_are_significant` |
| `normalize` is a TypeError for plug-in, Miller–Madow and ordinal mutual information but accepted by the bias-corrected ones; Rényi and Tsallis mutual information accept and ignore `step_size`; the Kozachenko–Leonenko entropy takes no `seed` although it adds random noise; a missing `alpha`, `bandwidth` or `embedding_dim` is a TypeError | `C81_type_error`, `C81_ignored` (with examples) |
| The KSG conditional mutual information adds one noise array per sample to its condition: the standard deviation of that noise is `√n · noise_level` for `n` samples | `C85_cmi`, `C85_noise_variance` |
| The statistical tests of ordinal mutual information and ordinal conditional mutual information never look at the resampled data (the patterns are computed by the constructor), and no conditional transfer entropy is randomised: all test values equal the observed value and p = 0, whatever the data | `C87_ordinal`, `C87_cte` |
| The effective value of every conditional transfer entropy is 0 (nothing is randomised) | `C88_cte` |
| Shrinkage: `im.mutual_information(x, x)` differs from `im.entropy(x)` (on `0,0,0,0,0,0,0,1` by `log 5 / 24`), because the mutual information averages the logarithms of the shrunk probabilities over the sample instead of weighting them by the shrunk probabilities | `C91_shrink_exception` |
| The bias-corrected conditional mutual informations read a tuple of conditions as an array whose rows are the series (not its columns): ValueError, or, with as many series as samples, a silently transposed condition; the discrete class reads the same tuple as the joint condition | `C90_cmi_bias_tuple`, `C90_cmi_bias_tuple_square`, `C90_cmi` |
| `Config.set_log_level` with an unknown level name (or `None`) is an AttributeError, not the documented ValueError | `C98_unknown_name` |
| Three or more variables: one changed observation that makes one of them constant drops discrete MI from at least H(x) to 0, for any sample size | `C100_three_variables_jump` |
