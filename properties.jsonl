{"id": "C01", "title": "Continuous binning picks the right bin", "statement": "After fitting a BinNumberTransformer, transforming a finite value of a continuous feature returns the index of the first bin whose upper boundary is >= value - epsilon, and values beyond every boundary are put in the last bin; the result is always a valid bin number 0..n_bins-1.", "quantifier": "every sorted list of fitted bin boundaries with at least one bin, every finite feature value, every epsilon", "why_tests_cant": "Binary search bugs live at particular combinations of length, ties and boundary positions; only a proof covers all sorted arrays of all lengths.", "anchors": ["cyclic_boosting/binning/_binary_search.py:ge", "cyclic_boosting/binning/_binary_search.py:ge_multi", "cyclic_boosting/binning/bin_number_transformer.py:BinNumberTransformer._transform_one_feature"]}
{"id": "C02", "title": "Continuous binning is monotone", "statement": "For a continuous feature, if value a <= value b then the bin number of a is <= the bin number of b.", "quantifier": "every fitted boundary list and every pair of finite values", "why_tests_cant": "A statement about all pairs of reals and all boundary arrays.", "anchors": ["cyclic_boosting/binning/bin_number_transformer.py:BinNumberTransformer._transform_one_feature", "cyclic_boosting/binning/_binary_search.py:ge"]}
{"id": "C03", "title": "Discrete binning enumerates seen values and rejects unseen ones", "statement": "For a non-continuous feature, the transform maps a value to the rank of the fitted value it equals within epsilon; a value that differs by more than epsilon from every fitted value is mapped to the missing bin number -1, including when it is below all fitted values.", "quantifier": "every strictly sorted list of fitted values whose spacing exceeds two epsilon, every finite value", "why_tests_cant": "The search can return index -1, which wraps around to the last element; whether that ever produces a false match depends on all arrays and values.", "anchors": ["cyclic_boosting/binning/_binary_search.py:eq_multi", "cyclic_boosting/binning/_binary_search.py:le", "cyclic_boosting/binning/_binary_search.py:check_equal", "cyclic_boosting/binning/bin_number_transformer.py:BinNumberTransformer._transform_one_feature"]}
{"id": "C04", "title": "Missing values always become -1 and nothing else escapes the bin range", "statement": "BinNumberTransformer.transform maps NaN and infinities (and -9/-999 when the column is flagged HAS_MAGIC_INT_MISSING) to -1, maps every value of a column without fitted bins to -1, and every output is -1 or a valid bin number.", "quantifier": "every feature value including NaN and infinities, every flag setting, every fitted column state", "why_tests_cant": "Combinations of special values, flags and boundary arrays are unbounded.", "anchors": ["cyclic_boosting/binning/bin_number_transformer.py:BinNumberTransformer._transform_one_feature", "cyclic_boosting/binning/bin_number_transformer.py:MISSING_VALUE_AS_BINNO"]}
{"id": "C05", "title": "Bin reduction keeps at most n_bins bins", "statement": "Fitting a continuous column with n_bins >= 2 yields at most n_bins bins; the boundary list starts at the smallest value, is nondecreasing and every boundary is an observed value; n_bins < 2 is rejected with ValueError.", "quantifier": "every column (any number of distinct values), every positive weight distribution, every n_bins, tolerance in [0,1) and epsilon >= 0", "why_tests_cant": "The loop carries floating cdf state with a modulo; which branch ends it depends on the whole weight distribution.", "anchors": ["cyclic_boosting/binning/ecdf_transformer.py:reduce_cdf_and_boundaries_to_nbins", "cyclic_boosting/binning/_binary_search.py:ge_lim"]}
{"id": "C06", "title": "Every bin carries its minimum share of the weight", "statement": "In the reduced binning of a continuous column each bin except possibly the last holds at least (1 - tolerance)/n_bins - epsilon of the total weight (the documented tolerance).", "quantifier": "every column with positive weights, every n_bins >= 2, tolerance in [0,1), epsilon >= 0", "why_tests_cant": "The minimum weight is an invariant over all loop iterations for arbitrary distributions.", "anchors": ["cyclic_boosting/binning/ecdf_transformer.py:reduce_cdf_and_boundaries_to_nbins"]}
{"id": "C07", "title": "The reduced binning covers the whole sample", "statement": "The last cdf value stored for a continuous column is 1 and the last boundary is the largest observed value, so that every training value falls inside the boundaries.", "quantifier": "every empirical cdf, every n_bins >= 2, tolerance in [0,1), and every epsilon with n_bins * epsilon < (1 - tolerance)/n_bins such that the largest value carries more than n_bins * epsilon of the weight (automatic for epsilon = 0)", "why_tests_cant": "Depends on accumulated remainders for arbitrary weights.", "anchors": ["cyclic_boosting/binning/ecdf_transformer.py:reduce_cdf_and_boundaries_to_nbins"]}
{"id": "C08", "title": "ECDF transform is monotone, bounded and exact at the boundaries", "statement": "ECdfTransformer.transform maps finite values to values between 0 and 1 (out of range values to the extremes), is nondecreasing in the value, and returns the stored cdf exactly at a stored boundary.", "quantifier": "every strictly increasing boundary list with nondecreasing cdf values, every value", "why_tests_cant": "Statement over all pairs of reals and all arrays.", "anchors": ["cyclic_boosting/binning/_binary_search.py:le_interp", "cyclic_boosting/binning/ecdf_transformer.py:ECdfTransformer.transform"]}
{"id": "C09", "title": "Weighted empirical CDF", "statement": "calculate_cdf_from_weighted_data returns the sorted unique values together with, for each of them, the fraction of the total weight carried by samples not larger than it.", "quantifier": "every list of values (NaN allowed) and non-negative weights with positive sum", "why_tests_cant": "Alignment between two result arrays must hold for every pattern of duplicates and zero weights.", "anchors": ["cyclic_boosting/binning/ecdf_transformer.py:calculate_cdf_from_weighted_data"]}
{"id": "C10", "title": "Bin numbers survive the narrowing to small integer types", "statement": "The integer type chosen for the transformed column can represent every bin number exactly, so narrowing never changes a value.", "quantifier": "every list of integers representable in 64 bits", "why_tests_cant": "Overflow boundaries for all values and all mixes of signs.", "anchors": ["cyclic_boosting/binning/bin_number_transformer.py:_as_int_array_of_minimum_dtype"]}
{"id": "C11", "title": "Multi-dimensional bins are numbered bijectively in lexicographic order", "statement": "For a feature group with n_bins per dimension, two valid rows get the same combined bin number only if they agree in every dimension; numbers are exactly 0..prod(n_bins)-1 and ordered lexicographically.", "quantifier": "every number of dimensions, every n_bins vector, every pair of rows", "why_tests_cant": "Mixed-radix arithmetic over unboundedly many dimensions.", "anchors": ["cyclic_boosting/utils.py:multidim_binnos_to_lexicographic_binnos", "cyclic_boosting/utils.py:bin_steps"]}
{"id": "C12", "title": "Bin centers enumerate all bins in combined-number order", "statement": "Row i of arange_multi(n_bins) is the bin tuple whose combined bin number is i, so factors estimated per combined bin and the coordinates handed to the smoother describe the same bin.", "quantifier": "every n_bins vector and every row index", "why_tests_cant": "Relates two independent algorithms for every shape.", "anchors": ["cyclic_boosting/utils.py:arange_multi", "cyclic_boosting/utils.py:bin_steps", "cyclic_boosting/features.py:Feature.bin_centers"]}
{"id": "C13", "title": "Rows with a missing or out-of-range component use the dedicated missing bin", "statement": "A row with a missing, negative, non-finite or out-of-range component is assigned the extra bin number prod(n_bins), never the number of a finite bin.", "quantifier": "every data set (any mix of valid and invalid rows) and every n_bins vector", "why_tests_cant": "Depends on the whole data set, not on one row.", "anchors": ["cyclic_boosting/utils.py:multidim_binnos_to_lexicographic_binnos", "cyclic_boosting/features.py:Feature.bind_data"]}
{"id": "C14", "title": "Feature-property consistency check accepts exactly the documented combinations", "statement": "check_flags_consistency accepts a feature property exactly when exactly one of the bits IS_CONTINUOUS, IS_ORDERED and IS_UNORDERED is set and INCREASING and DECREASING are not both set; IS_MONOTONIC implies IS_CONTINUOUS, MISSING_NOT_LEARNED and HAS_MAGIC_INT_MISSING imply HAS_MISSING.", "quantifier": "every integer flag value", "why_tests_cant": "All bit patterns, including bits outside the documented ones.", "anchors": ["cyclic_boosting/flags.py:check_flags_consistency", "cyclic_boosting/flags.py:is_continuous_set"]}
{"id": "C15", "title": "Every consistent feature property can be printed", "statement": "flags_to_string gives a text for every feature property accepted by check_flags_consistency.", "quantifier": "every accepted flag combination", "why_tests_cant": "Finite in principle but the accepted set is not enumerated by any test.", "anchors": ["cyclic_boosting/flags.py:flags_to_string", "cyclic_boosting/flags.py:_convert_flags_to_string"]}
{"id": "C16", "title": "Link functions are inverse pairs and predictions stay in the target domain", "statement": "For log, logit and identity link: unlink(link(p)) = p for every admissible p, link(unlink(x)) = x for every x, both are strictly increasing, and predictions are positive (log link) respectively strictly between 0 and 1 (logit link) whatever the factors are.", "quantifier": "every real number in the domain", "why_tests_cant": "Continuum of inputs.", "anchors": ["cyclic_boosting/link.py:LogLinkMixin", "cyclic_boosting/link.py:LogitLinkMixin", "cyclic_boosting/link.py:IdentityLinkMixin"]}
{"id": "C17", "title": "Learning-rate schedules stay in [0,1], never decrease and end at full rate", "statement": "The linear, half-linear and constant schedules are nondecreasing in the iteration, lie in (0,1] and equal 1 in the last iteration (half-linear from half way on); the logistic schedule is increasing, lies in (0,1) and ends at 0.999999999.", "quantifier": "every maximal number of iterations >= 1 and every iteration 1..max", "why_tests_cant": "All pairs (iteration, maximal iterations).", "anchors": ["cyclic_boosting/learning_rate.py:linear_learn_rate", "cyclic_boosting/learning_rate.py:half_linear_learn_rate", "cyclic_boosting/learning_rate.py:logistic_learn_rate", "cyclic_boosting/learning_rate.py:constant_learn_rate_one"]}
{"id": "C18", "title": "Training bookkeeping: in-sample prediction equals prior plus the sum of the stored factors", "statement": "In aggregate mode, after any number of training iterations, the running in-sample prediction in link space equals the prior prediction plus, for each feature, the stored aggregated factor of the sample's bin - including after iterations that were rolled back because the loss diverged.", "quantifier": "every feature list, data set, sequence of factor estimates returned by the model, clipping decision, loss history and number of iterations", "why_tests_cant": "An invariant over all histories of updates and rollbacks.", "anchors": ["cyclic_boosting/base.py:CyclicBoostingBase._fit_main", "cyclic_boosting/base.py:CyclicBoostingBase.feature_iteration", "cyclic_boosting/base.py:CyclicBoostingBase.visit_factors", "cyclic_boosting/base.py:CyclicBoostingBase.remove_preds"]}
{"id": "C19", "title": "Fitted model reproduces the in-sample prediction", "statement": "Calling predict on the training data after a successful fit in aggregate mode returns exactly the in-sample prediction that fit computed in its last iteration, provided single-column features hold integers or missing values (prediction rounds such columns to the nearest integer, training truncates them).", "quantifier": "every data set, feature list and training history that ends without ConvergenceError", "why_tests_cant": "Connects two code paths (incremental training bookkeeping and prediction from stored bins) over all histories.", "anchors": ["cyclic_boosting/base.py:CyclicBoostingBase._fit_main", "cyclic_boosting/base.py:CyclicBoostingBase.predict_extended", "cyclic_boosting/base.py:_predict_factors", "cyclic_boosting/features.py:Feature.prepare_feature"]}
{"id": "C20", "title": "Non-aggregate mode keeps the same bookkeeping under divergence", "statement": "With aggregate=False the running in-sample prediction equals the prior plus the sum of the stored factors after any iteration, including rolled back ones.", "quantifier": "every training history including divergent iterations", "why_tests_cant": "Needs a history with a divergence event to expose.", "anchors": ["cyclic_boosting/base.py:CyclicBoostingBase.feature_iteration", "cyclic_boosting/base.py:CyclicBoostingBase.remove_preds"]}
{"id": "C21", "title": "Training terminates within a bounded number of iterations", "statement": "fit performs at most max(maximal_iterations, number of hierarchical iterations + 1) plus four further iterations, then either returns or raises ConvergenceError; ConvergenceError is raised exactly when the loss exceeded twice the initial loss in five checks.", "quantifier": "every loss history, every factor-change history and every parameter setting", "why_tests_cant": "All infinite families of loss sequences; tests only sample converging runs.", "anchors": ["cyclic_boosting/base.py:CyclicBoostingBase._fit_main", "cyclic_boosting/base.py:CyclicBoostingBase._check_stop_criteria", "cyclic_boosting/base.py:CyclicBoostingBase._check_convergence"]}
{"id": "C22", "title": "Hierarchical phase trains only the hierarchical features and is never cut short", "statement": "When hierarchical_feature_groups is given, no feature outside it changes its factors during the first training_iterations_hierarchical_features iterations, and training does not stop before one further iteration with all features has run.", "quantifier": "every history of factor estimates and losses", "why_tests_cant": "Invariant over histories.", "anchors": ["cyclic_boosting/base.py:CyclicBoostingBase._fit_main", "cyclic_boosting/base.py:CyclicBoostingBase._check_stop_criteria"]}
{"id": "C23", "title": "Multiplicative factors stay within the documented bounds", "statement": "In log-link aggregate mode each iteration changes a factor by at most a factor 2 either way and the accumulated factor of an already fitted feature stays within the per-feature limits (e.g. 0.01..1000 for one-dimensional features), as long as training is not diverging.", "quantifier": "every sequence of factor estimates and every number of iterations", "why_tests_cant": "Invariant over histories of clipped updates.", "anchors": ["cyclic_boosting/base.py:CyclicBoostingBase.visit_factors", "cyclic_boosting/base.py:CyclicBoostingBase._set_factors_per_feature"]}
{"id": "C24", "title": "Predictions decompose into per-feature contributions", "statement": "link(predict(X)) equals the prior prediction in link space plus the sum over features of link(get_feature_contributions(X)[feature]); for the multiplicative mode the prediction is the global scale times the product of the contributions. This requires that the names of the features (their columns joined by blanks, the keys of the returned dictionary) are distinct.", "quantifier": "every fitted model and every input row, including missing and unseen values", "why_tests_cant": "Explainability identity over all models and inputs.", "anchors": ["cyclic_boosting/base.py:CyclicBoostingBase.get_feature_contributions", "cyclic_boosting/base.py:CyclicBoostingBase.predict_extended"]}
{"id": "C25", "title": "Missing and unseen bins at prediction time", "statement": "At prediction a missing (negative or non-finite) bin number contributes the factor learned for missing values, which is neutral if MISSING_NOT_LEARNED is set and training did not diverge; a bin number larger than any seen in training, or a combination of bins outside the training ranges, contributes the neutral factor.", "quantifier": "every fitted feature and every bin number", "why_tests_cant": "All special values in combination with all models.", "anchors": ["cyclic_boosting/base.py:_predict_factors", "cyclic_boosting/features.py:Feature.update_factors", "cyclic_boosting/smoothing/onedim.py:PredictingBinValueMixin.predict"]}
{"id": "C26", "title": "Influence categories partition the prediction", "statement": "When influence_categories assigns each feature a category, the category columns of predict_extended sum, together with the prior, to the full prediction in link space, if no category is called 'factors'; a missing assignment raises KeyError.", "quantifier": "every assignment and every sequence of feature contributions", "why_tests_cant": "All assignments and orders of features.", "anchors": ["cyclic_boosting/base.py:UpdateMixin", "cyclic_boosting/base.py:get_influence_category"]}
{"id": "C27", "title": "Removing a contribution undoes adding it", "statement": "UpdateMixin.remove_predictions is the exact inverse of update_predictions for factors, exponents and influence categories.", "quantifier": "every state and every contribution", "why_tests_cant": "States in which the category column is absent are not covered by tests.", "anchors": ["cyclic_boosting/base.py:UpdateMixin.remove_factor_contrib", "cyclic_boosting/base.py:UpdateMixin.include_factor_contrib"]}
{"id": "C28", "title": "Feature importances are a probability distribution", "statement": "get_feature_importances returns non-negative numbers which sum to 1 whenever the total deviation from neutral is not negligible, one entry per feature, after one fit of features whose names joined by '_' are distinct (otherwise, or after a refit of the same object, the entries need not sum to 1).", "quantifier": "every fitted model, every set of feature names", "why_tests_cant": "Names are joined with '_' and may collide; all name sets must be considered.", "anchors": ["cyclic_boosting/base.py:CyclicBoostingBase.get_feature_importances", "cyclic_boosting/utils.py:get_normalized_values"]}
{"id": "C29", "title": "Empty training data is rejected", "statement": "fit raises ValueError if X or y is empty.", "quantifier": "every pair of lengths", "why_tests_cant": "Operator precedence makes the check depend on both lengths.", "anchors": ["cyclic_boosting/base.py:CyclicBoostingBase._check_len_data"]}
{"id": "C30", "title": "Bin estimate is the penalised least-squares optimum", "statement": "calc_factors_generic returns, for each bin, the unique minimiser of sum w_i (x_i - x)^2 + w0 (x - x0)^2 over the samples of that bin; an empty bin gets exactly the prior mean x0 and the estimate always lies between the smallest and the largest of x0 and the x_i.", "quantifier": "every assignment of samples to bins, non-negative weights, positive prior precision", "why_tests_cant": "Optimality against all alternatives.", "anchors": ["cyclic_boosting/base.py:calc_factors_generic"]}
{"id": "C31", "title": "Poisson regression is the special case of negative binomial regression", "statement": "CBNBinomRegressor with a=1, c=0 computes the same factor estimates as CBPoissonRegressor on the same data, and the posterior parameters are positive for every non-negative target.", "quantifier": "every data set", "why_tests_cant": "Equality of two code paths for all inputs.", "anchors": ["cyclic_boosting/regression.py:CBNBinomRegressor.calc_parameters", "cyclic_boosting/regression.py:CBPoissonRegressor.calc_parameters"]}
{"id": "C32", "title": "Weighted linear regression solves the normal equations", "statement": "linear_regression(x, y, w) returns the intercept and slope that minimise the weighted squared error whenever at least two distinct x values carry positive weight.", "quantifier": "every data set with positive weights and non-constant x", "why_tests_cant": "Optimality against all lines.", "anchors": ["cyclic_boosting/utils.py:linear_regression", "cyclic_boosting/smoothing/extrapolate.py:LinearExtrapolator"]}
{"id": "C33", "title": "Regularisation towards the mean only shrinks", "statement": "regularize_to_error_weighted_mean returns for each bin a value between the measured value and the error-weighted mean (or prior prediction); identical inputs and single values are unchanged; the order of values with equal uncertainty is preserved.", "quantifier": "every list of values and positive uncertainties", "why_tests_cant": "Convexity statement for all arrays.", "anchors": ["cyclic_boosting/utils.py:regularize_to_error_weighted_mean", "cyclic_boosting/smoothing/onedim.py:WeightedMeanSmoother"]}
{"id": "C34", "title": "Regularisation towards a prior expectation", "statement": "regularize_to_prior_expectation returns exactly the prior for values within threshold sigmas of it, and otherwise a value between the prior and the measured value (strictly between for a positive threshold), monotone in the measured value.", "quantifier": "every value, prior, positive uncertainty and non-negative threshold", "why_tests_cant": "Square-root expression over the reals.", "anchors": ["cyclic_boosting/utils.py:regularize_to_prior_expectation"]}
{"id": "C35", "title": "Classification outputs are probabilities", "statement": "CBClassifier.predict_proba returns two non-negative columns summing to 1, predict returns 1 exactly when the second column exceeds 0.5, and the quantile levels used for matching stay strictly inside (0,1) for every posterior.", "quantifier": "every link-space prediction and every pair of positive posterior parameters", "why_tests_cant": "Continuum of inputs.", "anchors": ["cyclic_boosting/classification.py:CBClassifier.predict_proba", "cyclic_boosting/classification.py:CBClassifier.predict", "cyclic_boosting/classification.py:CBClassifier._get_percentiles_from_distribution_parameters"]}
{"id": "C36", "title": "Quantile loss is minimised by the weighted quantile", "statement": "The quantile loss is non-negative, zero for perfect predictions, convex in a constant prediction, and no constant prediction has a smaller loss than a weighted quantile of the targets.", "quantifier": "every sample with non-negative weights, every quantile level in [0,1], every constant prediction", "why_tests_cant": "Optimality against all constants.", "anchors": ["cyclic_boosting/generic_loss.py:quantile_costs", "cyclic_boosting/utils.py:_weighted_quantile_of_dataframe"]}
{"id": "C37", "title": "Generic-loss mode optimises each bin on exactly its own samples", "statement": "In the generic-loss estimators the per-bin optimisation for bin b receives exactly the samples with bin number b in a consistent order of target, prediction and weight, and bins without samples receive empty data.", "quantifier": "every assignment of samples to bins", "why_tests_cant": "Sorting, splitting and re-inserting empty bins interact for all gap patterns.", "anchors": ["cyclic_boosting/generic_loss.py:CBGenericLoss.calc_parameters"]}
{"id": "C38", "title": "J-QPD-S distributions honour the given quantile triplet", "statement": "J_QPD_S.ppf at alpha, 0.5 and 1-alpha returns qv_low, qv_median and qv_high, ppf is strictly increasing and bounded below by l, and cdf(ppf(p)) = p.", "quantifier": "every lower bound, every increasing triplet, every alpha in (0,0.5)", "why_tests_cant": "Continuum of parameters; special parameter values divide by zero.", "anchors": ["cyclic_boosting/quantile_matching.py:J_QPD_S"]}
{"id": "C39", "title": "J-QPD-B distributions honour the given quantile triplet", "statement": "J_QPD_B.ppf at alpha, 0.5 and 1-alpha returns the given triplet, values stay strictly between the bounds l and u, ppf is increasing and cdf(ppf(p)) = p.", "quantifier": "every bound pair, every increasing triplet inside the bounds, every alpha in (0,0.5)", "why_tests_cant": "Continuum of parameters; special parameter values divide by zero.", "anchors": ["cyclic_boosting/quantile_matching.py:J_QPD_B"]}
{"id": "C40", "title": "Extended J-QPD distributions honour the given quantile triplet", "statement": "J_QPD_extended_U/S/B.ppf at alpha, 0.5 and 1-alpha returns the given triplet, including symmetric triplets.", "quantifier": "every increasing triplet, every supported version", "why_tests_cant": "Symmetric triplets are a measure-zero case that random tests never hit.", "anchors": ["cyclic_boosting/quantile_matching.py:unconstrained_calc", "cyclic_boosting/quantile_matching.py:J_QPD_extended_U"]}
{"id": "C41", "title": "Quantile regressor chain never crosses quantiles", "statement": "QPD_RegressorChain.predict returns l < lower quantile < median < upper quantile (< u) for every row, whatever the three underlying estimators return.", "quantifier": "every triple of real estimator outputs and every bounds setting", "why_tests_cant": "Underlying models are arbitrary; tests fix one model.", "anchors": ["cyclic_boosting/quantile_matching.py:QPD_RegressorChain.predict"]}
{"id": "C42", "title": "Quantile regressor chain: training target and prediction are consistent", "statement": "If the underlying estimators reproduce the transformed training targets exactly, the chain's predicted lower and upper values reproduce the original targets.", "quantifier": "every row and bound setting", "why_tests_cant": "Relates fit-time and predict-time transformations for all values.", "anchors": ["cyclic_boosting/quantile_matching.py:QPD_RegressorChain.fit", "cyclic_boosting/quantile_matching.py:QPD_RegressorChain.predict"]}
{"id": "C43", "title": "Bounded and semi-bounded transformations are inverse pairs", "statement": "back_transform undoes transform for every value strictly inside the bounds and always lands strictly inside the bounds.", "quantifier": "every bounds pair and every value", "why_tests_cant": "Continuum of inputs.", "anchors": ["cyclic_boosting/quantile_matching.py:transform_from_bounds", "cyclic_boosting/quantile_matching.py:back_transform_in_bounds", "cyclic_boosting/quantile_matching.py:transform_from_semibound_lower"]}
{"id": "C44", "title": "Newton-bisection stays inside its bracket", "statement": "newton_bisect returns for each bin with samples a root estimate inside the initial bracket, 1.0 for bins without samples, and a positive inverse Hessian, regardless of the loss function.", "quantifier": "every gradient/Hessian oracle, every bracket and every iteration count", "why_tests_cant": "Invariant over iterations with arbitrary oracle answers.", "anchors": ["cyclic_boosting/price.py:newton_bisect"]}
{"id": "C45", "title": "Negative-binomial dispersion search never worsens the loss", "statement": "In each feature update of the dispersion model the candidate offsets include 0 and the chosen offset has minimal binned loss among the candidates; the Bayesian average lies between the smallest and the largest candidate.", "quantifier": "every iteration number, step count, range and loss table", "why_tests_cant": "All loss tables.", "anchors": ["cyclic_boosting/nbinom.py:get_new_c_link_for_iteration", "cyclic_boosting/nbinom.py:bayes_result", "cyclic_boosting/nbinom.py:calc_parameters_nbinom_c"]}
{"id": "C46", "title": "Ridge estimate of the GBS mode", "statement": "The background-subtraction regressor's bin estimate is the ridge-regression minimiser, shrunk towards 0, and its variance estimate is non-negative so that the uncertainty is well defined.", "quantifier": "every bin content", "why_tests_cant": "Algebraic identity for all sums.", "anchors": ["cyclic_boosting/GBSregression.py:CBGBSRegressor.calc_parameters"]}
{"id": "C47", "title": "Interaction candidates are complete and duplicate free", "statement": "create_interactions returns exactly the combinations of 2..max_dim distinct features, each once, in feature order.", "quantifier": "every feature list and every max dimension", "why_tests_cant": "Unbounded combinatorics.", "anchors": ["cyclic_boosting/interaction_selection.py:create_interactions"]}
{"id": "C48", "title": "Pipelines forward every accepted argument", "statement": "pipeline_CB and the pipeline_* helpers hand every argument the user passes to the estimator or binner they build.", "quantifier": "every estimator kind and every argument", "why_tests_cant": "Dropped arguments silently change results; tests use defaults.", "anchors": ["cyclic_boosting/pipelines.py:pipeline_CB"]}
{"id": "C49", "title": "Interpolating/extrapolating meta smoothers only replace what they promise", "statement": "A regression-type meta smoother returns the sub-smoother's prediction inside the trained range and the documented fallback (missing value) for bins not seen in training / outside the range.", "quantifier": "every sub-smoother and every input", "why_tests_cant": "Arbitrary sub-smoothers.", "anchors": ["cyclic_boosting/smoothing/meta_smoother.py:RegressionTypeSmoother.apply_cut", "cyclic_boosting/utils.py:not_seen_events"]}
{"id": "C50", "title": "Normalisation meta smoother is shift equivariant", "statement": "NormalizationSmoother subtracts the weighted mean before fitting and adds it back: adding a constant to all bin values adds the same constant to the prediction, and an interpolating sub-smoother reproduces the bin values exactly.", "quantifier": "every sub-smoother, every bin values and weights with positive sum", "why_tests_cant": "Arbitrary sub-smoothers.", "anchors": ["cyclic_boosting/smoothing/meta_smoother.py:NormalizationSmoother"]}
{"id": "C51", "title": "Bin-value smoothers look up exactly the bin", "statement": "The one- and multi-dimensional bin value smoothers return, for a valid bin (tuple), the value of that bin passed to fit and NaN for any invalid bin; storing and reloading a one-dimensional smoother does not change its predictions.", "quantifier": "every bin value array and every query", "why_tests_cant": "All sizes and queries.", "anchors": ["cyclic_boosting/smoothing/onedim.py:BinValuesSmoother", "cyclic_boosting/smoothing/multidim.py:PredictingBinValueMixin.predict"]}
{"id": "C52", "title": "Neutralisation removes one-dimensional projections", "statement": "neutralize_one_dim_influence returns a table whose uncertainty-weighted column sums are zero, and leaves the mixed differences of the table unchanged.", "quantifier": "every table size, all values and positive weights", "why_tests_cant": "All sizes and the internal iteration count.", "anchors": ["cyclic_boosting/utils.py:neutralize_one_dim_influence"]}
{"id": "C53", "title": "Smoother selection is total and follows the documented precedence", "statement": "For every feature property that passes the consistency check, and for columns without a property, the smoother choice returns a smoother (never fails) that follows the documented precedence of the flags, and explicitly given smoothers override the defaults; the regression type of a group is the most restrictive one of its columns.", "quantifier": "every feature property, dimension and explicit mapping", "why_tests_cant": "All flag patterns and mappings.", "anchors": ["cyclic_boosting/common_smoothers.py:_simplify_flags", "cyclic_boosting/common_smoothers.py:SmootherChoice.choice_fct"]}
{"id": "C54", "title": "Location regressors calibrate to the weighted mean", "statement": "After every iteration of every training, the stored additive parameters of each feature of the location regressor have weighted mean zero over the training sample; its variance estimates per bin are positive; the Poisson location regressor never predicts a negative value and its summands are shrunk towards zero.", "quantifier": "every data set with positive total weight", "why_tests_cant": "Algebra over all arrays.", "anchors": ["cyclic_boosting/location.py:CBLocationRegressor.calibrate_to_weighted_mean", "cyclic_boosting/location.py:CBLocPoissonRegressor.predict"]}
{"id": "C55", "title": "Generic-loss parameters reproduce the optimised model", "statement": "In the generic-loss estimators, adding the stored parameter of a bin to the prediction of the other features in link space gives the value of the model that was optimised (parameter times prediction, or parameter plus prediction), and a bin without samples stays neutral.", "quantifier": "every optimum (at least 1e-5 in multiplicative mode) and every prediction of the other features", "why_tests_cant": "An identity over all real parameters and predictions, for each link function.", "anchors": ["cyclic_boosting/generic_loss.py:CBGenericLoss.calc_parameters", "cyclic_boosting/generic_loss.py:model_multiplicative", "cyclic_boosting/generic_loss.py:model_additive", "cyclic_boosting/generic_loss.py:CBGenericClassifier.model"]}
{"id": "C56", "title": "Continuous quantile stays next to the discrete quantile", "statement": "continuous_quantile_from_discrete_pdf, which sets the global scale of quantile regression, returns a value between the weighted quantile of the targets and one above it.", "quantifier": "every sample, weight and quantile level in [0,1]", "why_tests_cant": "Depends on the position of ties relative to the cumulated weights.", "anchors": ["cyclic_boosting/utils.py:continuous_quantile_from_discrete_pdf", "cyclic_boosting/generic_loss.py:CBQuantileRegressor.quantile_global_scale"]}
{"id": "C57", "title": "Empty bins are neutral in the Poisson and negative binomial regressors", "statement": "A bin without samples gets a factor that differs from the neutral factor by less than 6e-6 in link space, whatever the other data are.", "quantifier": "every data set, every bin without samples", "why_tests_cant": "The prior constants are rounded; the claim needs a proof about the gamma median.", "anchors": ["cyclic_boosting/regression.py:get_gamma_priors", "cyclic_boosting/regression.py:_calc_factors_and_uncertainties"]}
{"id": "C58", "title": "The sinh-logistic base distribution is a proper distribution for every shape", "statement": "SinhLogistic.ppf and .cdf are inverse to each other, ppf is strictly increasing and odd around 1/2, and pdf is the derivative of cdf, for every value of the shape parameter; BaseDist rescales it such that the 1-alpha quantile is 1.", "quantifier": "every shape (negative, zero, positive), every probability in (0,1), every value", "why_tests_cant": "The fitted shape parameter is an arbitrary real found by an optimiser; tests evaluate a few shapes.", "anchors": ["cyclic_boosting/quantile_matching.py:SinhLogistic", "cyclic_boosting/quantile_matching.py:BaseDist"]}
{"id": "C59", "title": "The exponent fit of the price model differentiates its documented objective", "statement": "The Jacobian and Hessian that newton_step computes per bin are the first and second derivative of the regularised squared-error objective documented in its comments, and the new parameter solves the linearised equation; the fit returns a value in [0,2048] and a positive variance for every data set.", "quantifier": "every data set, every bin, every positive parameter", "why_tests_cant": "The formulas come from a computer algebra system and were pasted; tests compare a few numbers.", "anchors": ["cyclic_boosting/price.py:newton_step", "cyclic_boosting/price.py:CBExponential._calc_parameters_exponent"]}
{"id": "C60", "title": "Price elasticity has the sign of the prior exponent", "statement": "In the price model a missing price ratio or a ratio of 1 gives the demand prediction alone; with a negative prior exponent (default -1) the prediction falls strictly as the price ratio rises, whatever the features have learned; and the model that the exponent fit optimises is the one used in prediction.", "quantifier": "every fitted model, every sample, every pair of price ratios", "why_tests_cant": "Monotonicity in price is a statement about all pairs of prices and all learned parameters.", "anchors": ["cyclic_boosting/price.py:CBLinkPredictions", "cyclic_boosting/price.py:CBExponential._init_external_column", "cyclic_boosting/price.py:CBExponential.predict_extended"]}
{"id": "C61", "title": "Standard and external features of the price model are combined faithfully", "statement": "CBExponential accepts exactly the feature lists whose standard entries are of standard type and whose external entries are of external type, and then trains all of them in order, standard ones first; everything else raises ValueError.", "quantifier": "every pair of feature lists (names, tuples or feature ids)", "why_tests_cant": "All combinations of entry kinds in lists of any length.", "anchors": ["cyclic_boosting/price.py:combine_lists_of_feature_groups", "cyclic_boosting/features.py:create_feature_id"]}
{"id": "C62", "title": "Dispersion model stays neutral for bins without samples", "statement": "In the negative binomial dispersion model a bin without training samples (for example the bin for missing values) gets the neutral offset 0 in every update.", "quantifier": "every iteration number, step count, binning and data set without samples in the bin", "why_tests_cant": "Needs the minimum search over a constant loss table for all step counts.", "anchors": ["cyclic_boosting/nbinom.py:calc_parameters_nbinom_c", "cyclic_boosting/nbinom.py:bayes_result"]}
{"id": "C63", "title": "A section smoother uses exactly one sub-smoother per row", "statement": "SectionSmoother predicts each row at or below the split point by the lower sub-smoother, fitted with exactly the training rows at or below the split point, and each other row by the upper sub-smoother, fitted with exactly the others; a section without training rows predicts NaN, and fitting fails only for an empty table.", "quantifier": "every pair of sub-smoothers, split point, training table and query table", "why_tests_cant": "Arbitrary sub-smoothers and all table sizes.", "anchors": ["cyclic_boosting/smoothing/meta_smoother.py:SectionSmoother"]}
{"id": "C64", "title": "Training stops exactly when a stop criterion holds", "statement": "After every iteration with finite losses, training ends if and only if the loss is at most twice the initial loss, the hierarchical phase (if any) is over, and either the maximal number of iterations is reached, or the mean absolute difference of the current and the previous update of the factors is at most minimal_factor_change, or the relative change of the loss is at most minimal_loss_change. In aggregate mode the update is the amount by which the stored factors changed, so constant updates count as converged.", "quantifier": "every training history, estimator, smoother, loss, set of features and stop parameters", "why_tests_cant": "Unbounded training histories with arbitrary losses and estimates.", "anchors": ["cyclic_boosting/base.py:CyclicBoostingBase._check_stop_criteria", "cyclic_boosting/base.py:CyclicBoostingBase._fit_main", "cyclic_boosting/base.py:_factors_deviation", "cyclic_boosting/base.py:CyclicBoostingBase._update_loss"]}
{"id": "C65", "title": "Features that keep the training diverging are limited, then ignored", "statement": "While training is diverging, a feature whose ordinary update gives a loss at most twice the initial one gets this update; otherwise its update is brought within a factor 0.8 to 1.2 of the estimates during the first phase, and from the second diverging iteration on all its factors become neutral and its smoother is replaced. A feature that is neutral after such a replacement stays neutral in its finite bins until the end of training; a feature whose neutralisation is rolled back keeps its previous factors but is not learned any more.", "quantifier": "every training history in aggregate mode with log link, every loss, estimator and smoother", "why_tests_cant": "Needs all histories with several diverging iterations, including rolled back ones.", "anchors": ["cyclic_boosting/base.py:CyclicBoostingBase.visit_factors", "cyclic_boosting/base.py:ZeroSmoother"]}
{"id": "C66", "title": "One update: cyclic order, learning rate and clipping", "statement": "In an accepted iteration without divergence, the estimates of each feature are computed with the prediction that already contains the updates of the features before it in this iteration; its stored factors change by learning rate times smoothed estimate in the finite bins (nothing where the smoother gives no number) and by learning rate times estimate in the bin of missing values (nothing if missing values are not learned), clipped in models with log link. Without aggregation the estimates are computed without the feature's own previous contribution and the stored factors are replaced.", "quantifier": "every training history, feature list, estimator, smoother and learning rate", "why_tests_cant": "Holds for every feature position, bin and history.", "anchors": ["cyclic_boosting/base.py:CyclicBoostingBase.feature_iteration", "cyclic_boosting/base.py:CyclicBoostingBase.cb_features", "cyclic_boosting/base.py:_predict_factors", "cyclic_boosting/features.py:Feature.update_factors"]}
{"id": "C67", "title": "Negative binomial quantile matching uses the right mean and variance", "statement": "For every mean and every variance above it, the parameters n and p used for the fitted negative binomial distribution are valid and the distribution with these parameters has this mean and variance; for a variance at or below the mean the parameters are invalid.", "quantifier": "every mean and variance", "why_tests_cant": "Infinite series over all counts for a continuum of parameters.", "anchors": ["cyclic_boosting/quantile_matching.py:_nbinom_cdf_mu_var", "cyclic_boosting/quantile_matching.py:quantile_fit_nbinom"]}
{"id": "C68", "title": "The dispersion of the negative binomial model is what it says", "statement": "In the negative binomial dispersion model, the loss of a sample with count y, predicted mean mu and dispersion c is the negative log-likelihood of y in a negative binomial distribution with mean mu and variance mu + c*mu^2 (at least mu/(1-1e-8)), plus gamma*|c|; a log-likelihood that is not finite counts as -400. The dispersion is strictly between 0 and 1 for every value in link space.", "quantifier": "every mean, dispersion, count and value in link space", "why_tests_cant": "The parameters n and p are computed by formulas whose meaning is a statement about infinite series over all counts.", "anchors": ["cyclic_boosting/nbinom.py:loss_nbinom_c", "cyclic_boosting/nbinom.py:binned_loss_nbinom_c"]}
{"id": "C69", "title": "Gamma moment matching matches the moments", "statement": "The gamma distribution that the price model uses for the uncertainty of an exponent has the fitted exponent as mean and the fitted variance as variance; without a finite variance both parameters are zero.", "quantifier": "every positive factor and every variance", "why_tests_cant": "Integrals over a continuum for a continuum of parameters.", "anchors": ["cyclic_boosting/price.py:CBExponential._calc_parameters_exponent", "cyclic_boosting/price.py:gamma_momemt_matching"]}
{"id": "C70", "title": "The default smoother of continuous features is a weighted least-squares polynomial", "statement": "Between the smallest and the largest bin number of the fit, OrthogonalPolynomialSmoother predicts a polynomial that minimises the sum of squared residuals divided by the squared uncertainties among all polynomials with the same number of coefficients; the minimiser is unique, so values that lie on such a polynomial are reproduced exactly.", "quantifier": "every number of bins, bin numbers, bin values and non-zero uncertainties", "why_tests_cant": "Optimality among all polynomials is a statement about a continuum; the code computes the fit by a recursion of orthogonal polynomials.", "anchors": ["cyclic_boosting/smoothing/orthofit.py:cy_orthogonal_poly_fit_equidistant", "cyclic_boosting/smoothing/orthofit.py:fit_orthogonal_poly_", "cyclic_boosting/smoothing/onedim.py:OrthogonalPolynomialSmoother"]}
{"id": "C71", "title": "The degree of the default smoother is the first sufficient one", "statement": "The number of coefficients of the orthogonal polynomial fit is that of the first degree from 2 on whose best chi-squared is below the number of degrees of freedom or at which four signs of insignificance have been found; it is between 1 and 21 and below the number of bins (never an interpolation) if there are at least two bins.", "quantifier": "every number of bins, bin numbers, bin values and non-zero uncertainties", "why_tests_cant": "The selection depends on the residuals of all lower degrees for arbitrary data.", "anchors": ["cyclic_boosting/smoothing/orthofit.py:significant_parameters_", "cyclic_boosting/smoothing/orthofit.py:reduce_to_signifcant_parameters"]}
{"id": "C72", "title": "The default smoother of continuous features extrapolates constantly and follows shifts", "statement": "OrthogonalPolynomialSmoother can be fitted for every positive number of bins, predicts outside the fitted range the value at the nearest fitted bin, and adding a constant to all bin values adds it to every prediction without changing the degree.", "quantifier": "every fit and every query", "why_tests_cant": "Holds for all real bin numbers and values.", "anchors": ["cyclic_boosting/smoothing/onedim.py:OrthogonalPolynomialSmoother", "cyclic_boosting/smoothing/orthofit.py:cy_orthogonal_poly_fit_equidistant"]}
{"id": "C73", "title": "Monotonic features with a direction get monotone factors and predictions", "statement": "If a single column carries IS_MONOTONIC together with the INCREASING or DECREASING flag and its smoother is chosen by the library, then after every iteration of every training without divergence (regular training with aggregated factors, non-negative learning rates) the factors of its bins are in the requested order, and raising the value of the column from one bin to another moves the prediction in the requested direction.", "quantifier": "every data set, number of bins, history of training iterations, property of the remaining features and query", "why_tests_cant": "Monotonicity is a statement about all pairs of bins after all iterations; clipping, normalisation and aggregation could each break it.", "anchors": ["cyclic_boosting/smoothing/onedim.py:IsotonicRegressor", "cyclic_boosting/common_smoothers.py:SmootherChoice", "cyclic_boosting/features.py:Feature", "cyclic_boosting/base.py:CyclicBoostingBase"]}
{"id": "C74", "title": "Bins without training weight stay neutral for categorical features", "statement": "If a feature group contains a column that is neither continuous nor linear nor seasonal and its smoother is chosen by the library with regression types (the default; not the group-by smoother of several columns), then the factor of every bin whose training samples have no weight is exactly neutral after every iteration of every training without divergence, whatever the inner smoother does; a query in such a bin gets no contribution from the feature.", "quantifier": "every data set, weights, inner smoother, history of training iterations and query", "why_tests_cant": "The set of empty bins of multi-dimensional features depends on the data; smoothers fill empty bins with non-neutral values.", "anchors": ["cyclic_boosting/smoothing/meta_smoother.py:RegressionTypeSmoother", "cyclic_boosting/common_smoothers.py:determine_reg_type", "cyclic_boosting/features.py:Feature.update_factors", "cyclic_boosting/base.py:_predict_factors"]}
{"id": "C75", "title": "Baseline before features equals the target mean, individualised by prior predictions", "statement": "Without a prior prediction column the model starts from the weighted mean of the training target plus 0.001 (log and identity link; logit link exactly if the weighted share of positives is below 0.999). With a prior prediction column for which every training row has a valid value, the baseline is the prior prediction times (log link) or plus (identity link) one common constant, chosen such that its weighted mean is the weighted target mean plus 0.001; rows whose prior prediction is missing or out of range start from the global baseline.", "quantifier": "all training sets, weights, targets in the range of the link, and prior prediction columns, including missing and infinite entries", "why_tests_cant": "The relation concerns sums over arbitrary training sets and weights and all special values of a column; a test fixes one table.", "anchors": ["cyclic_boosting/base.py:_init_global_scale", "cyclic_boosting/base.py:_get_prior_predictions", "cyclic_boosting/base.py:_init_weight_column", "cyclic_boosting/link.py"]}
{"id": "C76", "title": "Sample weights act as repetition counts for Poisson, negative binomial and classification models", "statement": "For CBPoissonRegressor, CBNBinomRegressor and CBClassifier the outcome of fit depends on the training set only through the set of distinct rows (feature values, target, prior prediction) and the total weight of each row: splitting, merging or repeating rows with the same total weight gives the same error or the same scale, bins, factors, iterations and predictions. In particular a sample of integer weight k is equivalent to k copies of weight 1. For CBLocationRegressor and CBLocPoissonRegressor this is false.", "quantifier": "all feature lists, smoothers, learning rates, training sets, weights and prior predictions, for any number of iterations", "why_tests_cant": "The equivalence must survive every iteration of binning, estimation, smoothing, clipping and divergence handling on every data set.", "anchors": ["cyclic_boosting/base.py:_fit_main", "cyclic_boosting/regression.py:calc_parameters", "cyclic_boosting/classification.py:calc_parameters", "cyclic_boosting/features.py:bind_data"]}
{"id": "C77", "title": "The order of the samples does not matter", "statement": "Permuting the rows of the training set together with targets, weights and prior predictions gives exactly the same outcome of fit, for all modelled estimators (exact arithmetic).", "quantifier": "all permutations of all training sets, all feature lists, smoothers and parameters", "why_tests_cant": "n! permutations of every data set; tests can only try a few shuffles.", "anchors": ["cyclic_boosting/base.py:_fit_main", "cyclic_boosting/features.py:bind_data", "cyclic_boosting/binning/bin_number_transformer.py"]}
{"id": "C78", "title": "Samples of weight zero do not influence the fit", "statement": "Appending samples of weight 0 with valid targets that do not enlarge the number of bins of any feature leaves the outcome of fit unchanged, for all modelled estimators. For CBLocationRegressor the appended samples must not be the only ones of a bin, whose parameters become NaN otherwise (C157); CBNBinomRegressor needs a positive a and a c that is not negative.", "quantifier": "all training sets, all appended samples of weight zero, all feature lists, smoothers and parameters", "why_tests_cant": "Must hold for arbitrary added rows and through all iterations.", "anchors": ["cyclic_boosting/base.py:_fit_main", "cyclic_boosting/base.py:loss", "cyclic_boosting/regression.py", "cyclic_boosting/location.py", "cyclic_boosting/GBSregression.py"]}
{"id": "C79", "title": "The additive location model follows shifts of the target", "statement": "Adding a constant c to all targets of CBLocationRegressor (weights not negative) leaves the kind of outcome, the number of iterations and all factors unchanged and moves every prediction, on every table, by exactly c.", "quantifier": "all training sets with non-negative weights, all constants, all features, smoothers and parameters, all tables to predict", "why_tests_cant": "Equivariance over a continuous parameter and all training histories.", "anchors": ["cyclic_boosting/location.py:CBLocationRegressor", "cyclic_boosting/base.py:_init_global_scale", "cyclic_boosting/base.py:_fit_main"]}
{"id": "C80", "title": "Background-subtraction regressor training never increases the squared error", "statement": "With smoothing that keeps the bin estimates or moves them towards the neutral factor (no smoothing, or weighted means without normalization for categorical features and interactions), learning rates between 0 and 1 and weights that are not negative, no iteration of CBGBSRegressor.fit increases the weighted squared error on the training data. Such a fit never diverges and always succeeds, and the fitted model is at least as good on the training data as the predictions it started from.", "quantifier": "for all training tables, targets, weights, regularisation strengths, learning rates in [0,1], feature groups and numbers of iterations", "why_tests_cant": "The loss after each of arbitrarily many feature visits on arbitrary data; tests see single runs.", "anchors": ["cyclic_boosting/GBSregression.py:CBGBSRegressor.calc_parameters", "cyclic_boosting/GBSregression.py:CBGBSRegressor.loss", "cyclic_boosting/base.py:CyclicBoostingBase._fit_main", "cyclic_boosting/smoothing/onedim.py:BinValuesSmoother", "cyclic_boosting/smoothing/onedim.py:WeightedMeanSmoother", "cyclic_boosting/common_smoothers.py:NoSmootherChoice"]}
{"id": "C81", "title": "Weighted mean smoothing neither overshoots nor loses bins", "statement": "With the weighted mean smoothing that the library chooses for categorical features and interactions, the smoothed value of every bin lies between the estimate for this bin and the value all bins are pulled to (the neutral factor, or with normalization the weighted mean of the estimates), and every bin with training weight gets a smoothed value.", "quantifier": "for all numbers of bins in one or several columns, estimates, uncertainties, weights, regression types, with or without normalization", "why_tests_cant": "A claim about all estimates and uncertainties; the failing case (an uncertainty of exactly 0) needs a bin without samples in one specific regressor.", "anchors": ["cyclic_boosting/utils.py:regularize_to_error_weighted_mean", "cyclic_boosting/smoothing/onedim.py:WeightedMeanSmoother", "cyclic_boosting/smoothing/multidim.py:WeightedMeanSmoother", "cyclic_boosting/smoothing/meta_smoother.py:NormalizationRegressionTypeSmoother", "cyclic_boosting/GBSregression.py:CBGBSRegressor.calc_parameters"]}
{"id": "C82", "title": "Group-by smoothing treats each group as a feature of its own", "statement": "With the group-by smoother choice and no explicit smoother for the interaction, the smoothed value of a bin of an interaction of two or more columns is exactly the value the same choice would produce if the last column alone were the feature and its bins had the weights, uncertainties and estimates of the bins with the same values in all other columns. No other group influences it. Bins of groups without any weight get no value, i.e. the neutral factor.", "quantifier": "all numbers of columns and bins, all properties of the columns, all settings of the choice (normalization, regression types, explicit one-dimensional smoothers), all weights, uncertainties and estimates, all bins; user-defined smoothers that predict each row from this row", "why_tests_cant": "the rows of a group are selected by comparing bin numbers for every group; leakage between groups shows only for particular group sizes, orders and empty groups, and the wrapped smoothers index bins of one group only", "anchors": ["cyclic_boosting/common_smoothers.py:SmootherChoiceGroupBy", "cyclic_boosting/smoothing/multidim.py:GroupBySmootherCB"]}
{"id": "C83", "title": "Linear features get the weighted least-squares line", "statement": "If a column is declared linear and has at least two bins, its smoothed bin values lie on the one straight line in the bin number with the smallest squared error, where each bin is weighted by one over its squared uncertainty plus 0.0001; normalization does not change the line. Estimates on a line are reproduced exactly. A linear column with a single bin gets no value, i.e. the neutral factor.", "quantifier": "all numbers of bins, weights, uncertainties (also 0) and estimates, both smoother choices, with and without normalization and regression types, other flags set or not", "why_tests_cant": "a statement about the optimum over all lines for all inputs, through three wrappers", "anchors": ["cyclic_boosting/smoothing/extrapolate.py:LinearExtrapolator", "cyclic_boosting/common_smoothers.py:SmootherChoice", "cyclic_boosting/utils.py:linear_regression"]}
{"id": "C84", "title": "Quantile and generic-loss regression never gets worse during training", "statement": "When fitting a quantile regressor, or a generic regressor whose costs are the weighted mean of a nonnegative loss that is convex in the prediction, in default (aggregate) mode with learning rates between 0 and 1 and smoothers that only pull values towards neutral, the costs on the training data never increase from one iteration to any later one, training never diverges, the fit succeeds, and the fitted model's costs on the training data are at most those of the predictions it started from. This needs of the numerical optimiser only that it never returns anything worse than its start value, and in the multiplicative mode that it returns no factor of -0.00001 or less.", "quantifier": "all training data, features, interactions, prior predictions, weights, convex losses, quantiles between 0 and 1, optimisers with this property, learning-rate schedules in [0,1] and iteration counts", "why_tests_cant": "descent over a whole training run for every data set, loss and optimiser cannot be sampled", "anchors": ["cyclic_boosting/generic_loss.py:CBGenericLoss.calc_parameters", "cyclic_boosting/generic_loss.py:CBGenericLoss.objective_function", "cyclic_boosting/generic_loss.py:CBQuantileRegressor", "cyclic_boosting/generic_loss.py:CBMultiplicativeGenericCRegressor", "cyclic_boosting/base.py:CyclicBoostingBase._fit_main"]}
{"id": "C85", "title": "A pipeline predicts for every input, monotonically in the raw values of a monotonic column", "statement": "Once a pipeline of binner and estimator has been fitted, predict succeeds for every table, whatever values it holds (missing, infinite, unseen, out of range). If a continuous column that is a feature of its own and in no other feature is declared monotonic with a direction, the predictions follow this direction in the raw values of the column, also between and outside the values of the training data.", "quantifier": "every training table, every fitted pipeline, every prediction table, every pair of finite raw values of the column", "why_tests_cant": "The raw value passes through the choice of bin boundaries, a search with a tolerance, the estimation, the smoothing and the sum over features; tests cover a few fits and few values, monotonicity is a statement about all pairs of values.", "anchors": ["cyclic_boosting/pipelines.py:pipeline_CB", "cyclic_boosting/binning/bin_number_transformer.py:BinNumberTransformer", "cyclic_boosting/base.py:CyclicBoostingBase.fit", "cyclic_boosting/base.py:CyclicBoostingBase.predict"]}
{"id": "C86", "title": "The units of continuous columns do not matter", "statement": "Measuring continuous columns in other units (x becomes a*x+b with a > 0, consistently in training and prediction data) changes neither whether the fit of a pipeline succeeds nor the fitted model nor any prediction. The bin boundaries follow every strictly increasing transformation of the column.", "quantifier": "every training table, every choice of units per continuous column, every prediction table, every estimator and smoother", "why_tests_cant": "The tolerance of the bin search scales with the smallest gap between boundaries; that no value changes its bin under any unit is a statement about all reals, while tests use one unit.", "anchors": ["cyclic_boosting/pipelines.py:pipeline_CB", "cyclic_boosting/binning/ecdf_transformer.py:ECdfTransformer.fit", "cyclic_boosting/binning/_utils.py:minimal_difference", "cyclic_boosting/binning/bin_number_transformer.py:BinNumberTransformer.transform"]}
{"id": "C87", "title": "The order of the raw training rows does not matter for a pipeline", "statement": "Fitting a pipeline of binner and estimator on the same rows of raw data in another order gives the same bins, the same model, and an error in exactly the same cases.", "quantifier": "every raw training table, every permutation of its rows, every modelled estimator and setup", "why_tests_cant": "Sorting, grouping, cumulative sums and iterated in-place updates depend on the order of the rows in the code; tests try a few orders.", "anchors": ["cyclic_boosting/pipelines.py:pipeline_CB", "cyclic_boosting/binning/ecdf_transformer.py:calculate_cdf_from_weighted_data", "cyclic_boosting/base.py:CyclicBoostingBase.fit"]}
{"id": "C88", "title": "Weights as repetitions in pipelines", "statement": "If no column is continuous, giving a raw training row the integer weight k or repeating it k times gives the same model and the same predictions for all raw data, for the estimators that treat weights as frequencies (Poisson, negative binomial, classification). For continuous columns this fails, because a pipeline does not pass the weight column to its binner.", "quantifier": "every raw training table without continuous columns, every vector of positive integer weights, every prediction table", "why_tests_cant": "It relates fits on tables of different sizes, over all tables and weights.", "anchors": ["cyclic_boosting/pipelines.py:pipeline_CB", "cyclic_boosting/binning/ecdf_transformer.py:ECdfTransformer.fit", "cyclic_boosting/base.py:CyclicBoostingBase.fit"]}
{"id": "C89", "title": "A pipeline treats all unusable raw values alike", "statement": "NaN, infinities, flagged magic integers, any value of a column without numbers in the training data, and categories that do not occur in the training data lead to the same prediction, other columns being equal. If the column is flagged MISSING_NOT_LEARNED and training did not diverge, the features with this column then contribute nothing.", "quantifier": "every fitted pipeline, every prediction table, every pair of unusable values", "why_tests_cant": "All special values and all unseen numbers in combination with all fitted pipelines.", "anchors": ["cyclic_boosting/pipelines.py:pipeline_CB", "cyclic_boosting/binning/bin_number_transformer.py:BinNumberTransformer.transform", "cyclic_boosting/base.py:_predict_factors", "cyclic_boosting/features.py:Feature.update_factors"]}
{"id": "C90", "title": "Bin weights account for all training weight", "statement": "When a feature is bound to the training data, it gets one weight for each of its finite bins and one for missing values. The weight of a bin is the total weight of the rows in this bin, the weight of the missing bin that of the rows with a missing, infinite or negative bin number in a column of the feature, and all of them sum to the total weight of the training data.", "quantifier": "every table, every feature of one or several columns, every vector of weights", "why_tests_cant": "Rows and special values in all combinations, for features of any dimension; a lost or doubled row only shows up in the totals.", "anchors": ["cyclic_boosting/features.py:Feature.bind_data"]}
{"id": "C91", "title": "A refit forgets earlier fits", "statement": "Fitting an estimator with given feature groups again behaves like the first fit of a new estimator: it raises in the same cases, and afterwards makes the same predictions, whatever it was fitted to before and whether these fits raised. Without feature groups this holds if all tables had the same columns; otherwise the columns of the first table stay in use.", "quantifier": "every configuration, every history of fits, successful or not, every table", "why_tests_cant": "It quantifies over histories of calls.", "anchors": ["cyclic_boosting/base.py:CyclicBoostingBase.fit", "cyclic_boosting/base.py:CyclicBoostingBase._init_fit", "cyclic_boosting/base.py:CyclicBoostingBase._init_default_feature_groups"]}
{"id": "C92", "title": "Only the required columns matter", "statement": "A fit depends on the table only through the weight column, the prior prediction column and the columns of the feature groups; these are the columns that required_columns lists. Predictions depend only on the prior prediction column and the columns of the features, row by row. If a required column is missing, fit raises. Without feature groups each column except for the weight and prior prediction columns becomes a feature. (False for the dispersion model CBNBinomC: its fit also needs the column of the means, which required_columns does not list.)", "quantifier": "every estimator, history and pair of tables that agree on the required columns", "why_tests_cant": "It relates all tables that differ in other columns.", "anchors": ["cyclic_boosting/base.py:CyclicBoostingBase.required_columns", "cyclic_boosting/base.py:CyclicBoostingBase.fit", "cyclic_boosting/base.py:CyclicBoostingBase.predict", "cyclic_boosting/base.py:CyclicBoostingBase._init_default_feature_groups", "cyclic_boosting/utils.py:get_X_column"]}
{"id": "C93", "title": "transform adds one column and nothing else", "statement": "transform returns the table with one more column, the output column, which holds the predictions; all other columns and the rows stay as they are. If the output column is already there, or none was given, transform and fit_transform raise a KeyError and fit_transform leaves the estimator as it was. fit_transform gives the same as fit followed by transform of the same table, for integer bin numbers. (False for the dispersion model CBNBinomC: its fit_transform never sets the means and raises.)", "quantifier": "every estimator, history and table", "why_tests_cant": "The column written by fit_transform comes from training, the one by transform from prediction; that they agree must hold for all data.", "anchors": ["cyclic_boosting/base.py:CyclicBoostingBase.fit_transform", "cyclic_boosting/base.py:CyclicBoostingBase.transform"]}
{"id": "C94", "title": "An estimator that was not fitted says so", "statement": "Before the first successful fit, predictions and feature importances raise an exception that says that the estimator must be fitted first. (False for predictions: the check looks for the list of features, which the constructor has already made.)", "quantifier": "every configuration and every history without a successful fit", "why_tests_cant": "It quantifies over histories, including those with fits that raised half-way.", "anchors": ["cyclic_boosting/base.py:CyclicBoostingBase._check_fitted", "cyclic_boosting/base.py:CyclicBoostingBase.predict", "cyclic_boosting/base.py:CyclicBoostingBase.get_feature_importances"]}
{"id": "C95", "title": "Training the dispersion model never worsens the likelihood", "statement": "CBNBinomC on counts with positive means, with gamma >= 0, bayes=False, the default learning rate 1 and smoothers that keep the values of the bins (NoSmootherChoice): the penalised negative log-likelihood of the training data never increases from one iteration to any later one, training never diverges, fit succeeds, and the fitted model is at least as good on the training data as the prior prediction. For all arguments, predicted dispersions lie strictly between 0 and 1, and permuting the rows together with targets, weights, prior predictions and means gives the same outcome.", "quantifier": "all training sets, means, feature lists, iteration counts and step counts; all permutations of the rows", "why_tests_cant": "It is a statement about whole trainings on all data sets; a likelihood that increases in one iteration for some data would pass tests on others.", "anchors": ["cyclic_boosting/nbinom.py:CBNBinomC.fit", "cyclic_boosting/nbinom.py:CBNBinomC.calc_parameters", "cyclic_boosting/nbinom.py:CBNBinomC.loss", "cyclic_boosting/nbinom.py:nbinom_log_pmf", "cyclic_boosting/nbinom.py:loss_nbinom_c"]}
{"id": "C96", "title": "Fitted price models follow the exponential demand law", "statement": "In a fitted CBExponential, for every row of any table, the prediction at price ratio r equals the prediction of the row without price times exp(e * k * (r - 1)), where e is the prior exponent of the row (-1 without a column for it) and k > 0 depends on the external features of the row but not on r. So predictions strictly decrease with the price ratio if the prior exponent is negative, whatever was learned. If training never diverged, k is at least 0.05 and at most 20 for one external feature made of one column, and the bounds multiply for several.", "quantifier": "all training sets, feature lists, smoothers, tables, rows and price ratios", "why_tests_cant": "The sign and size of the price effect must be right for every fitted model, also after training on misleading data; tests see a few models.", "anchors": ["cyclic_boosting/price.py:CBExponential.predict", "cyclic_boosting/price.py:CBExponential._calc_parameters_exponent", "cyclic_boosting/price.py:CBExponential._get_prior_exponent", "cyclic_boosting/base.py:CyclicBoostingBase._fit_feature"]}
{"id": "C97", "title": "Without price information the price model is the negative binomial model", "statement": "If all price ratios of the training table are 1 or missing and there are no external features, then fit of CBExponential has the same outcome as fit of CBNBinomRegressor with the same a and c: the same exception or the same fitted model. The predictions for rows whose price ratio is 1 or missing are those of the negative binomial model.", "quantifier": "all training sets without price information, feature lists, smoothers, tables and rows", "why_tests_cant": "Two separate implementations of one training loop must agree in every iteration on every input.", "anchors": ["cyclic_boosting/price.py:CBExponential", "cyclic_boosting/regression.py:CBNBinomRegressor"]}
{"id": "C98", "title": "Histogram bins contain the values assigned to them", "statement": "digitize with sorted boundaries gives a value not below the largest boundary the last index, a value below the smallest boundary 0, and any other number the index of the first boundary above it; it never reverses the order of two numbers and treats infinities like extreme numbers. With the boundaries of calc_linear_bins, every value of the array gets a bin number from 1 to nbins, lies between the boundaries of its bin, and is at most half a bin width away from the centre returned for the bin.", "quantifier": "all sorted boundary lists, all value arrays that are not empty, all positive numbers of bins", "why_tests_cant": "Boundary values, ties and the maximum need special handling; tests try a few values.", "anchors": ["cyclic_boosting/utils.py:digitize", "cyclic_boosting/utils.py:calc_linear_bins"]}
{"id": "C99", "title": "Grouped means, medians and errors are those of the groups", "statement": "calc_means_medians gives one result for each bin number that occurs, in ascending order. The mean of a group is the weighted mean of its targets, the median with weights that differ is the smallest target at which half of the weight of the group is reached (otherwise the usual median), the errors for one and two standard deviations have the right sign and are nested, the counts add up to the total weight (with equal weights: the number of samples), and neither the order of the samples nor a common factor of all weights changes means, medians or errors. calc_weighted_quantile gives the smallest target at which the share is reached.", "quantifier": "all sample lists with weights that are not negative, all groups and quantiles", "why_tests_cant": "Group-wise weighted order statistics have ties, zero weights and one-element groups; examples cover few combinations.", "anchors": ["cyclic_boosting/utils.py:calc_means_medians", "cyclic_boosting/utils.py:calc_weighted_quantile"]}
{"id": "C100", "title": "The in-sample histogram is complete and aligned", "statement": "For every fit with samples there is an in-sample histogram of the predictions. Its lists have equal length, each entry belongs to a bin of the predictions, the centre given is the centre of that bin, the mean is the weighted mean (for quantile models the quantile) of the targets of the samples whose predictions lie in the bin, and the counts add up to those of all samples.", "quantifier": "all predictions, targets and weights that are not negative", "why_tests_cant": "Bins without samples or weight must be dropped from all lists alike; a test sees only its own bins.", "anchors": ["cyclic_boosting/observers.py:calc_in_sample_histograms", "cyclic_boosting/utils.py:calc_means_medians"]}
{"id": "C101", "title": "Observers see the training and do not change it", "statement": "Fitting with observers gives the same model or exception as without. Each observer is called at the start of every iteration with the number of iterations done, the loss and the prediction so far, once for every feature that takes part in the iteration, and finally once with number -1 and the factors, loss and prediction of the fitted model. After a fit, a plotting observer with default settings holds the fitted model, all losses and all changes of the factors; one for iteration k holds the factors of the model after k iterations if the fit has at least k iterations.", "quantifier": "all training sets, feature lists, estimators, stop conditions and observer lists", "why_tests_cant": "Holds for all training histories, including early stops and refits; tests run a few iterations.", "anchors": ["cyclic_boosting/base.py:CyclicBoostingBase._fit_main", "cyclic_boosting/base.py:CyclicBoostingBase._call_observe_iterations", "cyclic_boosting/observers.py:PlottingObserver"]}
{"id": "C102", "title": "Smeared values of a correct discrete distribution are uniform", "statement": "If the target is a random natural number, cdf_func is its cumulative distribution function and the random numbers are uniform on [0, 1] and independent of the target, then the value returned by smear_discrete_cdftruth is uniformly distributed on [0, 1]. Every value lies between the distribution function below and at the target. The array version does the same for each sample.", "quantifier": "all probability distributions on the natural numbers", "why_tests_cant": "A statement about probability distributions, all of them; tests can only sample.", "anchors": ["cyclic_boosting/utils.py:smear_discrete_cdftruth", "cyclic_boosting/utils.py:smear_discrete_cdftruth_qpd"]}
{"id": "C103", "title": "The numbers an encoder gives to categories do not matter", "statement": "If a column holds categories 0..m-1 and they are numbered differently, in training and in prediction alike, then the fit ends the same way, with the same number of iterations, and the model predicts the same for every sample, including samples with missing or unknown categories. This holds for columns declared IS_UNORDERED, and for columns used in feature tuples, with the default smoothers.", "quantifier": "all training sets, permutations of the categories of any set of columns, feature lists, estimators (all regressors and classifiers with modelled or optimised parameters), learning rates, stop conditions and prediction tables", "why_tests_cant": "There are m! numberings for each column, and the claim covers the whole training history; a test tries one or two.", "anchors": ["cyclic_boosting/binning/bin_number_transformer.py:BinNumberTransformer", "cyclic_boosting/features.py:Feature.bind_data", "cyclic_boosting/smoothing/onedim.py:WeightedMeanSmoother", "cyclic_boosting/smoothing/multidim.py:WeightedMeanSmoother", "cyclic_boosting/base.py:CyclicBoostingBase._fit_main"]}
{"id": "C104", "title": "Seasonal features get the best wave, and its level follows the normalization setting", "statement": "SeasonalSmoother predicts a curve that repeats after as many bins as the fit had, at every position inside or outside the fitted range. With positive uncertainties and at least 2*order+1 bins, the curve c + sum of sines and cosines up to the order has the smallest sum of squared deviations in units of the uncertainties; bin values on such a curve are not changed. offset_tozero subtracts exactly the mean of that curve over the bins, so the level of the bin values then plays no role. With fewer bins every entry gets the fallback value. A feature declared IS_SEASONAL is smoothed like this with order 1: with normalization its values lie on the best curve for the estimates, without normalization on that curve minus its mean; with one or two bins all bins get the value subtracted by normalization.", "quantifier": "all orders 1 to 3, numbers of bins, bin values, positive uncertainties, weights, positions, feature properties and settings, and every curve fit that finds a least-squares optimum", "why_tests_cant": "A test compares one fitted curve on a few bins with a tolerance. That no curve of the family is closer, that the mean is removed exactly and that the curve is periodic everywhere are statements over all bin values and all curves.", "anchors": ["cyclic_boosting/smoothing/onedim.py:SeasonalSmoother", "cyclic_boosting/smoothing/onedim.py:_choose_default_fit_function", "cyclic_boosting/common_smoothers.py:get_default_smoother_types"]}
{"id": "C105", "title": "Polynomial and linear smoothing give the best polynomial, with weights of one over the fourth power of the uncertainty", "statement": "PolynomialSmoother(k) predicts a polynomial of degree k everywhere; no other polynomial of the degree has a smaller squared error on the bins if a bin has the weight one over the fourth power of its uncertainty (not the square, because polyfit squares the weights it is given); values on a polynomial of the degree are not changed. LinearSmoother does the same with lines; with fallback_when_negative_slope the result is the best of all lines that do not fall, although the code only refits a constant; a single bin keeps its value. LSQUnivariateSpline refuses exactly degrees above five and degrees that are not below the number of bins.", "quantifier": "all degrees, numbers of bins, bin values, uncertainties and positions, and every polyfit that meets its documentation", "why_tests_cant": "A test checks a few coefficients. Optimality is a claim over all polynomials, and the wrong power in the weights cannot be seen with equal uncertainties, which is what tests use.", "anchors": ["cyclic_boosting/smoothing/onedim.py:PolynomialSmoother", "cyclic_boosting/smoothing/onedim.py:LinearSmoother", "cyclic_boosting/smoothing/onedim.py:LSQUnivariateSpline"]}
{"id": "C106", "title": "The Lasso season is a wave around zero whose period is the last bin number", "statement": "SeasonalLassoSmoother predicts a sine wave around zero with the number of the last bin as period: the first and the last bin always get the same value, the values of the bins before the last have mean zero, and a wave with one turn over all bins (the one SeasonalSmoother fits) is never reproduced. The uncertainties and the values of bins without weight play no role. If fewer than min_days bins have weight, every prediction is zero.", "quantifier": "all numbers of bins, bin values, weights, uncertainties, thresholds, positions, and every Lasso fit", "why_tests_cant": "Tests use a year of data with a tolerance that hides a period that is one bin too short; the claim is about all values and all fits.", "anchors": ["cyclic_boosting/smoothing/onedim.py:SeasonalLassoSmoother"]}
{"id": "C107", "title": "Interaction selection returns the k best scoring candidates", "statement": "select_interaction_terms_anova returns k of the candidate combinations of the given size (all, if there are fewer), in the order of the candidates; no candidate left out scores higher than a selected one, and with equal scores the later ones win. For regression the score is between 0 and 1, it is 1 for a target that is a linear function of the combined bin number, and the selection does not depend on location and unit of the target. The score is the one of the combined bin number, so that the result depends on the order in which the features are listed, and a target that is the pure interaction of two features gives their combination the score zero.", "quantifier": "all feature lists, binned samples, targets, sizes, numbers k and score functions", "why_tests_cant": "A test runs the selection on one data set; that nothing better is ever left out, including ties and too few candidates, is a claim over all scores.", "anchors": ["cyclic_boosting/interaction_selection.py:select_interaction_terms_anova"]}
{"id": "C108", "title": "Parametric quantile fits return the closest distribution", "statement": "For rising quantiles whose values are not all equal, quantile_fit_gaussian returns the quantile function of the Gaussian with the strictly smallest sum of squared deviations; quantiles of a Gaussian at two or more levels give this Gaussian in all three modes; changing location and unit of the values changes location and unit of the result. quantile_fit_gamma reproduces the quantiles of every Gamma distribution, quantile_fit_nbinom the distribution function values of every negative binomial distribution with variance above the mean. With mode dist the two functions undo each other. Unknown modes raise.", "quantifier": "all levels, values, parameters, modes, and every curve_fit that returns a best fit where one exists", "why_tests_cant": "A test compares a few quantiles with a tolerance; that no other distribution is closer is a claim over all distributions.", "anchors": ["cyclic_boosting/quantile_matching.py:quantile_fit_gaussian", "cyclic_boosting/quantile_matching.py:quantile_fit_gamma", "cyclic_boosting/quantile_matching.py:quantile_fit_nbinom"]}
{"id": "C109", "title": "Quantile-parameterised distributions and the fitted shape change units with their quantiles", "statement": "If location and unit of the three quantiles and of the bounds change, J_QPD_S, J_QPD_B and the three extended classes give the same distribution in the new units: the quantile function changes like the quantiles, the distribution function keeps its values, rejected triplets stay rejected. The empirical quantiles used by fit_sinhlogistic_shape change in the same way, the fitted shape does not depend on the units, and it is a closest shape (in mean absolute deviation of the quantiles) if there is one. For a quantile equal to the lower bound the claim fails, because it is replaced by a fixed distance from the bound.", "quantifier": "all locations and units, triplets strictly inside the range, base distributions, levels, values, observations and modes", "why_tests_cant": "A test rescales one triplet; that no unit changes the distribution is a claim over all of them.", "anchors": ["cyclic_boosting/quantile_matching.py:J_QPD_S", "cyclic_boosting/quantile_matching.py:J_QPD_B", "cyclic_boosting/quantile_matching.py:J_QPD_extended_S", "cyclic_boosting/quantile_matching.py:fit_sinhlogistic_shape"]}
{"id": "C110", "title": "Additive quantile and generic-loss regression follows shifts of the target", "statement": "If a constant is added to all targets, CBAdditiveQuantileRegressor, and CBAdditiveGenericCRegressor with costs that depend on differences of target and prediction only, end training in the same way after the same number of iterations with the same factors, and every prediction on every table is larger by exactly the constant. For the multiplicative variants a change of unit changes the uncertainties of the factors and thereby the smoothing.", "quantifier": "all training sets with non-negative weights, feature and smoother settings, quantiles, optimisers, constants, and all tables to predict", "why_tests_cant": "A test shifts one target column and compares with a tolerance; exact equality for every data set, optimiser and configuration is out of reach of tests.", "anchors": ["cyclic_boosting/generic_loss.py:CBAdditiveQuantileRegressor", "cyclic_boosting/generic_loss.py:CBAdditiveGenericCRegressor", "cyclic_boosting/utils.py:continuous_quantile_from_discrete_pdf"]}
{"id": "C111", "title": "A settled model is calibrated in every bin", "statement": "If training never diverged and its last iteration changed no parameter of any bin by more than a tolerance, the predictions agree with the targets in every bin of every feature that is not smoothed (which are all bins with weight under NoSmootherChoice, and the missing-value bins), up to that tolerance: for CBPoissonRegressor the sums of weighted predictions and targets agree up to the constants of the gamma prior (between -0.012 and 0.322 at tolerance 0), for CBNBinomRegressor the same with weights divided by the variance function, for CBGBSRegressor the weighted residuals sum to zero, for CBLocationRegressor the predictions exceed the targets by 0 to 0.001 times the weight of the bin plus 0.01 times its variance estimate, for CBAdditiveQuantileRegressor the weighted share of targets below the prediction is the quantile. For CBMultiplicativeQuantileRegressor the share holds only when samples are weighted by weight times prediction, not by their weight.", "quantifier": "all training sets, feature configurations, smoothers, learning rates, tolerances, features and bins; for multiplicative models bins whose factor is inside the limits; for CBLocationRegressor every bin with samples has one of positive weight", "why_tests_cant": "A test checks residuals of one trained model. That settled training implies calibration in every bin, with explicit constants, is a claim over all data sets and trainings.", "anchors": ["cyclic_boosting/regression.py:CBPoissonRegressor", "cyclic_boosting/regression.py:CBNBinomRegressor", "cyclic_boosting/GBSregression.py:CBGBSRegressor", "cyclic_boosting/location.py:CBLocationRegressor", "cyclic_boosting/generic_loss.py:CBAdditiveQuantileRegressor", "cyclic_boosting/base.py:CyclicBoostingBase.cyclic_boosting_iteration"]}
{"id": "C112", "title": "A prediction that is already right is left alone", "statement": "If the estimates of all bins of all features are neutral for the prediction from which training starts, fit succeeds, all factors stay neutral and the model predicts, for every table, what the global scale and the prior prediction alone give. In particular CBGBSRegressor trained on a constant target predicts this constant for every input, and CBAdditiveQuantileRegressor changes nothing if the coverage of the starting prediction is right in every bin.", "quantifier": "all training sets, features, smoothers that keep zero, learning rates, numbers of iterations, prior predictions, and all tables to predict", "why_tests_cant": "A test fits one constant target. That training invents nothing for any configuration or number of iterations needs an induction over training.", "anchors": ["cyclic_boosting/base.py:CyclicBoostingBase.fit", "cyclic_boosting/base.py:CyclicBoostingBase._fit_feature", "cyclic_boosting/GBSregression.py:CBGBSRegressor", "cyclic_boosting/generic_loss.py:CBAdditiveQuantileRegressor"]}
{"id": "C113", "title": "A clone is an unfitted, independent estimator with the same settings", "statement": "clone(estimator) gives an object of the same class with equal constructor parameters, at every depth of nested estimators and collections, in which no estimator has any fitted attribute; every mutable object in it is new, except values of parameters that the estimator lists in no_deepcopy; whatever is later done to the clone therefore leaves the original, and clones made before or after, unchanged, so that one smoother object chosen for several features is fitted separately for each. With safe=True it succeeds exactly for estimators and collections of estimators, and raises TypeError otherwise; parameters of estimators may be anything.", "quantifier": "all object trees of estimators, collections, other objects and immutable values; all sets of fitted attributes; all later changes", "why_tests_cant": "Aliasing shows up only after some later mutation of a shared part; tests look at a few estimators, not at every nesting and every change.", "anchors": ["cyclic_boosting/utils.py:clone", "cyclic_boosting/features.py:create_feature", "cyclic_boosting/base.py:no_deepcopy"]}
{"id": "C114", "title": "The deviations in an analysis have the sign of the errors of the predictions", "statement": "For mean-based estimators, an analysis shows for every bin of every feature a deviation: for additive models the sum of the weighted predictions in the bin minus that of the weighted targets, divided by the weight of the bin plus 1; for multiplicative models and classifiers (targets and predictions not negative) a number that is positive, zero or negative exactly if that difference is, and no larger than the logarithm of the quotient of the two sums plus 1. Bins without weight show no deviation. The means that target and prediction are shown relative to are the weighted means over the samples whose value is not missing.", "quantifier": "all training sets, weights, predictions, features and bins", "why_tests_cant": "Must hold for all data, bins without samples and missing values included; tests only check that a plot is written.", "anchors": ["cyclic_boosting/base.py:CyclicBoostingBase.prepare_plots"]}
{"id": "C115", "title": "The analysis of a quantile regressor has an entry for every bin", "statement": "For quantile regressors, an analysis shows for every bin that has samples the quantile of their targets and their mean weighted prediction, at the place of the bin, and 1 for bins without samples; both arrays have one entry for every bin of the feature.", "quantifier": "all training sets with at least one sample, levels in [0, 1], features and bins", "why_tests_cant": "The places depend on which bins have samples; tests use data in which all combinations occur.", "anchors": ["cyclic_boosting/generic_loss.py:CBQuantileRegressor.prepare_plots", "cyclic_boosting/plots/_2dplots.py:plot_factor_2d"]}
{"id": "C116", "title": "The axes of analysis plots show everything that is plotted", "statement": "The y axis of a plot of a feature of one column has 12 to 21 ticks and shows all factors, all smoothed factors and all targets and predictions of bins, and the error bars if requested. The plots of loss and factor change show all values. Histograms of factors have 5 to 31 bins; that of a two-column feature has the neutral factor in the middle of its middle bin. The box for missing values is to the right of the plot. The file name of an analysis has the extension exactly once more if it did not have it.", "quantifier": "all factors, uncertainties that are not negative, targets, predictions, losses and names", "why_tests_cant": "Loops and branches over all magnitudes of the values; a test looks at a few.", "anchors": ["cyclic_boosting/plots/_1dplots.py:_get_y_axis", "cyclic_boosting/plots/_1dplots.py:plot_factor_1d", "cyclic_boosting/plots/__init__.py:_factor_plots_y_limits", "cyclic_boosting/plots/_2dplots.py:bin_boundaries_for_factor_histograms", "cyclic_boosting/plots/plot_utils.py"]}
{"id": "C117", "title": "Single-feature models neither overshoot nor reorder the groups", "statement": "For a model with one feature, fitted without prior and with learn rates between 0 and 1: (order) when two groups of samples (bins) have the same total weight and are smoothed alike, the group with the larger weighted target gets the larger (or equal) prediction, both for background subtraction (CBGBSRegressor) and for Poisson regression (CBPoissonRegressor). (range) when every smoother of the model only shrinks or keeps estimates, the background-subtraction prediction of a group lies between the overall mean and the mean of the group, whatever the number of iterations: it never overshoots. The Poisson prediction lies in the same interval up to the 0.001 added to the global mean and 0.322 divided by the weight of the group.", "quantifier": "all training sets with non-negative weights (and, for Poisson, non-negative targets), all bins, numbers of iterations, learn rates in [0,1] and smoothers as stated, in every fit that does not diverge", "why_tests_cant": "Holds for whole fits of any length: a unit test sees one training set and one number of iterations.", "anchors": ["cyclic_boosting/base.py:CyclicBoostingBase.fit", "cyclic_boosting/GBSregression.py:CBGBSRegressor", "cyclic_boosting/regression.py:CBBaseRegressor", "cyclic_boosting/base.py:CyclicBoostingBase.predict"]}
{"id": "C118", "title": "The background-subtraction regressor follows the units and the sign of the target", "statement": "Train CBGBSRegressor twice, on targets (and prior predictions, if any) y and on c*y. (sign) For c = -1, with the same parameters, and smoothers that treat signs alike (bin values, weighted means, orthogonal polynomials, linear extrapolation and the wrappers, grouping and normalization around them): both trainings fail alike or both succeed after the same number of iterations, and every later prediction, for known and unknown bins, with or without prior predictions, has the opposite sign. (units) For any c other than 0, with minimal_factor_change given in the new units too (below 100 in both), non-negative weights and smoothers without absolute tolerances (bin values, orthogonal polynomials and the wrappers around them): both trainings fail alike or both succeed after the same number of iterations, and every later prediction is multiplied by c. Weighted-mean smoothers do not follow changes of units, because they compare with an absolute tolerance.", "quantifier": "all training sets (weights, bins, missing values, priors), all factors c other than 0, all features, learn rates, regalpha, numbers of iterations, and all later data sets", "why_tests_cant": "Relates two whole training runs for every training set and every factor; tests compare two runs on one data set.", "anchors": ["cyclic_boosting/GBSregression.py:CBGBSRegressor", "cyclic_boosting/base.py:CyclicBoostingBase.fit", "cyclic_boosting/base.py:CyclicBoostingBase.predict", "cyclic_boosting/smoothing/orthofit.py:fit_orthogonal_polynomials", "cyclic_boosting/utils.py:regularize_to_error_weighted_mean"]}
{"id": "C119", "title": "Only the relative sizes of prior predictions matter", "statement": "Multiplicative regressors (Poisson, negative binomial, quantile and generic with factors): if the column of prior predictions is multiplied by c > 0, in training and at prediction time, and the weighted mean of the finite prior predictions of the training set is positive, training ends alike (same error, or success after the same number of iterations) and all predictions stay the same. Additive regressors with a shifted prior (location, location-Poisson, quantile and generic with summands): the same if a constant is added to the prior predictions. Missing, infinite and (multiplicative) non-positive prior predictions of single samples are allowed. If the weighted mean is not positive, the multiplicative claim fails: the starting point is then c times as large.", "quantifier": "all features, smoothers, learning rates, training sets, prior predictions with a usable mean, factors c > 0 or shifts c, new samples", "why_tests_cant": "The offset of the prior is computed from the data, the fallback for unusable prior predictions is per sample; tests look at single columns of prior predictions.", "anchors": ["cyclic_boosting/base.py:_init_global_scale", "cyclic_boosting/base.py:_get_prior_predictions", "cyclic_boosting/base.py:fit", "cyclic_boosting/base.py:predict"]}
{"id": "C120", "title": "Swapping the two classes mirrors the probabilities", "statement": "Train a classifier on the same data with class 0 called 1 and class 1 called 0 (smoothers that follow a change of sign). The training is the mirror image: started from mirrored log odds it ends alike, after the same number of iterations, and the probability of class 1 of every sample is the former probability of class 0; the estimates of the bins change their signs and keep their uncertainties. For the complete fit one expects the same: the probabilities of the two models sum to 1. (The code adds 0.001 to the share of class 1 before the link function, for both ways to name the classes. So the full claim fails for every classifier: for samples with unseen bin numbers the two probabilities sum to 1.002.)", "quantifier": "all features, sign-following smoothers, learning rates, training sets with targets 0 and 1, starting log odds, new samples", "why_tests_cant": "A test compares one pair of models with a tolerance, which hides the asymmetric baseline; the symmetry of the bin estimates rests on the symmetry of the beta quantiles.", "anchors": ["cyclic_boosting/classification.py:CBClassifier.calc_parameters", "cyclic_boosting/classification.py:boost_weights", "cyclic_boosting/base.py:_init_global_scale", "cyclic_boosting/base.py:gaussian_matching_by_quantiles"]}
{"id": "C121", "title": "Training of the background-subtraction regressor settles by itself", "statement": "For CBGBSRegressor with aggregated updates, no hierarchical feature groups, smoothers that keep the value of a bin or move it towards 0, learning rates in [0, 1], non-negative weights and regularization, and a positive minimal_factor_change e: if training starts from predictions (the prior predictions or the weighted mean) with weighted squared error L, then fit ends after at most 1 + 2 L / e^2 iterations, whatever maximal_iterations is. All values of maximal_iterations above this number give the same model. (The learning rates are taken as given; a learning rate function that itself depends on maximal_iterations is not covered by the second sentence.)", "quantifier": "all training sets, prior predictions, feature lists (one- and multidimensional), shrinking smoothers, learning rates in [0, 1], stopping thresholds and bounds on the iterations", "why_tests_cant": "A test sees finitely many data sets converge; that no data set can make training run up to an arbitrarily large maximal_iterations needs an argument that every iteration that goes on has to pay with squared error.", "anchors": ["cyclic_boosting/base.py:_fit_main", "cyclic_boosting/base.py:_check_stop_criteria", "cyclic_boosting/base.py:_factors_deviation", "cyclic_boosting/GBSregression.py:CBGBSRegressor.calc_parameters"]}
{"id": "C122", "title": "Background subtraction is a subtraction", "statement": "Train CBGBSRegressor three times on the same samples, features and weights, with targets (and prior predictions, if any) y1, y2 and a*y1 + b*y2, with aggregated updates, no hierarchical feature groups, no smoothing (or smoothers that smooth combinations of bin values to combinations of smoothed values), learning rates in [0, 1], non-negative weights and regularization. If the three trainings take the same number of iterations, which they always do when both early stop criteria are switched off by negative values, then every prediction of the third model, for known and unknown bins, is a times the prediction of the first plus b times the prediction of the second. In particular, counting the targets of one group of samples positively and those of the other group negatively gives the model for the first group minus the model for the second, as the documentation of the class promises.", "quantifier": "all training sets, features, weights, regularization strengths, learning rates, numbers of iterations, combinations of targets and prior predictions, and all rows to predict", "why_tests_cant": "A test compares a few trainings on a few data sets; linearity has to hold for all combinations of targets and through all iterations of the training.", "anchors": ["cyclic_boosting/GBSregression.py:CBGBSRegressor", "cyclic_boosting/base.py:CyclicBoostingBase._fit_main", "cyclic_boosting/base.py:CyclicBoostingBase.feature_iteration"]}
{"id": "C123", "title": "Only the relative sizes of the weights matter for quantile and generic-loss estimators", "statement": "Multiplying all sample weights by the same positive number gives exactly the same fitted model (global scale, factors, number of iterations and hence all predictions), or the same failure, for the quantile regressors and for regressors and classifiers with a loss of their own, if the costs are a weighted mean (or in any other way depend on the relative sizes of the weights only) and the smoothers do not look at the size of the weights, as with NoSmootherChoice.", "quantifier": "every training set, positive multiple, feature set, learning rate, optimiser, cost function that is free of the scale of the weights, quantile level, and both modes", "why_tests_cant": "The unit of the weights runs through the global scale, the prior prediction offset, every objective given to the optimiser and the stop criteria of every iteration; a test compares two fits on one data set.", "anchors": ["cyclic_boosting/generic_loss.py:CBGenericLoss", "cyclic_boosting/generic_loss.py:quantile_costs", "cyclic_boosting/utils.py:continuous_quantile_from_discrete_pdf", "cyclic_boosting/base.py:CyclicBoostingBase._fit_main"]}
{"id": "C124", "title": "Training of the background-subtraction regressor converges to the least-squares fit", "statement": "If no bin is smoothed and the learning rates stay above a positive bound, training of the background-subtraction regressor converges geometrically to the additive model (the predictions training starts from plus one number per bin of each feature) with the smallest weighted squared error on the training data. For given features, weights, regularization and smallest learning rate there is one number rho < 1 that works for all targets, prior predictions, stop criteria and numbers of iterations: after k iterations the distance to the predictions of the best additive model is at most rho^k times what it was before training, and so is the excess error. With early stopping switched off, the error gets as close as one likes to the smallest one possible when maximal_iterations grows, however strong the regularization.", "quantifier": "all training sets with non-negative weights, all features (one- and multi-dimensional, correlated, repeated, with missing values), all regularizations >= 0, all sequences of learning rates between a positive bound and 1, all stop parameters and numbers of iterations", "why_tests_cant": "Tests can check that an error decreases on a data set; that no data set, correlation of features or regularization makes training stop short of the optimum needs an argument about the whole sequence of iterations.", "anchors": ["cyclic_boosting/GBSregression.py:calc_parameters", "cyclic_boosting/base.py:fit", "cyclic_boosting/base.py:_fit_main"]}
{"id": "C125", "title": "In the limit neither the order of the features nor the regularization matters, and more features never hurt in-sample", "statement": "Long unsmoothed trainings of the background-subtraction regressor (early stopping switched off) on the same data with the same feature groups end in the same predictions for the training samples, whatever the order of the groups, how often a group is repeated, the regularization and the learning rates (above a positive bound). If the groups of one model are among those of another, long unsmoothed training of the larger one gives a training error that is at most any given amount above that of any fitted smaller model, smoothed or not, stopped early or not.", "quantifier": "all training sets with non-negative weights of positive sum, all pairs of feature lists with the same (or nested) groups, all regularizations >= 0, all learning rates between a positive bound and 1", "why_tests_cant": "A test compares a few orders on one data set after some number of iterations, where the predictions do differ; that the difference vanishes for every data set needs the limit.", "anchors": ["cyclic_boosting/GBSregression.py:calc_parameters", "cyclic_boosting/base.py:_fit_main", "cyclic_boosting/base.py:_check_stop_criteria"]}
{"id": "C126", "title": "Long training of the background-subtraction regressor calibrates every bin", "statement": "With early stopping switched off and unsmoothed bins, the weighted sums of the predictions and of the target over the training samples of every bin of every feature, and over all samples, differ by less than any given number if maximal_iterations is large enough, however strong the regularization.", "quantifier": "all training sets with non-negative weights of positive sum, all features and bins (including the one for missing values), all regularizations >= 0, all learning rates between a positive bound and 1, all tolerances", "why_tests_cant": "The regularization pulls every single update towards zero, so any fixed test shows a bias; that the bias vanishes for every data set is a statement about the limit.", "anchors": ["cyclic_boosting/GBSregression.py:calc_parameters", "cyclic_boosting/base.py:_fit_main", "cyclic_boosting/base.py:_check_stop_criteria"]}
{"id": "C127", "title": "The mean prediction of CBLocationRegressor is the mean target plus 0.001", "statement": "After any successful fit of CBLocationRegressor, however many features, whatever smoothers, learning rates, number of iterations, rolled back iterations and prior predictions (some, all or none of them missing), the weighted mean of the predictions for the training samples equals the weighted mean of the target plus exactly 0.001. So training can neither introduce nor remove a bias.", "quantifier": "all training sets with non-negative weights, all features (each with at least one sample of positive weight that takes part in the calibration and in every bin that has samples), all smoothers, learning rates, stop criteria and prior prediction columns", "why_tests_cant": "The calibration acts on each feature in each iteration; that it balances over all features, bins, smoothers and iterations is an invariant over unbounded histories, which sampled fits cannot establish.", "anchors": ["cyclic_boosting/location.py:CBLocationRegressor.calibrate_to_weighted_mean", "cyclic_boosting/base.py:CyclicBoostingBase._init_global_scale", "cyclic_boosting/base.py:CyclicBoostingBase.predict"]}
{"id": "C128", "title": "A missing value that training has not seen contributes nothing", "statement": "If no training sample lacks a bin number in the columns of a feature, missing values are learned and training never diverged, then this feature contributes nothing to the prediction of a row that lacks a bin number in one of these columns. (Exactly true for the background-subtraction, location-Poisson, quantile and generic-loss regressors, the classifier and the dispersion model with Bayesian averaging; true up to a factor exp(6e-6) per iteration for the Poisson and negative binomial regressors; false for the location regressor, the generic classifier and the dispersion model without Bayesian averaging, where the contribution grows with the number of iterations.)", "quantifier": "all training sets without missing values in the feature, feature configurations, smoothers, learning rates between 0 and 1, numbers of iterations and rows", "why_tests_cant": "A test sees one training set and one number of iterations; that an unseen missing value is neutral is a claim over all of them.", "anchors": ["cyclic_boosting/features.py:Feature.update_factors", "cyclic_boosting/location.py:CBLocationRegressor.calibrate_to_weighted_mean", "cyclic_boosting/generic_loss.py:CBGenericLoss.calc_parameters", "cyclic_boosting/nbinom.py:calc_parameters_nbinom_c", "cyclic_boosting/classification.py:CBClassifier.calc_parameters", "cyclic_boosting/base.py:_predict_factors"]}
{"id": "C129", "title": "An interaction makes its components redundant and fits the mean of every cell", "statement": "For CBGBSRegressor without smoothing and without early stopping, on training data without missing values in the columns concerned: (a) features whose columns are all contained in another feature of the model (for example A next to the interaction (A, B)) do not change the predictions that long training converges to; (b) if one feature comprises the columns of all others and there are no prior predictions, the prediction of every training sample with weight converges to the weighted mean of the target over the training samples that agree with it in all these columns, whatever the regularization.", "quantifier": "every training set, every feature list, every regularization, every learning rate schedule that stays above a positive bound, every tolerance", "why_tests_cant": "It is about the limit of training and about all data sets; a test sees a few finite trainings.", "anchors": ["cyclic_boosting/base.py:CyclicBoostingBase._fit_main", "cyclic_boosting/GBSregression.py:CBGBSRegressor", "cyclic_boosting/utils.py:multidim_binnos_to_lexicographic_binnos"]}
{"id": "C130", "title": "Noise in the target is not amplified by the background-subtraction regressor", "statement": "Fit the background-subtraction regressor (learning rates in [0, 1], early stopping switched off, smoothers that turn combinations of bin values into combinations of smoothed values, e.g. none, and that do not increase the training error) twice on the same samples, weights and prior predictions, with two different targets. Then the weighted sum over the training samples of the squared differences of the two residuals is at most the weighted sum of the squared differences of the two targets, and that of the predictions is at most four times as large: however many features and iterations, a disturbance of the target never comes out of the training magnified beyond a factor of two in the weighted root mean square.", "quantifier": "every table, weights, pair of targets, prior predictions (absent or finite for the training samples), feature list, number of iterations, regularisation strength and learning-rate schedule in [0, 1]", "why_tests_cant": "it bounds the response to every possible disturbance of the target for every number of iterations; a test perturbs a few targets", "anchors": ["cyclic_boosting/GBSregression.py: CBGBSRegressor.calc_parameters", "cyclic_boosting/base.py: CyclicBoostingBase.fit", "cyclic_boosting/base.py: CyclicBoostingBase.predict"]}
{"id": "C131", "title": "Training of the background-subtraction regressor can be continued through prior predictions", "statement": "Fit the background-subtraction regressor with a constant learning rate in [0, 1] and early stopping switched off. Training for M iterations, handing the predictions of the resulting model to a second training on the same samples as the column of prior predictions, and training the second model for another N iterations gives the same predictions as a single training of M + N iterations, for every table, when the second model is given the predictions of the first one as prior predictions there too. So a long training can be interrupted, stored as two models and resumed without any change of the result.", "quantifier": "every table, target, non-negative weights, prior predictions, feature list, constant learning rate in [0, 1], regularisation strength, smoothers that never enlarge a bin value, numbers of iterations M, N >= 1, and every table and prior predictions to predict with", "why_tests_cant": "it equates the results of two different training histories for all splits of the iterations; a test compares one split on one table", "anchors": ["cyclic_boosting/base.py: CyclicBoostingBase._get_prior_predictions", "cyclic_boosting/base.py: CyclicBoostingBase._fit_main", "cyclic_boosting/base.py: CyclicBoostingBase.predict", "cyclic_boosting/GBSregression.py: CBGBSRegressor._init_global_scale"]}
{"id": "C132", "title": "Factor plots write the values of a bin under its factor", "statement": "In the plot of the factors of a one-dimensional feature whose bins come from a fitted binner, the label at the position where the factor of a bin is drawn is a value of that bin: for a categorical column the label at the position of a value's bin is that value, the factor for missing values has an empty label, and for a continuous column the label is the rounded middle of the bin. If several binners know the column, the last one's bins are shown.", "quantifier": "every column of raw values with or without missing values, weights, number of bins, binner parameters, list of binners, categorical or continuous feature with or without a flag for missing values", "why_tests_cant": "the positions, the labels and the bins are computed by three modules with different conventions (rank of the value, half-bin shift, bin for missing values); a test looks at one picture", "anchors": ["cyclic_boosting/utils.py: get_bin_bounds", "cyclic_boosting/plots/_1dplots.py: _get_x_axis", "cyclic_boosting/plots/_1dplots.py: _plot_axes", "cyclic_boosting/plots/_1dplots.py: _plot_smoothed_factors", "cyclic_boosting/plots/_1dplots.py: plot_factor_1d", "cyclic_boosting/binning/bin_number_transformer.py: BinNumberTransformer.get_feature_bin_boundaries"]}
{"id": "C133", "title": "Predictions are made row by row", "statement": "The prediction for a row depends on that row only: predicting a part of a table, a single row, the rows in another order or with repetitions gives for each row the prediction it has in the whole table, or the same exception. This holds for every estimator object, for the width regressor of the negative binomial model and for the elasticity model. For a pipeline with a binner, if the whole table can be predicted then so can every selection of its rows, with the same predictions, and if every row can be predicted on its own then the whole table can be.", "quantifier": "every fitted or unfitted estimator, configuration, table, prior predictions, and every choice of rows (subset, permutation, repetition)", "why_tests_cant": "a test compares a few splits of one table; the claim is for all selections of rows of all tables, including rows with missing and unseen values", "anchors": ["cyclic_boosting/base.py: CyclicBoostingBase.predict", "cyclic_boosting/base.py: CyclicBoostingBase.predict_extended", "cyclic_boosting/nbinom.py: CBNBinomC.predict", "cyclic_boosting/price.py: CBExponential.predict", "cyclic_boosting/binning/bin_number_transformer.py: BinNumberTransformer.transform"]}
{"id": "C134", "title": "The order of the columns of an interaction does not matter", "statement": "Listing the columns of a feature group in another order, with the default choice of smoothers or without smoothing, changes nothing for the user: the features are created or rejected alike, training ends the same way after the same number of iterations, and the models predict the same for every sample, including samples with missing or unseen values. (With the group-by choice the last column is the one smoothed along, so the order matters there.)", "quantifier": "every list of feature groups of distinct columns and every permutation of the columns inside the groups, feature properties, training table, target, weights, prior predictions, estimator, number of iterations, and every table and prior predictions to predict with", "why_tests_cant": "the numbers of all bins of the interaction change, so the smoothers, the calibration and the stopping rule see permuted arrays; a test compares one pair of orders", "anchors": ["cyclic_boosting/utils.py: multidim_binnos_to_lexicographic_binnos", "cyclic_boosting/features.py: create_features", "cyclic_boosting/features.py: Feature.bind_data", "cyclic_boosting/common_smoothers.py: SmootherChoiceWeightedMean", "cyclic_boosting/base.py: CyclicBoostingBase._fit_main", "cyclic_boosting/base.py: CyclicBoostingBase.predict"]}
{"id": "C135", "title": "A model predicts the same after it was stored and loaded again", "statement": "Pickling (or deep-copying) a fitted estimator and loading it again changes nothing for the user: it predicts the same for every table, including rows with missing values and values that training has not seen, raises the same exceptions, reports the same feature importances and required columns, and can be fitted again with the same result. This also holds for a pipeline of binner and estimator. The bin values are stored in a sparse format in which zeros are left out; NaN and infinite values are kept.", "quantifier": "every estimator, configuration, training table and target for which training succeeds, and every table and prior predictions to predict with", "why_tests_cant": "which bin values vanish from the stored form depends on the data; a test stores a few models", "anchors": ["cyclic_boosting/smoothing/onedim.py: BinValuesSmoother.__getstate__", "cyclic_boosting/smoothing/onedim.py: BinValuesSmoother.__setstate__", "cyclic_boosting/smoothing/multidim.py: BinValuesSmoother.__getstate__", "cyclic_boosting/smoothing/multidim.py: BinValuesSmoother.__setstate__", "cyclic_boosting/features.py: Feature.prepare_feature", "cyclic_boosting/base.py: CyclicBoostingBase.predict"]}
{"id": "C136", "title": "Stopping criteria only decide when training stops", "statement": "Estimators that differ only in maximal_iterations, minimal_factor_change and minimal_loss_change go through the same sequence of models; the criteria only decide at which of them training ends. So: if a fit ended before reaching maximal_iterations, the same fit with any other maximal_iterations that is at least the number of iterations made gives the same estimator; looser tolerances and a smaller maximal_iterations never lead to more iterations; two fits that made the same number of iterations give the same estimator; and a fit that was given up because of growing loss is also given up with stricter tolerances or more iterations. The learning rate must not depend on maximal_iterations (a learning rate given by the user, or hierarchical feature groups); the default learning rate does depend on it.", "quantifier": "all estimators (including price models and the dispersion regressor), all constructor arguments with such a learning rate, all training tables and targets, all pairs of stopping criteria", "why_tests_cant": "A test compares two settings of the stopping criteria on one data set; that no training anywhere looks at the limit except to stop, and that divergence handling does not interact with it, is a statement about all trainings and all pairs of limits.", "anchors": ["cyclic_boosting/base.py:_fit_main", "cyclic_boosting/base.py:_check_stop_criteria", "cyclic_boosting/base.py:_check_convergence", "cyclic_boosting/learning_rate.py"]}
{"id": "C137", "title": "The names of columns do not matter", "statement": "Suppose the columns of all tables are renamed, and the constructor arguments name the same columns by their new names (feature groups, feature properties, explicit smoothers, hierarchical feature groups, weight column, prior prediction column, output column). Then construction, fit, predict and transform do the same as before: they raise the same exceptions, training makes the same number of iterations and finds the same factors, and the predictions and stored feature importances are the same numbers. Only get_feature_importances can differ, as it joins the names of a group with underscores.", "quantifier": "every one-to-one renaming of columns, every configuration, table, target, state of the estimator and bound on the iterations; all regressors and classifiers including the price models", "why_tests_cant": "A test compares a few names; a special treatment of one name, or a name that is not looked up where it should be, shows only for other names.", "anchors": ["cyclic_boosting/base.py:CyclicBoostingBase._init_default_feature_groups", "cyclic_boosting/base.py:CyclicBoostingBase._fit_main", "cyclic_boosting/flags.py:read_feature_property", "cyclic_boosting/common_smoothers.py:SmootherChoice.choice_fct", "cyclic_boosting/features.py:create_features", "cyclic_boosting/utils.py:get_X_column"]}
{"id": "C138", "title": "The reasons why fit can fail are a closed list", "statement": "fit succeeds exactly if none of the following holds: the table has no rows; a target is not valid for the estimator; the weight column, the prior prediction column or a column of a feature group is missing; no smoother can be chosen for a feature group; the starting value (mean or quantile of the target) is not finite in link space; there are features but the stopping criteria are met before the first iteration; the training loss exceeds twice the loss of the prior prediction while only hierarchical feature groups are learned and there are other features; or it does so in five iterations. Otherwise the exception is the one that belongs to one of the reasons that hold. For the mean regressors of the package the starting value is finite for all valid targets and weights that are not negative and not all zero, for classifiers exactly if the weighted share of ones is below 0.999. So, without hierarchical groups and with well-formed arguments, and no division by zero in the estimates (C157), a ConvergenceError is the only way a mean regressor can fail. The binner of a pipeline fails, always with a ValueError, exactly if the table has no rows or no columns, a column has an inconsistent feature property, or a continuous column that holds a number is to be cut into fewer than two bins; otherwise the pipeline ends as the estimator does on the table of bin numbers.", "quantifier": "all estimators, configurations, tables, targets, weights, smoothers, states of the estimator object and training histories", "why_tests_cant": "Tests try single failures. That there is no other way to fail, for any data and any course of the training, is a statement about all executions.", "anchors": ["cyclic_boosting/base.py:CyclicBoostingBase.fit", "cyclic_boosting/base.py:CyclicBoostingBase._fit_main", "cyclic_boosting/base.py:CyclicBoostingBase._check_convergence", "cyclic_boosting/base.py:CyclicBoostingBase.remove_preds", "cyclic_boosting/base.py:CyclicBoostingBase._init_global_scale", "cyclic_boosting/features.py:create_features", "cyclic_boosting/binning/bin_number_transformer.py:BinNumberTransformer.fit"]}
{"id": "C139", "title": "Rounding errors do not pile up in the predictions", "statement": "In floating-point arithmetic, where every sum and difference has a relative error of at most u, predict on the training table reproduces the in-sample prediction of fit in link space up to ((1+u)^(F(6n+1)) - 1) times the largest possible size of the prediction, |prior| + 2FL, for F features, n iterations and stored factors of at most L; as long as F(6n+1)u is at most 1/2 this is at most 2F(6n+1)u times that size, so rounding errors grow linearly with the length of the training. The same bound (without the final summation) holds for the running prediction and the stored factors at every moment of the training, also when iterations diverge and are rolled back. It does not matter how the estimates, smoothers, losses and learning rates round. For estimators with logarithmic link whose training does not diverge, L can be taken as twice the clipping limit of the factors, so the bound is known in advance.", "quantifier": "all machine arithmetics with relative errors up to u <= 1/2, tables, features, estimates, smoothers, losses, learning rates, priors and training histories in aggregate mode", "why_tests_cant": "A test compares a few fits with np.allclose; it cannot exclude that errors accumulate over long trainings, many features or rolled back iterations.", "anchors": ["cyclic_boosting/base.py:CyclicBoostingBase._fit_main", "cyclic_boosting/base.py:CyclicBoostingBase.feature_iteration", "cyclic_boosting/base.py:CyclicBoostingBase.visit_factors", "cyclic_boosting/base.py:CyclicBoostingBase.remove_preds", "cyclic_boosting/base.py:CyclicBoostingBase.predict_extended", "cyclic_boosting/base.py:UpdateMixin"]}
{"id": "C140", "title": "The binner as an object with a history", "statement": "A binner that was not fitted raises RuntimeError. A fit forgets all fits before it. After a fit that raised, transform raises ValueError for every table with at least as many columns to be binned. After a fit that did not raise (positive weights, non-negative tolerance), transform raises ValueError if the number of columns to be binned is another one than in the fit, otherwise KeyError if a fitted column is missing, and otherwise returns a table whose columns to be binned hold the bin numbers of the last fit and whose other columns are as they were. No table is changed by any history of calls, except the one passed to transform if inplace was asked for.", "quantifier": "all settings of the binner, weight columns, histories of fits and transforms (including failing ones), and all tables in memory", "why_tests_cant": "the state of the object after any history of successful and failing calls, and aliasing between tables, cannot be enumerated", "anchors": ["cyclic_boosting/binning/bin_number_transformer.py:BinNumberTransformer.transform", "cyclic_boosting/binning/ecdf_transformer.py:ECdfTransformer.fit", "cyclic_boosting/binning/ecdf_transformer.py:ECdfTransformer._check_input_for_transform"]}
{"id": "C141", "title": "Arrays are binned like tables", "statement": "For an array, transform of a fitted binner gives the same bin numbers as for the table with the same columns.", "quantifier": "all settings of the binner, training tables, arrays and element types of arrays", "why_tests_cant": "holds or fails depending on the element type of the array and on the number of bins that come out of the training data", "anchors": ["cyclic_boosting/binning/bin_number_transformer.py:BinNumberTransformer.transform", "cyclic_boosting/binning/bin_number_transformer.py:column_setter"]}
{"id": "C142", "title": "Cumulative probabilities are computed without changing the input", "statement": "ECdfTransformer.transform leaves the table or array that it is called with unchanged.", "quantifier": "all settings, training data, arrays and all other arrays in memory", "why_tests_cant": "aliasing between the caller's array and the result depends on its element type", "anchors": ["cyclic_boosting/binning/ecdf_transformer.py:ECdfTransformer.transform"]}
{"id": "C143", "title": "Predictions do not extrapolate and are constant between training values", "statement": "After fitting the pipeline of binner and model, the prediction as a function of a continuous column is a step function. All values that are at least as large as every training value of the column get the same prediction, and all values not larger than any training value get the same prediction. Two values with no training value between them, up to a small part of the width of the data, get the same prediction.", "quantifier": "every training table, every number of bins and tolerance, every model and configuration, every pair of rows that differ only in one continuous column", "why_tests_cant": "A test looks at some values outside of the training range; the claim is about all values, all training data and all models.", "anchors": ["cyclic_boosting/binning/bin_number_transformer.py:BinNumberTransformer.transform", "cyclic_boosting/binning/_utils.py:get_column_values", "cyclic_boosting/base.py:CyclicBoostingBase.predict", "cyclic_boosting/pipelines.py"]}
{"id": "C144", "title": "Every estimator refuses exactly the targets it is not made for", "statement": "Models with log link, the dispersion model and the price model need targets that are not negative, classifiers need targets 0 and 1, additive models take every number. If a target violates this, fit raises a ValueError and the estimator stays as it was, including what it learned in earlier fits. (The dispersion model keeps the means of the refused table, which has no effect on its predictions.) No other targets are refused: what fit says before training does not depend on targets that are in the domain.", "quantifier": "every estimator, every configuration, every table and target, every state of the estimator object", "why_tests_cant": "The refusal has to come before any change of the object, for every state it may be in and every position of the bad target.", "anchors": ["cyclic_boosting/base.py:CyclicBoostingBase._init_fit", "cyclic_boosting/regression.py:CBBaseRegressor._check_y", "cyclic_boosting/classification.py:CBClassifier._check_y", "cyclic_boosting/generic_loss.py", "cyclic_boosting/location.py", "cyclic_boosting/nbinom.py:CBNBinomC._check_y"]}
{"id": "C145", "title": "Splitting with smoothers that keep the values of bins keeps the values of bins", "statement": "A SectionSmoother with two BinValuesSmoothers predicts for every bin the value of the bin. (False above the split point: the upper smoother numbers its bins from 0 on, so that a bin gets the value of a bin further up, or NaN. Proved for the bins up to the split point, and what happens above it is proved exactly.)", "quantifier": "every number of bins, every split point, all values and weights", "why_tests_cant": "The two parts have to fit together for every position of the split; a test with smoothers that use the position of the bins does not see the shift.", "anchors": ["cyclic_boosting/smoothing/meta_smoother.py:SectionSmoother", "cyclic_boosting/smoothing/onedim.py:PredictingBinValueMixin"]}
{"id": "C146", "title": "The number of threads and their interleaving do not change the dispersion model", "statement": "The dispersion model evaluates the losses of its candidates in parallel threads. Whatever the number of threads, the distribution of the work over them, and the order in which they run, the losses and hence the fitted dispersion offsets are the same, bit by bit; no two threads ever write to the same place, no schedule gets stuck, and none goes on forever. The mean loss that decides when training stops is the same in exact arithmetic, and differs with rounding only within the bound of the rounding errors of a sum.", "quantifier": "all numbers of threads, all distributions of candidates and samples over threads, all interleavings of their steps, all contents of memory before, all data, all additions and loss functions", "why_tests_cant": "A test runs a handful of the schedules on one machine; the claim is about all interleavings.", "anchors": ["cyclic_boosting/nbinom.py:compute_2d_loss", "cyclic_boosting/nbinom.py:loss_nbinom_c", "cyclic_boosting/nbinom.py:calc_parameters_nbinom_c"]}
{"id": "C147", "title": "The exponent search approaches the root", "statement": "newton_bisect is documented as a combination of Newton's method and bisection. For every bin whose derivative changes its sign at a root within 1024 times the given right bound: the returned bracket contains the root; Newton's step is used whenever it is inside of the bracket, so that the root itself is returned for a quadratic objective unless all bins were content with their start values; when Newton's step points out of the bracket, every iteration halves the distance to the root until all bins are content; and the result never lies on the far side of the start value as seen from the root.", "quantifier": "all derivative, Hessian and Newton-step functions with a sign change in the bin, all brackets, start values, tolerances, numbers of bins and iterations", "why_tests_cant": "Depends on every answer of the passed function over all iterations and on all other bins, which decide when the loop stops.", "anchors": ["cyclic_boosting/price.py:newton_bisect", "cyclic_boosting/price.py:_set_right_bound"]}
{"id": "C148", "title": "Monotonic smoothing changes the factors as little as possible", "statement": "For a monotonic feature with a direction and the smoother chosen by the library, the smoothed factors of an iteration are in the requested order and no other factors in this order are closer to the estimates, with one over the squared uncertainty as weights. Hence estimates that are in order already are not changed, their weighted mean is kept, the smoothed factors stay in the range of the estimates, and if the truth is in the requested order they are never farther from the truth than the estimates were.", "quantifier": "all estimates, positive uncertainties, weights and numbers of bins, both directions, all smoother choices without explicit smoother (with and without normalization and regression type)", "why_tests_cant": "A statement about all monotone alternatives and all inputs.", "anchors": ["cyclic_boosting/smoothing/onedim.py:IsotonicRegressor", "cyclic_boosting/common_smoothers.py:SmootherChoice", "cyclic_boosting/smoothing/meta_smoother.py:NormalizationSmoother"]}
{"id": "C149", "title": "The quantile chain trains each model on its own side of the median", "statement": "After QPD_RegressorChain.fit succeeds, the median estimator has been trained on all rows, the lower-quantile estimator exactly on the rows below their predicted median and the upper-quantile estimator exactly on the rows above it, each in the order of the table and with targets that stand for y; if half of the rows lie below the median and the share 2*alpha of the lower model's rows lies below its output, the share alpha of all rows lies below the predicted lower quantile; fit succeeds whenever both sides have a row; predict never returns crossing quantiles.", "quantifier": "all estimator objects (any state, any fit and predict), all tables with targets inside the range, all bounds with a lower bound that is not negative, both modes", "why_tests_cant": "Tests use one estimator and one data set; the claim is about every combination of three arbitrary, stateful estimators and every table.", "anchors": ["cyclic_boosting/quantile_matching.py:QPD_RegressorChain.fit", "cyclic_boosting/quantile_matching.py:QPD_RegressorChain.predict"]}
{"id": "C150", "title": "Evaluating many distributions and levels at once equals evaluating them one by one", "statement": "ppf and cdf of the quantile-parameterized distributions, called for several samples and several levels, return for level i and sample j exactly what that sample's distribution alone returns for that level alone; an axis of length one is dropped, so that one level gives one entry per sample, one sample one entry per level, and one level of one sample a plain number; with inner=True entry i is level i of sample i and the call fails exactly if the numbers differ and neither is one; the distributions returned by a chain for at least two rows give back the three predicted quantiles row by row.", "quantifier": "all numbers of samples and levels, all distributions, all levels", "why_tests_cant": "The shape rules (outer product, broadcasting, squeezing) depend on the sizes; tests fix a few sizes.", "anchors": ["cyclic_boosting/quantile_matching.py:J_QPD_S.ppf", "cyclic_boosting/quantile_matching.py:J_QPD_S.cdf", "cyclic_boosting/quantile_matching.py:J_QPD_B.ppf", "cyclic_boosting/quantile_matching.py:J_QPD_B.cdf"]}
{"id": "C151", "title": "Single-feature Poisson models converge to a known value, at a known rate", "statement": "For a Poisson regression (CBPoissonRegressor) with one feature, fitted without prior: the prediction of a group of samples (bin) whose estimates are not smoothed lies between the overall mean plus 0.001 and the number (median of the gamma distribution with shape total + 2, minus 1.67834) / weight, where total is the weighted target of the group and weight its weight. In every iteration the logarithmic distance to that number shrinks by a factor of at most 1 - delta, where delta depends on the learning rate and on the weight of the group. So for every tolerance there is a number of iterations after which every longer training, whatever stops it, is within the tolerance. The limit is not quite the mean of the group: it lies between 0.012/weight below and 0.322/weight above it.", "quantifier": "all training sets with non-negative weights and targets, all groups within the numeric limits of the estimator (factors and sums not clipped), all numbers of iterations and learning rates in [0,1] with a positive lower bound, in every fit that does not diverge", "why_tests_cant": "A statement about the limit of arbitrarily long trainings and about the rate for all of them; a test sees finitely many iterations.", "anchors": ["cyclic_boosting/regression.py:CBPoissonRegressor", "cyclic_boosting/base.py:CyclicBoostingBase.fit", "cyclic_boosting/base.py:CyclicBoostingBase.predict"]}
{"id": "C152", "title": "Listing the feature columns leaves out exactly the excluded ones", "statement": "get_feature_column_names returns the columns of the table that are not among the excluded names, in the order of the table. Excluded names that are no columns, or are given twice, do not matter.", "quantifier": "all tables (lists of column names) and all lists of excluded names; the exact list holds for tables with distinct names, the count of every name for all tables", "why_tests_cant": "Holds for all lists of names, including repeated and unknown ones.", "anchors": ["cyclic_boosting/utils.py:get_feature_column_names"]}
{"id": "C153", "title": "Single-feature background-subtraction models have a closed form", "statement": "For a CBGBSRegressor with one feature, fitted without prior: the prediction for a sample of a group (bin) whose estimates are not smoothed is the mean target of the group plus the distance from there to the overall mean, multiplied for every iteration k with 1 - rate_k * weight / ((1 + alpha) * weight + 1), where rate_k is the learning rate, weight the total weight of the group and alpha the regularisation. So the prediction approaches the mean of the group geometrically. Larger targets never lead to smaller predictions: a training with the same settings and as many iterations on targets that are all at least as large predicts at least as much for each of these samples.", "quantifier": "all training sets with non-negative weights, all groups of positive weight, numbers of iterations, learning rates in [0,1] and regularisations alpha >= 0", "why_tests_cant": "An exact formula for every training set and every number of iterations.", "anchors": ["cyclic_boosting/GBSregression.py:CBGBSRegressor", "cyclic_boosting/base.py:CyclicBoostingBase.fit", "cyclic_boosting/base.py:CyclicBoostingBase.predict"]}
{"id": "C154", "title": "Single-feature additive quantile models predict the quantile of every group", "statement": "For a CBAdditiveQuantileRegressor with one feature, fitted without prior and with an optimiser that finds minima: as soon as one iteration used the learning rate 1, the prediction for every sample of a group (bin) whose estimates are not smoothed is a quantile of the targets in that group: targets below the prediction have at most the desired share of the weight of the group, targets up to the prediction at least that share. With smaller learning rates every iteration leaves at most the share 1 - learning rate of the distance to such a quantile.", "quantifier": "all training sets with non-negative weights, groups of positive weight, quantiles in [0,1], numbers of iterations and learning rates in [0,1]", "why_tests_cant": "Holds for all training sets and lengths of training; ties and weights make quantiles ambiguous, and a test fixes one case.", "anchors": ["cyclic_boosting/generic_loss.py:CBAdditiveQuantileRegressor", "cyclic_boosting/generic_loss.py:quantile_costs", "cyclic_boosting/base.py:CyclicBoostingBase.fit"]}
{"id": "C155", "title": "Single-feature additive models minimise the costs of every group", "statement": "For a CBAdditiveQuantileRegressor, or a CBAdditiveGenericCRegressor whose costs are the weighted mean of a convex loss, with one feature, fitted without prior and with an optimiser that finds minima: as soon as one iteration used the learning rate 1, no other common prediction for the samples of a group (bin) whose estimates are not smoothed has lower costs than the prediction of the model. With smaller learning rates every iteration leaves at most the share 1 - learning rate of what the costs of the group exceed their minimum by.", "quantifier": "all convex losses, training sets with non-negative weights, groups of positive weight whose costs have a minimum, numbers of iterations and learning rates in [0,1]", "why_tests_cant": "Holds for every convex loss a user may pass and for all training sets.", "anchors": ["cyclic_boosting/generic_loss.py:CBAdditiveGenericCRegressor", "cyclic_boosting/generic_loss.py:CBAdditiveQuantileRegressor", "cyclic_boosting/generic_loss.py:CBGenericLoss", "cyclic_boosting/base.py:CyclicBoostingBase.fit"]}
{"id": "C156", "title": "Single-feature multiplicative models minimise the costs of every group", "statement": "For a CBMultiplicativeQuantileRegressor, or a CBMultiplicativeGenericCRegressor whose costs are the weighted mean of a convex loss, with one feature, fitted without prior and with an optimiser that finds minima: if all common predictions that minimise the costs of a group (bin) whose estimates are not smoothed are positive and within the documented bounds for factors, training with learning rate 1 ends with a prediction of minimal costs as soon as there were as many iterations as factors of 2 between the start and such a prediction. For the quantile regressor this is a quantile of the targets in that group, and it suffices that the targets are within these bounds. With smaller learning rates every iteration brings the logarithm of the prediction closer to that of an optimal prediction by a constant share.", "quantifier": "all convex losses, training sets with non-negative weights, groups of positive weight whose costs have a minimum, numbers of iterations and learning rates in [0,1]", "why_tests_cant": "Holds for every convex loss a user may define, for all training sets and any number of iterations; the limits for single updates and for factors act only for some data.", "anchors": ["cyclic_boosting/generic_loss.py:CBMultiplicativeQuantileRegressor", "cyclic_boosting/generic_loss.py:CBGenericLoss.calc_parameters", "cyclic_boosting/base.py:CyclicBoostingBase.visit_factors"]}
{"id": "C157", "title": "The estimates of every bin are numbers", "statement": "While an estimator is trained on targets it accepts, with weights that are not negative, the parameters and uncertainties it computes for the bins of a feature are finite numbers in every bin, including bins without samples, without weight and with only zero targets, whatever the other features predict. Exceptions, in which the code divides by zero: CBNBinomRegressor unless a is positive and c not negative; CBGBSRegressor with a regularisation below -1; CBLocationRegressor, where a bin all of whose samples have weight 0 gets NaN; CBLocPoissonRegressor, where a target that is constant over the samples with weight gives NaN in every bin.", "quantifier": "all training sets with valid targets and non-negative weights, all bins, all predictions of the other features, all parameters of the estimators", "why_tests_cant": "The divisions, logarithms and square roots depend on sums over arbitrary bins; empty bins, bins without weight and constant targets are combinations that samples rarely contain.", "anchors": ["cyclic_boosting/regression.py:_calc_factors_and_uncertainties", "cyclic_boosting/classification.py:CBClassifier.calc_parameters", "cyclic_boosting/location.py:precalc_variance_y", "cyclic_boosting/location.py:CBLocPoissonRegressor._regularize_summands", "cyclic_boosting/GBSregression.py:CBGBSRegressor.calc_parameters"]}
{"id": "C158", "title": "The uncertainties of bins are positive and fall with the amount of data", "statement": "The uncertainty that a fit assigns to a bin, by which the smoothers weigh the bin, is positive also for bins without samples, for every regressor and classifier but the background subtraction. For Poisson regression it lies between 1/sqrt(S+3) and 1/sqrt(S+2) with the weighted sum S of the targets in the bin, so a bin with more events is more certain; for negative binomial regression and multiplicative losses likewise, for location regression with samples of weight 1 it is 1/sqrt(m/v + 1/100) with m samples and the variance estimate v, at most 10. For the Poisson location regressor it is 1 for every bin with samples of weight 1, whatever their number, and for background subtraction it is 0 exactly for the bins that are fitted exactly. For additive losses it is NaN exactly if the bin has samples, all of weight 0.", "quantifier": "for all training sets with valid targets and weights that are not negative, bins, predictions without the feature, iterations and loss functions", "why_tests_cant": "A bound for all data; tests see a few bins, and an uncertainty of 0 or one that does not depend on the data changes no result that a test compares.", "anchors": ["cyclic_boosting/regression.py:_calc_factors_and_uncertainties", "cyclic_boosting/location.py:CBLocPoissonRegressor.calc_parameters", "cyclic_boosting/location.py:calc_parameters_intercept", "cyclic_boosting/GBSregression.py:CBGBSRegressor.calc_parameters", "cyclic_boosting/generic_loss.py:uncertainty_gamma", "cyclic_boosting/generic_loss.py:uncertainty_gaussian", "cyclic_boosting/generic_loss.py:uncertainty_beta"]}
{"id": "C159", "title": "Features are found by the names they were declared with, and explicit smoothers are used for them", "statement": "After a fit a feature can be looked up under every name for it: the name it was declared with, the tuple of its columns (for one column also the plain name), or its id; what is found is the first feature with these columns and this type, and a KeyError is raised exactly if there is none. External features are found only with their type. The listing of the smoothers agrees with the lookup. A smoother choice accepts explicit smoothers exactly if the keys are tuples of strings and the values smoothers, and then uses them for the features with these columns, however those were declared.", "quantifier": "for all lists of declared features (plain names, tuples, ids of any type, also several with the same columns), names that are looked up, and dictionaries of explicit smoothers", "why_tests_cant": "Ranges over all combinations of forms of declaration and lookup; tests try a few.", "anchors": ["cyclic_boosting/features.py:FeatureList.__getitem__", "cyclic_boosting/features.py:FeatureList.get_feature", "cyclic_boosting/features.py:create_feature_id", "cyclic_boosting/features.py:create_features", "cyclic_boosting/base.py:CyclicBoostingBase.get_subestimators_as_items", "cyclic_boosting/common_smoothers.py:SmootherChoice._validate_explicit_smoothers"]}
{"id": "C160", "title": "With squared costs the generic additive regressor converges to the least-squares fit", "statement": "If nothing smooths the bins that have weight, learning rates are at least some positive number and at most 1, and the optimiser finds minima where there are any, then the additive generic-cost regressor with the squared error as costs converges: for each table of features and weights there is a rate below 1, the same for all targets, stopping rules and numbers of iterations, such that the weighted squared distance of the predictions on the training data to those of the best additive model (prediction before training plus one number per bin of each feature) is at most the rate to the power of the iterations times the distance before training, and the same holds for the training error in excess of the smallest one possible. With early stopping switched off the predictions come arbitrarily close to the best additive model as the maximal number of iterations grows. So long trainings of this regressor and of the GBS regressor with any regularization end in the same predictions.", "quantifier": "all training sets with non-negative weights and no prior predictions, all lists of at least one feature, all learning rates, all optimisers that find minima and are never worse than their start value, all stopping rules and numbers of iterations", "why_tests_cant": "Convergence is a statement about the limit over all numbers of iterations, for all data sets; tests look at a few data sets after a few iterations.", "anchors": ["cyclic_boosting/generic_loss.py:CBAdditiveGenericCRegressor", "cyclic_boosting/generic_loss.py:CBGenericLoss.calc_parameters", "cyclic_boosting/base.py:CyclicBoostingBase._fit_main", "cyclic_boosting/base.py:CyclicBoostingBase.cb_features"]}
{"id": "C161", "title": "Quantile predictions in the order of the levels", "statement": "Additive quantile regressions trained on the same data for two levels predict, for every training sample, at most as much for the lower level as for the higher one.", "quantifier": "all data, levels, optimisers that find minima, learning rates and training samples", "why_tests_cant": "crossing quantiles appear only for particular data, level pairs and feature orders", "anchors": ["cyclic_boosting/generic_loss.py: CBAdditiveQuantileRegressor", "cyclic_boosting/utils.py: continuous_quantile_from_discrete_pdf"]}
{"id": "C162", "title": "Columns are picked by their name or position", "statement": "Columns requested from a data frame by name or from an array by position, alone, in a list or in a tuple, are exactly the columns meant, in the requested order; the request fails exactly if a label is unknown; the order of the columns of a frame does not matter; and the position computed for a name is that of the named column.", "quantifier": "all frames and arrays, labels (including negative positions), lists and tuples of labels and both output shapes", "why_tests_cant": "tests use a few tables; containers, shapes, duplicate names and negative positions combine freely", "anchors": ["cyclic_boosting/utils.py: get_X_column", "cyclic_boosting/binning/ecdf_transformer.py: get_X_column", "cyclic_boosting/binning/_utils.py: get_column_index", "cyclic_boosting/binning/bin_number_transformer.py: column_selector"]}
{"id": "C163", "title": "Long training reaches the best additive fit", "statement": "Additive quantile regression, and additive regression with a convex loss, trained with full steps and without smoothing, ends with training costs that no model built from one value per bin of every feature can undercut.", "quantifier": "all data, weights, levels, convex losses, optimisers that find minima and numbers of iterations", "why_tests_cant": "a test sees the costs after training, not the costs of all other models, and the data that stop training early are rare", "anchors": ["cyclic_boosting/generic_loss.py: CBAdditiveQuantileRegressor", "cyclic_boosting/generic_loss.py: CBAdditiveGenericCRegressor", "cyclic_boosting/base.py: CyclicBoostingBase.feature_iteration"]}
{"id": "C164", "title": "Array searches may write into their input", "statement": "The searches of whole arrays (equality, first greater element, interpolation) may be given the input array as output array, or one without common cells: they succeed exactly if the lengths match and every single search succeeds, the output then holds the results for the original input, and nothing else in memory changes. The transformation to cumulative probabilities, which overwrites the columns of a matrix one after the other, therefore gives for every fitted column the values of the original entries and leaves all other columns alone.", "quantifier": "all memory contents, arrays with any offset and stride, matrices of any size in either storage order, lists of columns and tables", "why_tests_cant": "whether a loop reads what it has overwritten depends on how arrays share memory, which tests vary little", "anchors": ["cyclic_boosting/binning/_binary_search.py: eq_multi", "cyclic_boosting/binning/_binary_search.py: ge_multi", "cyclic_boosting/binning/_binary_search.py: le_interp_multi", "cyclic_boosting/binning/ecdf_transformer.py: ECdfTransformer.transform"]}
{"id": "C165", "title": "Binning a column is binning its values", "statement": "The bin numbers of a column are, row by row, the bin numbers of the values alone: neither missing values nor other rows shift or change them. Picking rows before or after binning is the same, and the binning of a column fails exactly if it fails for one of its values.", "quantifier": "all columns of finite, missing, infinite and magic values of any length, boundaries, tolerances and feature properties", "why_tests_cant": "masks shift results only for particular patterns of missing values, and the patterns are unbounded", "anchors": ["cyclic_boosting/binning/bin_number_transformer.py: BinNumberTransformer._transform_one_feature"]}
{"id": "C166", "title": "A trained estimator keeps no per-sample data", "statement": "After a fit, no attribute of the estimator or of its features refers to an array with one entry per training sample (weights, mean predictions, external column, bin numbers), so that a stored model does not contain the training data; a prediction leaves nothing of its table either. This holds for all estimators but the price model, without observers and as long as no fit raised; a fit that raises leaves data, some of it even after a later fit, the price model keeps the weights of the training and the prices of the last prediction, and an observer keeps the binned training samples.", "quantifier": "all histories of fits and predictions on any tables, with any number of features and iterations, diverging or not, each call possibly raising between any two steps", "why_tests_cant": "A test looks at an estimator after one fit; the property covers every history of calls and every point at which a call raises.", "anchors": ["cyclic_boosting/base.py:_fit_predict", "cyclic_boosting/base.py:_fit_main", "cyclic_boosting/base.py:set_feature_importances", "cyclic_boosting/base.py:remove_preds", "cyclic_boosting/features.py:clear_feature_reference", "cyclic_boosting/nbinom.py:fit", "cyclic_boosting/price.py:fit", "cyclic_boosting/price.py:predict_extended", "cyclic_boosting/observers.py:PlottingObserver"]}
{"id": "C167", "title": "Plots leave the plotting environment as it was", "statement": "A plot function with the style of the package restores all settings of matplotlib (but the backend), whatever it does and also if it raises. An analysis closes its file in any case and keeps the settings; if it completes, the file has a page for the predictions (not for dispersions), one for every feature in order, and one for the losses. A grid of factor plots gives every feature a cell of its own. Figures of the user should stay open and no others: this does not hold, an analysis that completes closes all figures and one that raises leaves its own open.", "quantifier": "all plot functions, settings, open figures, numbers of features and columns, and all points at which a plot raises", "why_tests_cant": "A test looks at one plot with the settings of the test; the property covers every setting, every open figure and every point of failure.", "anchors": ["cyclic_boosting/plots/__init__.py:plot_analysis", "cyclic_boosting/plots/__init__.py:plot_factors", "cyclic_boosting/plots/plot_utils.py:_nbpy_style", "cyclic_boosting/utils.py:generator_to_decorator"]}
{"id": "C168", "title": "Fits and predictions do not change the table of the caller", "statement": "Fitting an estimator and predicting with it leaves every column of the table as it was, although weights, prior predictions, means, prices and prior exponents are read without copying them. This holds for all estimators but the dispersion model, which clips the prior predictions in the table of the caller to values from 0 to 1 and changes nothing else. A call gives the same predictions after any number of earlier calls with the same table.", "quantifier": "all tables, histories of fits and predictions with a table, and whatever is computed from the columns", "why_tests_cant": "A test compares one table before and after one call; the property covers every table and every history of calls, whatever is computed in between.", "anchors": ["cyclic_boosting/base.py:_init_weight_column", "cyclic_boosting/base.py:_get_prior_predictions", "cyclic_boosting/nbinom.py:_get_prior_predictions", "cyclic_boosting/price.py:_init_external_column", "cyclic_boosting/utils.py:get_X_column"]}
{"id": "C169", "title": "Predictions with one estimator may run at the same time", "statement": "Threads that call `predict` of the same fitted estimator at the same time, each with its own table, get the predictions each of them would get alone, however their steps interleave, and none waits for another. This holds for all estimators but the price model, which keeps the prices of the table in an attribute of the estimator: there it holds for a thread that is not interrupted, and if all tables have the same prices without missing ones.", "quantifier": "all estimators, all numbers of threads, tables and prices (also missing ones) and all schedules of the steps", "why_tests_cant": "Races appear only under particular interleavings, which a test does not control.", "anchors": ["cyclic_boosting/price.py: _init_external_column, predict_extended", "cyclic_boosting/base.py: CyclicBoostingBase.predict, predict_extended"]}
{"id": "C170", "title": "Plots of interactions show the means of the factors and leave the feature as it was", "statement": "The two marginal distributions in the plot of a feature with two columns have one value for every bin of the column: the logarithm of the weighted mean of the exponentials of the factors with that bin, empty bins counting as weight one; it lies between factors of these bins. The colours cover all factors. Drawing again shows the same. Plotting does not change the weights of bins that have samples or of the bin of missing values (it does change those of empty bins).", "quantifier": "all numbers of bins of the two columns, all non-negative bin weights and all factors", "why_tests_cant": "The range of values, the empty bins and the memory shared with the feature depend on the data; tests of plots only check that they run.", "anchors": ["cyclic_boosting/plots/_2dplots.py: plot_factor_2d, plot_marginal, extremal_factor"]}
{"id": "C171", "title": "Smoothing of continuous features does not depend on how the bin numbers are stored", "statement": "The meta smoother with the polynomial smoother for continuous features gives the values of the polynomial for bin numbers in range, no value for those out of range, and leaves the array it is given unchanged, whatever the type of its numbers and its layout in memory. This holds if the numbers are not 64 bit floats or their rows are not adjacent in memory, and for all arrays if all bin numbers are in the range of the fit, as in training; otherwise the array is limited in place and rows out of range get the value at the border. Repeating the call gives the same.", "quantifier": "all fitted polynomials, all bin numbers (also missing and infinite ones), all types and memory layouts", "why_tests_cant": "Whether numpy copies an array depends on its type and layout, which tests rarely vary.", "anchors": ["cyclic_boosting/smoothing/onedim.py: OrthogonalPolynomialSmoother.predict", "cyclic_boosting/smoothing/meta_smoother.py: RegressionTypeSmoother.apply_cut, NormalizationRegressionTypeSmoother.predict"]}
{"id": "C172", "title": "Error bars show the range of a factor", "statement": "In the plot of a feature with one column every factor is drawn on the scale of the predictions, its error bar goes from the lower to the upper end of its uncertainty range on this scale, so that bars of classifiers stay within 0 and 1, and the curves of target and prediction have one point per bin. This holds for additive models and classifiers; multiplicative models draw the uncertainties in link space. The curves have an additional point if there is a single bin.", "quantifier": "all link functions, factors, non-negative uncertainties and numbers of bins", "why_tests_cant": "The distortion depends on the size of the factors and uncertainties; tests of plots only check that they run.", "anchors": ["cyclic_boosting/plots/_1dplots.py: plot_factor_1d"]}
{"id": "C173", "title": "Predictions after a fit that did not finish", "statement": "If a fit does not finish (the user interrupts it, an observer raises, or it ends with a ConvergenceError), later calls of predict either raise an exception or give the predictions that training has reached. This holds if the fit ends before its first iteration has reached the last feature (predict raises, also after an earlier fit that succeeded), if it ends after the loop (predict works as after a complete fit), and for estimators with aggregate=False that have not diverged and are interrupted between two features in a later iteration. It is false for the default aggregate=True: without an exception, predict gives the prior prediction changed by the last iteration alone, so that a training that has converged predicts the mean for all samples.", "quantifier": "every point of the training at which it can be interrupted, every estimator and smoother, every table", "why_tests_cant": "It quantifies over the crash points of a loop without a bound on its iterations; a test interrupts at one of them.", "anchors": ["cyclic_boosting/base.py:CyclicBoostingBase._fit_main", "cyclic_boosting/base.py:CyclicBoostingBase.feature_iteration", "cyclic_boosting/base.py:_predict_factors", "cyclic_boosting/base.py:CyclicBoostingBase.predict_extended", "cyclic_boosting/features.py:Feature.update_factors", "cyclic_boosting/features.py:Feature.prepare_feature"]}
{"id": "C174", "title": "A binner whose fit or transform did not finish", "statement": "A fit of the binner that is interrupted between two columns leaves the binner a complete fit of the table with only the columns reached so far would leave; if a column to be binned was not reached, transform refuses every table with at least as many columns to be binned as the training table. A transform that is interrupted between two columns leaves all tables as they were and can be repeated: the repetition returns the same table, or raises the same exception, as an uninterrupted call. (With inplace=True the second half is false: the table then holds bin numbers in the columns already treated and values in the others, and a repetition bins the bin numbers again; a KeyError for a missing column leaves such a table.)", "quantifier": "every configuration of the binner, every training table, every table to be transformed, every number of columns after which the call is interrupted", "why_tests_cant": "the points at which a call can be interrupted, combined with all tables and bins, cannot be enumerated, and what counts is the state left behind, which tests of results do not look at", "anchors": ["cyclic_boosting/binning/ecdf_transformer.py: ECdfTransformer.fit, _check_input_for_transform", "cyclic_boosting/binning/bin_number_transformer.py: BinNumberTransformer.transform"]}
{"id": "C175", "title": "A fit of a pipeline forgets everything before, and a fit that raises leaves the pipeline as it was", "statement": "A pipeline of a binner and an estimator can be fitted again and again. After any sequence of fits, some of which may have raised, a fit that succeeds leaves a pipeline that predicts for every table as a new pipeline after this fit. If the binner raises, the pipeline refuses every table with at least as many columns to be binned until the next fit. A fit that raises otherwise leaves the pipeline as it was. (False: if the estimator raises, the binner has been fitted to the new table already, and the pipeline predicts with the new bins and the old model, without any warning. It is true if the table is that of the last successful fit.)", "quantifier": "all binners and configurations of estimators, all sequences of fits, successful or not, all tables, targets and points at which a step raises", "why_tests_cant": "Sequences of fits and the places where they raise are unbounded; a test sees a few of them, and a pipeline that mixes two fits predicts plausible numbers.", "anchors": ["cyclic_boosting/pipelines.py: pipeline_CB", "cyclic_boosting/base.py: CyclicBoostingBase.fit", "cyclic_boosting/binning/ecdf_transformer.py: ECDFTransformer.fit", "cyclic_boosting/binning/bin_number_transformer.py: BinNumberTransformer.transform"]}
{"id": "C176", "title": "A pipeline finds the columns of its tables by their names", "statement": "If feature groups are given, a pipeline can be fitted to a table if and only if it can be fitted to one with its columns in another order and with other columns that have no property and are not used, and then predicts the same. Tables to be predicted may have other columns, in another order, too, and need no weights. A fitted pipeline refuses every table in which a column with a property is missing that was there in training, or is there that was not, also if no feature needs it.", "quantifier": "all binners, configurations, tables with different column names, targets, all histories of the two pipelines and all tables to be predicted", "why_tests_cant": "There are arbitrarily many tables, orders of columns and additional columns; a test compares a few of them.", "anchors": ["cyclic_boosting/pipelines.py: pipeline_CB", "cyclic_boosting/binning/ecdf_transformer.py: ECDFTransformer._check_input_for_transform, get_feature_column_names_or_indices", "cyclic_boosting/binning/bin_number_transformer.py: BinNumberTransformer.transform", "cyclic_boosting/utils.py: get_X_column"]}
