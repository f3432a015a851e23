{
 "claims": [
  {
   "property": "C01",
   "status": "proved",
   "theorems": [
    "CB.C01_bin_unique",
    "CB.C01_continuous_bin"
   ],
   "note": "Binary search of the fitted upper boundaries, exact arithmetic."
  },
  {
   "property": "C02",
   "status": "proved",
   "theorems": [
    "CB.C02_monotone"
   ],
   "note": "Follows for any two finite values of the same fitted column."
  },
  {
   "property": "C03",
   "status": "proved",
   "theorems": [
    "CB.C03_discrete_bin",
    "CB.C03_rank"
   ],
   "note": "C03_discrete_bin for any sorted list of stored values; C03_rank end to end through fit for every column with positive weights."
  },
  {
   "property": "C04",
   "status": "proved",
   "theorems": [
    "CB.C04_magic_only_if_flagged",
    "CB.C04_missing",
    "CB.C04_range"
   ],
   "note": "Missing values give -1 and every result is in range."
  },
  {
   "property": "C05",
   "status": "proved",
   "theorems": [
    "CB.C05_reduced_bins",
    "CB.C05_too_few_bins"
   ],
   "note": "For every column with positive weights, every n_bins, epsilon and non-negative tolerance."
  },
  {
   "property": "C06",
   "status": "proved",
   "theorems": [
    "CB.C06_min_weight"
   ],
   "note": "Holds for every bin including the last one."
  },
  {
   "property": "C07",
   "status": "proved",
   "theorems": [
    "CB.C07_covers",
    "CB.C07_covers_exact",
    "CB.C07_needs_small_epsilon"
   ],
   "note": "C07_covers under the epsilon condition of the property; C07_needs_small_epsilon shows the condition is necessary."
  },
  {
   "property": "C08",
   "status": "proved",
   "theorems": [
    "CB.C08_bounded",
    "CB.C08_discrete",
    "CB.C08_exact",
    "CB.C08_extremes",
    "CB.C08_fitted",
    "CB.C08_missing",
    "CB.C08_monotone"
   ],
   "note": "For every sorted table and end to end through fit (C08_fitted)."
  },
  {
   "property": "C09",
   "status": "partial",
   "theorems": [
    "CB.C09_aligned_iff",
    "CB.C09_cdf_partial",
    "CB.C09_zero_weight_misaligned"
   ],
   "note": "Proved when every observed value has positive total weight; false otherwise: a value with total weight zero keeps its entry in the value list but loses its cdf entry (C09_zero_weight_misaligned, C09_aligned_iff)."
  },
  {
   "property": "C10",
   "status": "proved",
   "theorems": [
    "CB.C10_narrowing_exact"
   ],
   "note": "All lists of 64-bit integers."
  },
  {
   "property": "C11",
   "status": "proved",
   "theorems": [
    "CB.C11_bijective_ordered",
    "CB.C11_onto"
   ],
   "note": "For all numbers of dimensions, n_bins vectors (given or inferred) and rows: range, injectivity, lexicographic order and surjectivity of the combined bin number. Exact arithmetic, no int64 overflow."
  },
  {
   "property": "C12",
   "status": "proved",
   "theorems": [
    "CB.C12_increasing",
    "CB.C12_inverse"
   ],
   "note": "arange_multi is the inverse enumeration, in increasing lexicographic order."
  },
  {
   "property": "C13",
   "status": "partial",
   "theorems": [
    "CB.C13_given_partial",
    "CB.C13_inferred",
    "CB.C13_no_valid_row"
   ],
   "note": "Full statement for inferred numbers of bins (training). With given numbers of bins it is proved for tables with at least one usable row; for a table without any usable row the claim is false of the code (every row gets bin 0): C13_no_valid_row."
  },
  {
   "property": "C14",
   "status": "proved",
   "theorems": [
    "CB.Flags.C14_accepts_iff",
    "CB.Flags.C14_implications",
    "CB.Flags.C14_union"
   ],
   "note": "For every flag value."
  },
  {
   "property": "C15",
   "status": "partial",
   "theorems": [
    "CB.C15_text_identifies",
    "CB.Flags.C15_faithful",
    "CB.Flags.C15_increasing_not_printable",
    "CB.Flags.C15_printable_iff_partial"
   ],
   "note": "False of the code as stated: INCREASING, DECREASING and HAS_MAGIC_INT_MISSING are missing in the list of printable flags. Proved: the exact set of printable values, that printing loses nothing, and that the three flags never print."
  },
  {
   "property": "C16",
   "status": "proved",
   "theorems": [
    "CB.C16_identity",
    "CB.C16_log",
    "CB.C16_logit"
   ],
   "note": "On real numbers; the logit link of the end points 0 and 1 (admitted by is_in_range) is infinite and excluded."
  },
  {
   "property": "C17",
   "status": "proved",
   "theorems": [
    "CB.C17_constant",
    "CB.C17_half_linear",
    "CB.C17_linear",
    "CB.C17_logistic",
    "CB.C17_used"
   ],
   "note": "On real numbers, for every maximal number of iterations."
  },
  {
   "property": "C18",
   "status": "proved",
   "theorems": [
    "CB.C18_bookkeeping",
    "CB.C18_rollback"
   ],
   "note": "Running prediction = prior + stored factors after any history, including rolled back iterations; a rolled back iteration leaves stored factors and running prediction exactly unchanged."
  },
  {
   "property": "C19",
   "status": "proved",
   "theorems": [
    "CB.C19_final_factors",
    "CB.C19_fraction_counterexample",
    "CB.C19_missing_bin",
    "CB.C19_pipeline",
    "CB.C19_predict_train",
    "CB.C19_price"
   ],
   "note": "With the proviso of the statement; C19_fraction_counterexample shows that it is needed (a fractional bin number is truncated in training and rounded at prediction). C19_pipeline: in a pipeline that bins all feature columns the proviso holds by itself. C19_price: the price model."
  },
  {
   "property": "C20",
   "status": "partial",
   "theorems": [
    "CB.C20_divergence_counterexample",
    "CB.C20_replace_partial"
   ],
   "note": "False under divergence (C20_divergence_counterexample); proved for histories without divergence."
  },
  {
   "property": "C21",
   "status": "proved",
   "theorems": [
    "CB.C21_convergence_error",
    "CB.C21_counter",
    "CB.C21_final_check",
    "CB.C21_fit",
    "CB.C21_price",
    "CB.C21_terminates"
   ],
   "note": "Termination for every oracle, iteration counter, exact ConvergenceError condition; C21_fit for whole fits, C21_price for the price model."
  },
  {
   "property": "C22",
   "status": "proved",
   "theorems": [
    "CB.C22_divergence_fails",
    "CB.C22_not_cut_short",
    "CB.C22_only_hierarchical"
   ],
   "note": "Only hierarchical features change in the first phase; the phase is not cut short. Divergence during the phase makes fit fail (C22_divergence_fails)."
  },
  {
   "property": "C23",
   "status": "proved",
   "theorems": [
    "CB.C23_bounds_link",
    "CB.C23_factor_bounds",
    "CB.C23_fit",
    "CB.C23_price"
   ],
   "note": "For every history without divergence, with the constants of the code; C23_fit for whole fits, C23_price for the price model."
  },
  {
   "property": "C24",
   "status": "proved",
   "theorems": [
    "CB.C24_decomposition",
    "CB.C24_exponent_model",
    "CB.C24_key_collision",
    "CB.C24_link_space",
    "CB.C24_multiplicative",
    "CB.C24_price"
   ],
   "note": "Link-space decomposition for all feature lists and rows; multiplicative form over the reals; C24_key_collision shows the condition on distinct names is needed."
  },
  {
   "property": "C25",
   "status": "proved",
   "theorems": [
    "CB.C25_divergence_counterexample",
    "CB.C25_fit",
    "CB.C25_missing",
    "CB.C25_missing_not_learned",
    "CB.C25_nearest_bin",
    "CB.C25_range_attained",
    "CB.C25_seen_range",
    "CB.C25_unseen"
   ],
   "note": "Missing, unseen and out-of-range rows; C25_fit for whole fits; C25_divergence_counterexample shows the non-divergence condition is needed."
  },
  {
   "property": "C26",
   "status": "proved",
   "theorems": [
    "CB.C26_missing_assignment",
    "CB.C26_partition",
    "CB.C26_reserved_name"
   ],
   "note": "Partition for every assignment and feature list; KeyError iff an assignment is missing; C26_reserved_name shows the condition on the name is needed."
  },
  {
   "property": "C27",
   "status": "partial",
   "theorems": [
    "CB.C27_add_after_remove_counterexample",
    "CB.C27_add_after_remove_partial",
    "CB.C27_remove_after_add"
   ],
   "note": "remove after add is exact. add after remove is exact only if the category column exists: counterexample C27_add_after_remove_counterexample."
  },
  {
   "property": "C28",
   "status": "proved",
   "theorems": [
    "CB.C28_distribution",
    "CB.C28_fit",
    "CB.C28_meaning",
    "CB.C28_name_collision",
    "CB.C28_price",
    "CB.C28_refit_counterexample",
    "CB.C28_refit_values",
    "CB.C28_unfitted"
   ],
   "note": "Distribution, one entry per feature, meaning of the value; counterexamples for refits and colliding names."
  },
  {
   "property": "C29",
   "status": "partial",
   "theorems": [
    "CB.C29_both_empty_partial",
    "CB.C29_counterexample",
    "CB.C29_fit_empty"
   ],
   "note": "The check raises exactly if both are empty (C29_both_empty_partial); C29_counterexample shows that one empty argument passes."
  },
  {
   "property": "C30",
   "status": "proved",
   "theorems": [
    "CB.C30_between",
    "CB.C30_empty_bin",
    "CB.C30_linear_ansatz",
    "CB.C30_unique_minimiser",
    "CB.C30_variance_pos"
   ],
   "note": "Unique minimiser by completing the square; empty bins, range, variance, equivalence with the linear ansatz of the documentation."
  },
  {
   "property": "C31",
   "status": "proved",
   "theorems": [
    "CB.C31_poisson_posterior",
    "CB.C31_poisson_special_case",
    "CB.C31_positive_posterior"
   ],
   "note": "For every gammaincinv (the equality needs nothing about it; positivity needs it positive)."
  },
  {
   "property": "C32",
   "status": "proved",
   "theorems": [
    "CB.C32_unique_minimiser"
   ],
   "note": "Strict minimum, hence uniqueness; the determinant is shown positive."
  },
  {
   "property": "C33",
   "status": "proved",
   "theorems": [
    "CB.C33_between",
    "CB.C33_monotone",
    "CB.C33_neighbors",
    "CB.C33_neighbors_nan",
    "CB.C33_ordered_feature",
    "CB.C33_range",
    "CB.C33_uncertain_shrinks_more",
    "CB.C33_unchanged"
   ],
   "note": "For regularize_to_error_weighted_mean. The sliding-window version (default smoother of ordered features) satisfies it unless a bin and its neighbours have equal values, where it returns NaN (C33_neighbors_nan)."
  },
  {
   "property": "C34",
   "status": "proved",
   "theorems": [
    "CB.C34_formula",
    "CB.C34_insignificant",
    "CB.C34_meta_smoother",
    "CB.C34_monotone",
    "CB.C34_smoother",
    "CB.C34_smoother_multi",
    "CB.C34_strictly_between"
   ],
   "note": "Over the reals."
  },
  {
   "property": "C35",
   "status": "proved",
   "theorems": [
    "CB.C35_actual_quantiles",
    "CB.C35_boost_weights",
    "CB.C35_class",
    "CB.C35_empty_bin_neutral",
    "CB.C35_levels",
    "CB.C35_matching",
    "CB.C35_posterior",
    "CB.C35_probabilities",
    "CB.C35_probability_mono",
    "CB.C35_uncertainty_pos"
   ],
   "note": "Quantile functions of the beta and normal distribution are parameters, constrained only by monotonicity (and symmetry for C35_empty_bin_neutral). C35_actual_quantiles derives these constraints for the actual quantile functions, specified by integrals of the densities."
  },
  {
   "property": "C36",
   "status": "proved",
   "theorems": [
    "CB.C36_computed_quantile_minimises",
    "CB.C36_convex",
    "CB.C36_meaning",
    "CB.C36_minimisers",
    "CB.C36_nonneg",
    "CB.C36_quantile_minimises",
    "CB.C36_weighted_quantile"
   ],
   "note": "Includes that the weighted quantile function of utils.py returns a weighted quantile for every sorting."
  },
  {
   "property": "C37",
   "status": "proved",
   "theorems": [
    "CB.C37_bins",
    "CB.C37_order_counterexample"
   ],
   "note": "For every argsort, stable or not; relies on the ascending iteration order of the set of empty bins (C37_order_counterexample shows the dependence)."
  },
  {
   "property": "C38",
   "status": "partial",
   "theorems": [
    "CB.C38_jqpd_s_partial",
    "CB.C38_log_symmetric_is_nan",
    "CB.C38_rejects_exactly_crossing",
    "CB.C38_version"
   ],
   "note": "Proved for every triplet that is not exactly symmetric on the log scale; false of the code for every exactly log-symmetric triplet (every quantile is nan), proved in C38_log_symmetric_is_nan."
  },
  {
   "property": "C39",
   "status": "partial",
   "theorems": [
    "CB.C39_jqpd_b_partial",
    "CB.C39_symmetric_is_nan",
    "CB.C39_symmetric_occurs"
   ],
   "note": "Proved for every triplet that is not exactly symmetric on the base scale; false of the code for every symmetric triplet (every quantile is nan), proved in C39_symmetric_is_nan."
  },
  {
   "property": "C40",
   "status": "partial",
   "theorems": [
    "CB.C40_extended_partial",
    "CB.C40_symmetric_misses",
    "CB.C40_version",
    "CB.C40_versions"
   ],
   "note": "Proved for asymmetric triplets and all three ranges; false of the code for every symmetric triplet (both outer quantiles are overshot by the factor sinh 1), proved in C40_symmetric_misses."
  },
  {
   "property": "C41",
   "status": "proved",
   "theorems": [
    "CB.C41_median_monotone",
    "CB.C41_modes",
    "CB.C41_no_crossing",
    "CB.C41_qpd_bounded",
    "CB.C41_qpd_semibounded"
   ],
   "note": "All outputs of the estimators are arbitrary reals; also the returned distribution object reproduces the predicted triplet."
  },
  {
   "property": "C42",
   "status": "partial",
   "theorems": [
    "CB.C42_high_bounded_crashes",
    "CB.C42_high_bounded_partial",
    "CB.C42_high_bounded_row",
    "CB.C42_high_semibounded_iff",
    "CB.C42_low_negative_median",
    "CB.C42_low_partial",
    "CB.C42_median"
   ],
   "note": "Median, lower quantile (positive median) and upper quantile in mode B when no row is masked are proved; false of the code for mode S (missing factor), for mode B with masked rows (shape error) and for negative medians (wrong rows), each proved."
  },
  {
   "property": "C43",
   "status": "proved",
   "theorems": [
    "CB.C43_at_the_bound",
    "CB.C43_bounded",
    "CB.C43_semibound_lower",
    "CB.C43_semibound_upper"
   ],
   "note": "Both directions, strict containment and monotonicity for the bounded, lower and upper semi-bounded transformations, and the behaviour exactly at the bound."
  },
  {
   "property": "C44",
   "status": "proved",
   "theorems": [
    "CB.C44_exponent_factors",
    "CB.C44_stays_in_bracket",
    "CB.C44_variance_positive"
   ],
   "note": "For every oracle, including NaN and infinite results; the inverse Hessian can only be NaN where the oracle's Hessian is NaN. maximal_iterations=0 raises (none in the model)."
  },
  {
   "property": "C45",
   "status": "proved",
   "theorems": [
    "CB.C45_bayes_between",
    "CB.C45_bayes_softmax",
    "CB.C45_candidates",
    "CB.C45_candidates_bounded",
    "CB.C45_minimal",
    "CB.C45_never_worse",
    "CB.C45_uncertainty",
    "CB.C45_update_bounded"
   ],
   "note": "for every log probability function; adding the chosen offsets never increases the training loss"
  },
  {
   "property": "C46",
   "status": "proved",
   "theorems": [
    "CB.C46_at_most_residual",
    "CB.C46_empty_bin",
    "CB.C46_global_scale",
    "CB.C46_loss_denominator",
    "CB.C46_ridge_minimiser",
    "CB.C46_scale_minimises_loss",
    "CB.C46_shrinks",
    "CB.C46_variance"
   ],
   "note": "ridge objective, shrinkage, variance; also exact condition for the loss denominator to vanish"
  },
  {
   "property": "C47",
   "status": "proved",
   "theorems": [
    "CB.C47_complete",
    "CB.C47_count",
    "CB.C47_interaction_column",
    "CB.C47_nodup",
    "CB.C47_one_per_set"
   ],
   "note": "complete, duplicate free, one candidate per feature set, count; plus injectivity of the binned interaction features"
  },
  {
   "property": "C48",
   "status": "partial",
   "theorems": [
    "CB.C48_binner",
    "CB.C48_binner_ignores_weights",
    "CB.C48_common_arguments",
    "CB.C48_constructor",
    "CB.C48_effect",
    "CB.C48_estimator_partial",
    "CB.C48_exponential_drops",
    "CB.C48_helpers",
    "CB.C48_settable",
    "CB.C48_total"
   ],
   "note": "Every documented pipeline constructor is total and passes its arguments on, except those named in C48_exponential_drops and in the findings of DESIGN.md (arguments that are silently dropped)."
  },
  {
   "property": "C49",
   "status": "partial",
   "theorems": [
    "CB.C49_discontinuous_1d",
    "CB.C49_discontinuous_multi_partial",
    "CB.C49_extrapolating",
    "CB.C49_interpolating",
    "CB.C49_interpolating_missing",
    "CB.C49_no_row_in_range"
   ],
   "note": "Proved for every sub-smoother that does not write into the table: extrapolating, interpolating and one-column discontinuous features completely; several columns if at least one row of the table is in range. C49_no_row_in_range shows that the claim is false of the code otherwise. The polynomial smoother can write into the table: see C171."
  },
  {
   "property": "C50",
   "status": "proved",
   "theorems": [
    "CB.C50_interpolates",
    "CB.C50_norm_between",
    "CB.C50_normalised",
    "CB.C50_shift_equivariant",
    "CB.C50_shift_equivariant_reg"
   ],
   "note": "For every sub-smoother and every table with positive total weight."
  },
  {
   "property": "C51",
   "status": "proved",
   "theorems": [
    "CB.C51_multi_dim",
    "CB.C51_one_dim",
    "CB.C51_store_load"
   ],
   "note": "Both bin-value smoothers and their storage in sparse form."
  },
  {
   "property": "C52",
   "status": "proved",
   "theorems": [
    "CB.C52_columns_zero",
    "CB.C52_fixed_point",
    "CB.C52_mixed_differences",
    "CB.C52_passes",
    "CB.C52_rows_zero",
    "CB.C52_smoother"
   ],
   "note": "Column sums for all positive weights, mixed differences for all weights, fixed points, and row sums for product weights."
  },
  {
   "property": "C53",
   "status": "proved",
   "theorems": [
    "CB.C53_consistent_reportable",
    "CB.C53_explicit_innermost",
    "CB.C53_explicit_overrides",
    "CB.C53_features_total",
    "CB.C53_groupBy_last_property",
    "CB.C53_increasing_alone_fails",
    "CB.C53_onedim",
    "CB.C53_reg_type",
    "CB.C53_total",
    "CB.C53_wrapping"
   ],
   "note": "Exact condition for failure in C53_onedim; C53_increasing_alone_fails is a finding about inconsistent properties."
  },
  {
   "property": "C54",
   "status": "proved",
   "theorems": [
    "CB.C54_calibrated",
    "CB.C54_intercept_minimiser",
    "CB.C54_only_shifts",
    "CB.C54_poisson_nonneg",
    "CB.C54_poisson_shrinks",
    "CB.C54_poisson_uncertainty_pos",
    "CB.C54_training",
    "CB.C54_variance_pos",
    "CB.C54_variance_posterior"
   ],
   "note": "C54_training covers every training history, diverging or not."
  },
  {
   "property": "C55",
   "status": "partial",
   "theorems": [
    "CB.C55_additive_partial",
    "CB.C55_classifier_counterexample",
    "CB.C55_multiplicative_partial",
    "CB.C55_small_optimum"
   ],
   "note": "Proved for the log and the identity link. False for CBGenericClassifier (C55_classifier_counterexample)."
  },
  {
   "property": "C56",
   "status": "partial",
   "theorems": [
    "CB.C56_overshoot_counterexample",
    "CB.C56_unit_weights_partial",
    "CB.C56_weights_counterexample"
   ],
   "note": "For unit weights the excess is at most 2, and at most 1 unless the level is a multiple of 1/n. Counterexamples for other weights and for the bound 1."
  },
  {
   "property": "C57",
   "status": "proved",
   "theorems": [
    "CB.C57_empty_bin"
   ],
   "note": "The median of the gamma distribution with shape 2 is specified by its integral and bounded numerically inside the kernel."
  },
  {
   "property": "C58",
   "status": "proved",
   "theorems": [
    "CB.C58_basedist",
    "CB.C58_basedist_pdf",
    "CB.C58_logistic",
    "CB.C58_normal",
    "CB.C58_normal_median",
    "CB.C58_sinhlogistic",
    "CB.C58_sinhlogistic_pdf",
    "CB.C58_versions",
    "CB.C58_versions_extended"
   ],
   "note": "All shapes; derivative proved with Mathlib's HasDerivAt."
  },
  {
   "property": "C59",
   "status": "proved",
   "theorems": [
    "CB.C59_demand",
    "CB.C59_estimate",
    "CB.C59_fit_total",
    "CB.C59_hessian",
    "CB.C59_jacobian",
    "CB.C59_loss",
    "CB.C59_step",
    "CB.C59_training",
    "CB.C59_weights",
    "CB.C59_zero"
   ],
   "note": "Derivatives proved with HasDerivAt for every bin with positive parameter."
  },
  {
   "property": "C60",
   "status": "proved",
   "theorems": [
    "CB.C60_fit_matches_predict",
    "CB.C60_model",
    "CB.C60_neutral_price",
    "CB.C60_price_direction",
    "CB.C60_price_effect"
   ],
   "note": "For all learned parameters and all finite, missing or infinite price ratios."
  },
  {
   "property": "C61",
   "status": "proved",
   "theorems": [
    "CB.C61_combine",
    "CB.C61_entries",
    "CB.C61_frame"
   ],
   "note": "Exact characterisation of acceptance and of the result."
  },
  {
   "property": "C62",
   "status": "partial",
   "theorems": [
    "CB.C62_bayes_neutral_partial",
    "CB.C62_default_mode_not_neutral"
   ],
   "note": "true with Bayesian averaging; in the default mode the bin gets -10^(1/(iteration+1)) (counterexample theorem)"
  },
  {
   "property": "C63",
   "status": "proved",
   "theorems": [
    "CB.C63_empty",
    "CB.C63_sections"
   ],
   "note": "For all sub-smoothers, split points and tables."
  },
  {
   "property": "C64",
   "status": "proved",
   "theorems": [
    "CB.C64_constant_updates_stop",
    "CB.C64_stop_iff",
    "CB.C64_update_meaning"
   ],
   "note": "Exact stop condition for every history with finite losses; C64_constant_updates_stop shows that constant updates stop the training in aggregate mode."
  },
  {
   "property": "C65",
   "status": "proved",
   "theorems": [
    "CB.C65_diverging_update",
    "CB.C65_frozen",
    "CB.C65_neutral_for_good",
    "CB.C65_rolled_back_counterexample"
   ],
   "note": "Case distinction for one feature, freezing and permanence along histories; C65_rolled_back_counterexample shows that a neutralisation that is rolled back restores the factors. Hypothesis: identity calibration (the default) for the two history theorems."
  },
  {
   "property": "C66",
   "status": "proved",
   "theorems": [
    "CB.C66_update_aggregate",
    "CB.C66_update_replace"
   ],
   "note": "Aggregate and non-aggregate mode, for identity calibration (the default)."
  },
  {
   "property": "C67",
   "status": "proved",
   "theorems": [
    "CB.C67_invalid",
    "CB.C67_nbinom_mean_variance"
   ],
   "note": "Mean and variance from the probability mass function by the binomial series."
  },
  {
   "property": "C68",
   "status": "proved",
   "theorems": [
    "CB.C68_dispersion",
    "CB.C68_link"
   ],
   "note": "Mean and variance of the distribution from the binomial series; link bounds of the dispersion for every dispersion value."
  },
  {
   "property": "C69",
   "status": "proved",
   "theorems": [
    "CB.C69_gamma_matching",
    "CB.C69_no_variance"
   ],
   "note": "Gamma integrals over the positive half line; the exact condition under which the variance is missing (C69_no_variance)."
  },
  {
   "property": "C70",
   "status": "proved",
   "theorems": [
    "CB.C70_feature",
    "CB.C70_least_squares",
    "CB.C70_reproduces",
    "CB.C70_unique",
    "CB.C70_unique_between"
   ],
   "note": "optimality, uniqueness and reproduction; exact arithmetic"
  },
  {
   "property": "C71",
   "status": "proved",
   "theorems": [
    "CB.C71_bounds",
    "CB.C71_selection"
   ],
   "note": "selection by the best chi-squared of each degree; bounds"
  },
  {
   "property": "C72",
   "status": "proved",
   "theorems": [
    "CB.C72_clamped",
    "CB.C72_shift",
    "CB.C72_total"
   ],
   "note": "clamping, totality, shift equivariance"
  },
  {
   "property": "C73",
   "status": "proved",
   "theorems": [
    "CB.C73_chosen",
    "CB.C73_fit",
    "CB.C73_prediction",
    "CB.C73_stored",
    "CB.C73_without_direction"
   ],
   "note": "C73_stored: order of the stored factors after every iteration without divergence; C73_prediction: end to end. The isotonic regression itself (scikit-learn) is assumed to give functions in the requested direction. C73_without_direction shows that the plain IS_MONOTONIC flag does not give this."
  },
  {
   "property": "C74",
   "status": "proved",
   "theorems": [
    "CB.C74_chosen",
    "CB.C74_fit",
    "CB.C74_prediction",
    "CB.C74_stored"
   ],
   "note": "C74_chosen: which groups get the cut; C74_stored: neutral after every iteration without divergence; C74_prediction: no contribution to predictions."
  },
  {
   "property": "C75",
   "status": "proved",
   "theorems": [
    "CB.C75_classifier_all_ones",
    "CB.C75_fit",
    "CB.C75_fit_gbs",
    "CB.C75_fit_prior_identity",
    "CB.C75_fit_prior_log",
    "CB.C75_fit_prior_logit",
    "CB.C75_fit_prior_missing",
    "CB.C75_identity",
    "CB.C75_log",
    "CB.C75_logit",
    "CB.C75_pipeline",
    "CB.C75_pipeline_prior_identity",
    "CB.C75_pipeline_prior_log",
    "CB.C75_prior_all_missing",
    "CB.C75_prior_identity",
    "CB.C75_prior_log",
    "CB.C75_prior_missing"
   ],
   "note": "for all samples, weights and prior columns in exact real arithmetic with IEEE special values; `C75_logit` gives the exact condition under which the classifier has a finite global scale, `C75_classifier_all_ones` and `C75_prior_all_missing` document the edge cases; overflow not modelled"
  },
  {
   "property": "C76",
   "status": "proved",
   "theorems": [
    "CB.C76_locPoisson_counterexample",
    "CB.C76_location_counterexample",
    "CB.C76_quantile_counterexample",
    "CB.C76_repetition",
    "CB.C76_unweighted",
    "CB.C76_weighted_rows"
   ],
   "note": "Whole fit. Equivalence for Poisson, negative binomial and classification; the English property states that it is false for the location estimators, shown by counterexamples."
  },
  {
   "property": "C77",
   "status": "proved",
   "theorems": [
    "CB.C77_optimising",
    "CB.C77_order",
    "CB.C77_price"
   ],
   "note": "Whole fit, all modelled estimators including the price model, exact arithmetic."
  },
  {
   "property": "C78",
   "status": "proved",
   "theorems": [
    "CB.C78_zero_weight"
   ],
   "note": "All modelled estimators; EstimatesNumbers excludes the cases in which the added samples make the code divide by zero (C157)."
  },
  {
   "property": "C79",
   "status": "proved",
   "theorems": [
    "CB.C79_shift"
   ],
   "note": "Whole fit of CBLocationRegressor; tables are predicted with a prior column if and only if training had one."
  },
  {
   "property": "C80",
   "status": "proved",
   "theorems": [
    "CB.C80_fit_succeeds",
    "CB.C80_never_increases",
    "CB.C80_no_smoothing",
    "CB.C80_training_error",
    "CB.C80_weighted_mean"
   ],
   "note": "Main theorems for all smoothers that shrink (ShrinkingSmoothers); C80_no_smoothing and C80_weighted_mean show which smoother choices qualify, using the modelled smoothers of the package. Normalization in the weighted mean choice is not covered. Real arithmetic."
  },
  {
   "property": "C81",
   "status": "partial",
   "theorems": [
    "CB.C81_between",
    "CB.C81_defined_partial",
    "CB.C81_estimators",
    "CB.C81_gbs_empty_bin",
    "CB.C81_gbs_not_learned",
    "CB.C81_zero_uncertainty"
   ],
   "note": "Betweenness always; definedness for positive uncertainties (C81_defined_partial). False of CBGBSRegressor: a bin without samples has uncertainty 0, all smoothed values become NaN and the whole feature is not learned (C81_zero_uncertainty, C81_gbs_empty_bin, C81_gbs_not_learned)."
  },
  {
   "property": "C82",
   "status": "proved",
   "theorems": [
    "CB.C82_groups",
    "CB.C82_interaction"
   ],
   "note": "For every smoother kind of the package (the explicit and seasonal ones under the hypothesis RowWise)."
  },
  {
   "property": "C83",
   "status": "proved",
   "theorems": [
    "CB.C83_exact",
    "CB.C83_line",
    "CB.C83_single_bin"
   ],
   "note": "The single-bin case is a NaN in the code, which training replaces by the neutral factor."
  },
  {
   "property": "C84",
   "status": "proved",
   "theorems": [
    "CB.C84_fit_succeeds",
    "CB.C84_never_increases",
    "CB.C84_training_cost"
   ],
   "note": "covers CBMultiplicative/AdditiveQuantileRegressor and CBMultiplicative/AdditiveGenericCRegressor; scipy's optimiser is a parameter of which only 'not worse than the start value' is assumed. Not claimed for CBGenericClassifier, which optimises prob*param but applies odds*param (C55_classifier_counterexample)"
  },
  {
   "property": "C85",
   "status": "proved",
   "theorems": [
    "CB.C85_monotone",
    "CB.C85_predict_succeeds"
   ],
   "note": "Hypotheses of C85_monotone beside those of C73: epsilon and the tolerance are in [0,1) and epsilon is smaller than (1 - tolerance) / number of bins; with magic missing integers, some training value exceeds -9."
  },
  {
   "property": "C86",
   "status": "proved",
   "theorems": [
    "CB.C86_boundaries",
    "CB.C86_units"
   ],
   "note": "For epsilon < (1 - tolerance) / number of bins, and columns without magic missing integers (these are fixed numbers, so a unit change cannot be expected to respect them)."
  },
  {
   "property": "C87",
   "status": "proved",
   "theorems": [
    "CB.C87_optimising",
    "CB.C87_order"
   ],
   "note": "Equality of the results of the two fits, including errors."
  },
  {
   "property": "C88",
   "status": "proved",
   "theorems": [
    "CB.C88_continuous_counterexample",
    "CB.C88_repetition"
   ],
   "note": "C88_continuous_counterexample shows that the restriction to columns that are not continuous is needed."
  },
  {
   "property": "C89",
   "status": "proved",
   "theorems": [
    "CB.C89_alike",
    "CB.C89_neutral"
   ],
   "note": "For 0 <= epsilon < 1 and tolerance >= 0. Unseen means: farther from every training value than epsilon times some distance of two training values (than epsilon if there is one value only)."
  },
  {
   "property": "C90",
   "status": "proved",
   "theorems": [
    "CB.C90_bin_weights",
    "CB.C90_training_weights"
   ],
   "note": "bincount of the bound features; training uses exactly these weights"
  },
  {
   "property": "C91",
   "status": "proved",
   "theorems": [
    "CB.C91_price",
    "CB.C91_refit",
    "CB.C91_refit_default",
    "CB.C91_stale_columns"
   ],
   "note": "explicit feature groups: any history; default groups: equal columns; what happens otherwise is proved too (C91_stale_columns); C91_price for the price model"
  },
  {
   "property": "C92",
   "status": "partial",
   "theorems": [
    "CB.C92_default_features",
    "CB.C92_dispersion_counterexample",
    "CB.C92_fit_columns_partial",
    "CB.C92_missing",
    "CB.C92_predict_columns",
    "CB.C92_price_fit",
    "CB.C92_price_missing",
    "CB.C92_price_predict",
    "CB.C92_price_required",
    "CB.C92_required_partial"
   ],
   "note": "False as stated for CBNBinomC (C92_dispersion_counterexample): its fit needs the column of the means, which required_columns does not list. Proved for all other modelled estimators, including the price model: fit, predict, required_columns, missing columns."
  },
  {
   "property": "C93",
   "status": "partial",
   "theorems": [
    "CB.C93_dispersion_after_fit",
    "CB.C93_dispersion_counterexample",
    "CB.C93_fit_transform_partial",
    "CB.C93_no_overwrite",
    "CB.C93_price_counterexample",
    "CB.C93_transform"
   ],
   "note": "False as stated for CBNBinomC (C93_dispersion_counterexample) and for CBExponential with external features (C93_price_counterexample): fit_transform raises. Proved for all other modelled estimators; fit_transform equals fit and transform for integer bin numbers (what binners produce) in aggregate mode."
  },
  {
   "property": "C94",
   "status": "partial",
   "theorems": [
    "CB.C94_counterexample",
    "CB.C94_importances_partial"
   ],
   "note": "false for predictions (C94_counterexample: the check never fires); proved for the importances"
  },
  {
   "property": "C95",
   "status": "proved",
   "theorems": [
    "CB.C95_fit_succeeds",
    "CB.C95_log_pmf",
    "CB.C95_never_increases",
    "CB.C95_object",
    "CB.C95_order",
    "CB.C95_range",
    "CB.C95_start",
    "CB.C95_training_cost"
   ],
   "note": "whole trainings; lgamma is the exact logarithm of the gamma function, arithmetic is exact"
  },
  {
   "property": "C96",
   "status": "proved",
   "theorems": [
    "CB.C96_direction",
    "CB.C96_elasticity"
   ],
   "note": "whole trainings of the price model; prior exponents are finite and not 0"
  },
  {
   "property": "C97",
   "status": "proved",
   "theorems": [
    "CB.C97_no_prices",
    "CB.C97_predict"
   ],
   "note": "whole trainings, exact arithmetic"
  },
  {
   "property": "C98",
   "status": "proved",
   "theorems": [
    "CB.C98_bin",
    "CB.C98_digitize",
    "CB.C98_infinite",
    "CB.C98_monotone",
    "CB.C98_nan",
    "CB.C98_range"
   ],
   "note": "NaN is not a number: it gets an index outside of the bins (C98_nan)."
  },
  {
   "property": "C99",
   "status": "proved",
   "theorems": [
    "CB.C99_counts",
    "CB.C99_errors",
    "CB.C99_even_errors",
    "CB.C99_even_median",
    "CB.C99_groups",
    "CB.C99_mean",
    "CB.C99_median",
    "CB.C99_median_jump",
    "CB.C99_order",
    "CB.C99_quantile",
    "CB.C99_scale",
    "CB.C99_uniform_counts"
   ],
   "note": "Counterexamples for stronger readings: counts are numbers of samples for equal weights (C99_uniform_counts), medians are not continuous in the weights (C99_median_jump)."
  },
  {
   "property": "C100",
   "status": "partial",
   "theorems": [
    "CB.C100_aligned_partial",
    "CB.C100_binary",
    "CB.C100_complete",
    "CB.C100_errors",
    "CB.C100_exists",
    "CB.C100_values",
    "CB.C100_zero_weight"
   ],
   "note": "C100_aligned_partial assumes positive weights; C100_zero_weight shows lists of different length for a bin of weight zero."
  },
  {
   "property": "C101",
   "status": "partial",
   "theorems": [
    "CB.C101_calls",
    "CB.C101_default",
    "CB.C101_default_factors",
    "CB.C101_feature_calls",
    "CB.C101_iteration_partial",
    "CB.C101_last_iteration",
    "CB.C101_refit",
    "CB.C101_same_fit",
    "CB.C101_updates",
    "CB.C101_zero"
   ],
   "note": "C101_last_iteration: the observer for iteration N of an N-iteration fit stays empty; C101_updates: snapshots in between hold the last updates, not the factors of the model. Calls, default observer and independence of the fit are proved."
  },
  {
   "property": "C102",
   "status": "proved",
   "theorems": [
    "CB.C102_bounds",
    "CB.C102_negative",
    "CB.C102_qpd",
    "CB.C102_uniform"
   ],
   "note": "For targets on the natural numbers; C102_negative shows that it fails for negative targets."
  },
  {
   "property": "C103",
   "status": "proved",
   "theorems": [
    "CB.C103_declared",
    "CB.C103_numbering"
   ],
   "note": "Columns whose categories are renumbered must hold every category 0..m-1 in a training row without missing entries in the feature's columns (as an encoder guarantees for single columns)."
  },
  {
   "property": "C104",
   "status": "proved",
   "theorems": [
    "CB.C104_best",
    "CB.C104_declared",
    "CB.C104_declared_few",
    "CB.C104_exact",
    "CB.C104_few",
    "CB.C104_level",
    "CB.C104_offset",
    "CB.C104_order",
    "CB.C104_periodic"
   ],
   "note": "curve_fit is an argument with a least-squares specification; exists_isCurveFit shows that such a fit exists."
  },
  {
   "property": "C105",
   "status": "proved",
   "theorems": [
    "CB.C105_best",
    "CB.C105_exact",
    "CB.C105_increasing",
    "CB.C105_line",
    "CB.C105_missing",
    "CB.C105_not_usual_weights",
    "CB.C105_single",
    "CB.C105_spline"
   ],
   "note": "polyfit is an argument with its documented specification (exists_isPolyFit). C105_not_usual_weights shows that the usual weights, one over the squared uncertainty, are not what is minimised."
  },
  {
   "property": "C106",
   "status": "proved",
   "theorems": [
    "CB.C106_ends",
    "CB.C106_few",
    "CB.C106_mean",
    "CB.C106_not_the_year",
    "CB.C106_used",
    "CB.C106_wave"
   ],
   "note": "The Lasso fit is an arbitrary argument. C106_not_the_year records that the period is one bin shorter than the year of SeasonalSmoother."
  },
  {
   "property": "C107",
   "status": "proved",
   "theorems": [
    "CB.C107_best",
    "CB.C107_count",
    "CB.C107_order_matters",
    "CB.C107_pure_interaction_missed",
    "CB.C107_score_range",
    "CB.C107_score_units",
    "CB.C107_target_units"
   ],
   "note": "SelectKBest modelled as argsort of the scores; f_regression enters as squared correlation, which orders candidates the same way."
  },
  {
   "property": "C108",
   "status": "proved",
   "theorems": [
    "CB.C108_gamma_exact",
    "CB.C108_gaussian_best",
    "CB.C108_gaussian_exact",
    "CB.C108_gaussian_units",
    "CB.C108_inverse",
    "CB.C108_mode",
    "CB.C108_nbinom_exact"
   ],
   "note": "Relative to curve_fit returning a best fit where one exists (shown to exist in principle); real arithmetic."
  },
  {
   "property": "C109",
   "status": "proved",
   "theorems": [
    "CB.C109_at_the_bound",
    "CB.C109_bounded",
    "CB.C109_empirical",
    "CB.C109_extended",
    "CB.C109_modes",
    "CB.C109_semibounded",
    "CB.C109_shape_best",
    "CB.C109_shape_units"
   ],
   "note": "Relative to minimize_scalar returning a minimiser that depends only on the set of minimisers; 999 levels (arange without rounding)."
  },
  {
   "property": "C110",
   "status": "proved",
   "theorems": [
    "CB.C110_generic_shift",
    "CB.C110_multiplicative_depends_on_unit",
    "CB.C110_quantile_shift"
   ],
   "note": "No assumption on the optimiser."
  },
  {
   "property": "C111",
   "status": "proved",
   "theorems": [
    "CB.C111_gbs",
    "CB.C111_location",
    "CB.C111_multiplicative_weight_share",
    "CB.C111_nbinom_fixed",
    "CB.C111_no_smoothing",
    "CB.C111_poisson",
    "CB.C111_poisson_fixed",
    "CB.C111_quantile_additive",
    "CB.C111_quantile_multiplicative"
   ],
   "note": "The exact coverage claim of the multiplicative quantile regressor is the one weighted with predictions; C111_multiplicative_weight_share shows that sample weights alone do not suffice. gammaincinv is only assumed to compute the median of the gamma distribution (Spec.GammaMedian, by integrals; its bounds and its existence are proved in Lemmas/GammaMedian). The optimiser is an argument with a specification that is shown satisfiable."
  },
  {
   "property": "C112",
   "status": "proved",
   "theorems": [
    "CB.C112_constant",
    "CB.C112_fit_succeeds",
    "CB.C112_gbs",
    "CB.C112_left_alone",
    "CB.C112_neutral",
    "CB.C112_quantile",
    "CB.C112_settled"
   ],
   "note": "SmoothersKeepZero holds for NoSmootherChoice and weighted means (C80)."
  },
  {
   "property": "C113",
   "status": "proved",
   "theorems": [
    "CB.C113_features_apart",
    "CB.C113_independent",
    "CB.C113_not_unfitted_in_dictionaries",
    "CB.C113_original_unchanged",
    "CB.C113_settings",
    "CB.C113_succeeds",
    "CB.C113_unfitted"
   ],
   "note": "The constructor is taken to keep its arguments and nothing else, as scikit-learn requires. Objects are trees: an object that occurs twice is copied twice. Fitted estimators inside a dictionary parameter are copied with their state (C113_not_unfitted_in_dictionaries), which is what the code does."
  },
  {
   "property": "C114",
   "status": "proved",
   "theorems": [
    "CB.C114_additive",
    "CB.C114_curves",
    "CB.C114_curves_multiplicative",
    "CB.C114_empty_bin",
    "CB.C114_mean",
    "CB.C114_multiplicative"
   ],
   "note": "Sums per bin, sign of the deviation, bins without weight, means over the finite bins. Exact numbers."
  },
  {
   "property": "C115",
   "status": "partial",
   "theorems": [
    "CB.C115_absent",
    "CB.C115_analysis_exists",
    "CB.C115_bins",
    "CB.C115_counterexample",
    "CB.C115_curves",
    "CB.C115_exists",
    "CB.C115_length_partial",
    "CB.C115_one_column",
    "CB.C115_unit_weights"
   ],
   "note": "Every bin with samples is at its place and the arrays have equal lengths (C115_bins, C115_absent, C115_exists); for one-column features they are complete (C115_one_column). False for features of several columns whose last combination has no samples and that have no missing values: the arrays are too short and the two-dimensional plot raises (C115_length_partial, C115_counterexample). The set of absent bins is taken to be run through in ascending order."
  },
  {
   "property": "C116",
   "status": "partial",
   "theorems": [
    "CB.C116_errors_counterexample",
    "CB.C116_extension",
    "CB.C116_histogram_bins",
    "CB.C116_loss_shown_partial",
    "CB.C116_missing_box",
    "CB.C116_negative_counterexample",
    "CB.C116_neutral_centered",
    "CB.C116_ticks",
    "CB.C116_ticks_inside",
    "CB.C116_values_shown"
   ],
   "note": "All plotted values are shown (C116_values_shown), numbers of ticks and bins, centering. False for error bars: the uncertainties are not those of the values they are added to, C116_errors_counterexample; and for losses that are negative, C116_negative_counterexample."
  },
  {
   "property": "C117",
   "status": "proved",
   "theorems": [
    "CB.C117_gbs_order",
    "CB.C117_gbs_range",
    "CB.C117_poisson_order",
    "CB.C117_poisson_range"
   ],
   "note": "Order and range of the predictions per bin for single-feature CBGBSRegressor and CBPoissonRegressor models, for fits that do not diverge (for background subtraction C80 shows that they never do). gammaincinv is only assumed to compute the median of the gamma distribution; that the median rises with the shape is proved. The negative binomial regressor is left out of the order claim because its moment estimate jumps at a threshold."
  },
  {
   "property": "C118",
   "status": "proved",
   "theorems": [
    "CB.C118_mirror",
    "CB.C118_smoothers_mirror",
    "CB.C118_smoothers_units",
    "CB.C118_units",
    "CB.C118_weighted_mean_units_fail"
   ],
   "note": "Whole fits and predictions in other units and with the other sign; C118_smoothers_units and C118_smoothers_mirror show which smoothers of the package follow, C118_weighted_mean_units_fail where it ends."
  },
  {
   "property": "C119",
   "status": "proved",
   "theorems": [
    "CB.C119_additive",
    "CB.C119_mean_not_positive",
    "CB.C119_multiplicative",
    "CB.C119_regressors"
   ],
   "note": "fit_same_start: equal baselines give equal fits; C119_multiplicative, C119_additive; C119_mean_not_positive shows that the condition on the mean is needed; C119_regressors lists the regressors."
  },
  {
   "property": "C120",
   "status": "partial",
   "theorems": [
    "CB.C120_baseline",
    "CB.C120_bins",
    "CB.C120_full_claim_fails",
    "CB.C120_generic_uncertainty",
    "CB.C120_quantiles",
    "CB.C120_smoothers",
    "CB.C120_training_partial"
   ],
   "note": "Training is the exact mirror image (C120_bins, C120_training_partial, C120_smoothers); the symmetries of the quantile functions it assumes are proved of the actual ones in C120_quantiles. Missing: the complete fit; it is false of the code (C120_baseline, C120_full_claim_fails: the starting probabilities of the two models sum to 1.002)."
  },
  {
   "property": "C121",
   "status": "proved",
   "theorems": [
    "CB.C121_fit_succeeds",
    "CB.C121_iterations",
    "CB.C121_maximal_iterations"
   ],
   "note": "Bound on the number of iterations, independence of maximal_iterations above it, and success of the fit within it. Exact arithmetic; the learning rate function is fixed."
  },
  {
   "property": "C122",
   "status": "proved",
   "theorems": [
    "CB.C122_fixed_iterations",
    "CB.C122_no_smoothing",
    "CB.C122_subtraction",
    "CB.C122_superposition"
   ],
   "note": "C122_superposition is the general form for equally many iterations, C122_fixed_iterations shows that switching off early stopping guarantees them (and that all three fits succeed), C122_subtraction is the form in the documentation of the class, C122_no_smoothing shows that NoSmootherChoice meets the condition on smoothers. Smoothers whose weights depend on the uncertainties (polynomials, weighted means) are not covered: the uncertainties depend on the target."
  },
  {
   "property": "C123",
   "status": "partial",
   "theorems": [
    "CB.C123_classifier",
    "CB.C123_generic",
    "CB.C123_no_smoothing",
    "CB.C123_quantile_costs",
    "CB.C123_quantile_partial",
    "CB.C123_ties_counterexample"
   ],
   "note": "Proved in full for regressors and classifiers with their own scale-free costs. For the quantile regressors it is proved if no two targets are equal; with repeated targets it is false, because the continuous quantile uses the cumulated weight as an index (C123_ties_counterexample: two samples with target 0 and the weights 1 or 100 are predicted 1 or 100 for a new category)."
  },
  {
   "property": "C124",
   "status": "proved",
   "theorems": [
    "CB.C124_best_exists",
    "CB.C124_convergence",
    "CB.C124_limit",
    "CB.C124_no_smoothing"
   ],
   "note": "One rate for all targets, priors and stop rules (C124_convergence), the goal exists (C124_best_exists), limit for growing maximal_iterations (C124_limit), where it applies (C124_no_smoothing)."
  },
  {
   "property": "C125",
   "status": "proved",
   "theorems": [
    "CB.C125_more_features",
    "CB.C125_same_limit"
   ],
   "note": "C125_same_limit, C125_more_features."
  },
  {
   "property": "C126",
   "status": "proved",
   "theorems": [
    "CB.C126_calibrated",
    "CB.C126_total"
   ],
   "note": "C126_calibrated per bin, C126_total for all samples."
  },
  {
   "property": "C127",
   "status": "proved",
   "theorems": [
    "CB.C127_mean"
   ],
   "note": "Any smoothers, learning rates and prior predictions; in aggregate mode."
  },
  {
   "property": "C128",
   "status": "partial",
   "theorems": [
    "CB.C128_dispersion_drift",
    "CB.C128_generic_classifier_drift",
    "CB.C128_location_counterexample",
    "CB.C128_neutral_partial",
    "CB.C128_poisson_partial"
   ],
   "note": "False for CBLocationRegressor, CBGenericClassifier and CBNBinomC without Bayesian averaging (C128_location_counterexample, C128_generic_classifier_drift, C128_dispersion_drift); exactly true for the other estimators but the Poisson and negative binomial regressors, where the contribution is at most 6e-6 per iteration. That the optimiser of the generic losses returns its start value on constant costs is a hypothesis."
  },
  {
   "property": "C129",
   "status": "proved",
   "theorems": [
    "CB.C129_cell_means",
    "CB.C129_components_redundant"
   ],
   "note": "Needs bin numbers (no missing values) in the columns of the comprising feature: a missing component sends the whole row to the one bin of missing values, so the interaction does not determine its components there."
  },
  {
   "property": "C130",
   "status": "proved",
   "theorems": [
    "CB.C130_noise"
   ],
   "note": "For setups whose smoothers turn combinations of bin values into combinations (shown for no smoothing) and with early stopping switched off."
  },
  {
   "property": "C131",
   "status": "proved",
   "theorems": [
    "CB.C131_continued"
   ],
   "note": "Constant learning rate and early stopping switched off (negative minimal changes); no divergence follows from C80."
  },
  {
   "property": "C132",
   "status": "partial",
   "theorems": [
    "CB.C132_categorical",
    "CB.C132_continuous_partial",
    "CB.C132_continuous_shifted",
    "CB.C132_last_binner",
    "CB.C132_mismatch",
    "CB.C132_wrong_label"
   ],
   "note": "Proved for categorical columns. False for continuous columns: every label stands half a bin to the left of its factor (C132_continuous_shifted), and what the label is worth is C132_continuous_partial. If the binner and the estimator have seen different categories labels can be wrong (C132_wrong_label, C132_mismatch)."
  },
  {
   "property": "C133",
   "status": "proved",
   "theorems": [
    "CB.C133_dispersion",
    "CB.C133_estimator",
    "CB.C133_pipeline",
    "CB.C133_pipeline_whole",
    "CB.C133_price"
   ],
   "note": "Estimator objects of the API model (fitted, unfitted, interrupted), the width regressor, the elasticity model and the pipeline with a binner."
  },
  {
   "property": "C134",
   "status": "proved",
   "theorems": [
    "CB.C134_column_order",
    "CB.C134_group_by"
   ],
   "note": "C134_column_order for the default choice of smoothers and for no smoothing, with explicit smoothers for single columns only; hierarchical feature groups must not distinguish the orders. C134_group_by shows that the group-by choice is rightly excluded."
  },
  {
   "property": "C135",
   "status": "proved",
   "theorems": [
    "CB.C135_estimator",
    "CB.C135_feature",
    "CB.C135_pipeline",
    "CB.C135_state"
   ],
   "note": "C135_estimator, C135_state and C135_pipeline; C135_feature is the statement for one feature. That pickle restores all attributes without a format of their own is assumed."
  },
  {
   "property": "C136",
   "status": "proved",
   "theorems": [
    "CB.C136_dispersion",
    "CB.C136_larger_limit",
    "CB.C136_looser",
    "CB.C136_not_converging",
    "CB.C136_price",
    "CB.C136_same_number"
   ],
   "note": "For the default learning rate, which rises until half of maximal_iterations, the claim about maximal_iterations does not apply (example beside the theorems)."
  },
  {
   "property": "C137",
   "status": "proved",
   "theorems": [
    "CB.C137_construct",
    "CB.C137_estimators",
    "CB.C137_fit",
    "CB.C137_joined_names",
    "CB.C137_names",
    "CB.C137_predict",
    "CB.C137_price_construct",
    "CB.C137_price_fit",
    "CB.C137_price_predict",
    "CB.C137_transform"
   ],
   "note": "For a permutation of names; transform needs that the empty name stays as it is (an empty output column counts as none). C137_joined_names shows what the names decide in get_feature_importances."
  },
  {
   "property": "C138",
   "status": "proved",
   "theorems": [
    "CB.C138_baseline",
    "CB.C138_baseline_classifier",
    "CB.C138_baseline_quantile",
    "CB.C138_binning",
    "CB.C138_fit",
    "CB.C138_only_divergence",
    "CB.C138_pipeline",
    "CB.C138_quantile_zero_counterexample",
    "CB.C138_training"
   ],
   "note": "Complete list of reasons as an inductive specification (Spec/Failure.lean); fit succeeds iff none of them holds. A starting value that is not finite counts as a failure in the model, the code goes on with it. Finding: the multiplicative quantile regressor takes the logarithm of 0 if the quantile of the targets is 0."
  },
  {
   "property": "C139",
   "status": "proved",
   "theorems": [
    "CB.C139_bookkeeping",
    "CB.C139_clipped",
    "CB.C139_exact",
    "CB.C139_linear",
    "CB.C139_predict"
   ],
   "note": "Standard model of floating-point arithmetic without overflow (Spec/Rounded.lean), for the bookkeeping of predictions and factors; the rounding inside estimates, smoothers, calibration and loss is arbitrary."
  },
  {
   "property": "C140",
   "status": "proved",
   "theorems": [
    "CB.C140_categories",
    "CB.C140_failed_fit",
    "CB.C140_inplace",
    "CB.C140_pipeline_fit",
    "CB.C140_pipeline_transform",
    "CB.C140_refit",
    "CB.C140_transform",
    "CB.C140_unfitted",
    "CB.C140_untouched",
    "CB.C140_untouched_history"
   ],
   "note": "The binner as an object over a memory of tables; histories of calls are arbitrary lists of fits and transforms, also failing ones."
  },
  {
   "property": "C141",
   "status": "partial",
   "theorems": [
    "CB.C141_array",
    "CB.C141_int8_counterexample",
    "CB.C141_like_table_partial",
    "CB.C141_unsigned_counterexample"
   ],
   "note": "Proved for float types and for signed integer types with room for all bin numbers. False for the other element types: the numbers overflow (C141_unsigned_counterexample, C141_int8_counterexample); C141_array says exactly what happens."
  },
  {
   "property": "C142",
   "status": "partial",
   "theorems": [
    "CB.C142_counterexample",
    "CB.C142_others",
    "CB.C142_overwritten",
    "CB.C142_result",
    "CB.C142_unchanged_partial"
   ],
   "note": "Proved for arrays of integers and for all arrays other than the one passed. False for arrays of floats, which are overwritten (C142_overwritten, C142_counterexample). Data frames are not modelled here."
  },
  {
   "property": "C143",
   "status": "proved",
   "theorems": [
    "CB.C143_above",
    "CB.C143_below",
    "CB.C143_between"
   ],
   "note": ""
  },
  {
   "property": "C144",
   "status": "proved",
   "theorems": [
    "CB.C144_accepted",
    "CB.C144_dispersion",
    "CB.C144_not_refused",
    "CB.C144_price",
    "CB.C144_refused"
   ],
   "note": "Targets are numbers in the model; NaN is not modelled."
  },
  {
   "property": "C145",
   "status": "partial",
   "theorems": [
    "CB.C145_counterexample",
    "CB.C145_lower_partial",
    "CB.C145_upper"
   ],
   "note": "The claim is false above the split point (C145_counterexample); C145_upper says what is predicted there."
  },
  {
   "property": "C146",
   "status": "proved",
   "theorems": [
    "CB.C146_estimates",
    "CB.C146_finishes",
    "CB.C146_losses",
    "CB.C146_mean",
    "CB.C146_mean_rounded",
    "CB.C146_outside",
    "CB.C146_race_free",
    "CB.C146_samples",
    "CB.C146_terminates"
   ],
   "note": "Interleaving semantics of the two prange loops; determinism for arbitrary arithmetic, race freedom, progress and termination; the sum of the mean loss is bounded under rounding (an example shows that it is not bit-identical across splits)."
  },
  {
   "property": "C147",
   "status": "proved",
   "theorems": [
    "CB.C147_bisection",
    "CB.C147_bracket",
    "CB.C147_not_backwards",
    "CB.C147_quadratic"
   ],
   "note": "For derivatives with a sign change in the bin; that the loop ends early when all bins are content, even if only because of a nearby end of the bracket, is part of the statement."
  },
  {
   "property": "C148",
   "status": "proved",
   "theorems": [
    "CB.C148_best",
    "CB.C148_keeps",
    "CB.C148_mean",
    "CB.C148_range",
    "CB.C148_truth"
   ],
   "note": "Relative to the documented property of sklearn.isotonic.IsotonicRegression, which bestIsotonic_exists shows to be satisfiable."
  },
  {
   "property": "C149",
   "status": "partial",
   "theorems": [
    "CB.C149_bounded_never_trains",
    "CB.C149_coverage",
    "CB.C149_no_crossing",
    "CB.C149_predict",
    "CB.C149_training",
    "CB.C149_trains_semibounded_partial"
   ],
   "note": "In mode B training never succeeds with estimators that refuse empty tables and unequal lengths (C149_bounded_never_trains); in mode S the claims hold except that the targets of the upper model lack a factor (C42)."
  },
  {
   "property": "C150",
   "status": "proved",
   "theorems": [
    "CB.C150_chain",
    "CB.C150_inner",
    "CB.C150_inner_fails_iff",
    "CB.C150_inner_one_level",
    "CB.C150_one_level",
    "CB.C150_one_sample",
    "CB.C150_outer",
    "CB.C150_single_row"
   ],
   "note": "Batch evaluation equals evaluation one by one for all sizes; axes of length one are dropped."
  },
  {
   "property": "C151",
   "status": "proved",
   "theorems": [
    "CB.C151_converges",
    "CB.C151_limit_near_mean",
    "CB.C151_rate"
   ],
   "note": "Poisson only. The hypothesis that the fit does not diverge is needed: with constant targets and single-sample groups the limit (0.996 for target 1) can be further from the targets than the start (1.001), which the loss check reports as divergence."
  },
  {
   "property": "C152",
   "status": "partial",
   "theorems": [
    "CB.C152_count",
    "CB.C152_distinct_partial",
    "CB.C152_full_claim_fails",
    "CB.C152_order"
   ],
   "note": "Proved for tables with distinct column names (C152_distinct_partial); for all tables the result is a sublist (C152_order) and the number of columns left of every name is known (C152_count). Missing: tables with repeated names, where the claim is false of the code, because list.remove takes away one column only (C152_full_claim_fails)."
  },
  {
   "property": "C153",
   "status": "proved",
   "theorems": [
    "CB.C153_closed_form",
    "CB.C153_monotone",
    "CB.C153_rate"
   ],
   "note": "Exact formula (C153_closed_form), geometric rate (C153_rate) and monotonicity in the targets (C153_monotone). That such trainings do not diverge is C80."
  },
  {
   "property": "C154",
   "status": "proved",
   "theorems": [
    "CB.C154_exact",
    "CB.C154_rate"
   ],
   "note": "The optimiser is only assumed to find minima; the multiplicative regressor, which limits its steps and the size of its factors, is in C156. That such trainings do not diverge is C84 (for optimisers that do not worsen their start value)."
  },
  {
   "property": "C155",
   "status": "proved",
   "theorems": [
    "CB.C155_excess",
    "CB.C155_optimal"
   ],
   "note": "The optimiser is only assumed to find minima. That such trainings do not diverge is C84 (for optimisers that do not worsen their start value)."
  },
  {
   "property": "C156",
   "status": "proved",
   "theorems": [
    "CB.C156_optimal",
    "CB.C156_quantile",
    "CB.C156_rate"
   ],
   "note": "The optimiser is only assumed to find minima. That such trainings do not diverge is C84 (for optimisers that do not worsen their start value and find no negative factors). The bounds are those of the code: 0.01 and 1000 for features of one column, 0.1 and 100 otherwise."
  },
  {
   "property": "C157",
   "status": "proved",
   "theorems": [
    "CB.C157_calibration",
    "CB.C157_classifier",
    "CB.C157_estimates",
    "CB.C157_gbs",
    "CB.C157_gbs_counterexample",
    "CB.C157_locPoisson",
    "CB.C157_locPoisson_nan",
    "CB.C157_location",
    "CB.C157_location_nan",
    "CB.C157_nbinom",
    "CB.C157_nbinom_counterexample",
    "CB.C157_poisson"
   ],
   "note": "Exact arithmetic with NaN and infinities, without rounding and overflow. C157_estimates is the summary; the _nan and _counterexample theorems show that each exception occurs."
  },
  {
   "property": "C158",
   "status": "proved",
   "theorems": [
    "CB.C158_beta",
    "CB.C158_gamma",
    "CB.C158_gaussian",
    "CB.C158_gaussian_float",
    "CB.C158_gbs",
    "CB.C158_locPoisson",
    "CB.C158_locPoisson_unit",
    "CB.C158_location",
    "CB.C158_location_prior",
    "CB.C158_nbinom",
    "CB.C158_poisson",
    "CB.C158_poisson_anti",
    "CB.C158_positive"
   ],
   "note": "for the estimators of the package with valid targets; background subtraction and the Poisson location regressor are characterised exactly"
  },
  {
   "property": "C159",
   "status": "proved",
   "theorems": [
    "CB.C159_declared",
    "CB.C159_duplicates",
    "CB.C159_explicit",
    "CB.C159_explicit_used",
    "CB.C159_external",
    "CB.C159_get_feature",
    "CB.C159_iter_fitting",
    "CB.C159_lookup",
    "CB.C159_subestimators",
    "CB.C159_unknown"
   ],
   "note": "columns are strings"
  },
  {
   "property": "C160",
   "status": "proved",
   "theorems": [
    "CB.C160_calibrated",
    "CB.C160_convergence",
    "CB.C160_limit",
    "CB.C160_same_as_gbs"
   ],
   "note": "additive generic regressor with squared costs; no prior predictions; optimiser is a parameter that finds minima"
  },
  {
   "property": "C161",
   "status": "partial",
   "theorems": [
    "CB.C161_crossing_counterexample",
    "CB.C161_full_steps_partial",
    "CB.C161_one_feature_partial",
    "CB.C161_start_counterexample"
   ],
   "note": "Single-feature models keep the order of the levels (with equal learning rates and numbers of iterations and ordered start values, or with one full step). With two features the code does not: a training set of four samples gets the prediction 1 for the level 0.55 and 0 for the level 0.7 (C161_crossing_counterexample). The start values themselves can be in the wrong order because of the interpolation between equal targets (C161_start_counterexample)."
  },
  {
   "property": "C162",
   "status": "proved",
   "theorems": [
    "CB.C162_fails_iff",
    "CB.C162_frame_as_array",
    "CB.C162_index",
    "CB.C162_index_fails_iff",
    "CB.C162_many",
    "CB.C162_one",
    "CB.C162_order"
   ],
   "note": "Names of frames are assumed to be different; a name that occurs twice gives a matrix (shown in the witness)."
  },
  {
   "property": "C163",
   "status": "partial",
   "theorems": [
    "CB.C163_one_feature_partial",
    "CB.C163_stuck_counterexample"
   ],
   "note": "holds for single-feature models (C163_one_feature_partial); false for two features: C163_stuck_counterexample shows a training that stays at the costs 1 for every number of iterations while an additive model has the costs 0. C160 is the result for squared costs and any number of features."
  },
  {
   "property": "C164",
   "status": "proved",
   "theorems": [
    "CB.C164_columns_separate",
    "CB.C164_equal",
    "CB.C164_greater",
    "CB.C164_interpolation",
    "CB.C164_overlap_counterexample",
    "CB.C164_transform"
   ],
   "note": "The tables to search in have to hold finite numbers and to be outside the output. C164_overlap_counterexample shows that outputs that overlap the input otherwise give wrong results."
  },
  {
   "property": "C165",
   "status": "proved",
   "theorems": [
    "CB.C165_entries",
    "CB.C165_no_value_error",
    "CB.C165_row_independent",
    "CB.C165_rows"
   ],
   "note": "The whole-array searches are written element by element; C164 proves that the loops in memory do this."
  },
  {
   "property": "C166",
   "status": "partial",
   "theorems": [
    "CB.C166_completed_partial",
    "CB.C166_observer_counterexample",
    "CB.C166_only_after_raise_partial",
    "CB.C166_own_attributes_partial",
    "CB.C166_price_counterexample",
    "CB.C166_raised_counterexample"
   ],
   "note": "Proved for all estimators but the price model, without observers: what is kept comes from fits that raised. Counterexamples: a fit that raises leaves data in the importances; the price model keeps weights and prices; an observer keeps the binned samples."
  },
  {
   "property": "C167",
   "status": "partial",
   "theorems": [
    "CB.C167_analysis_partial",
    "CB.C167_figures_counterexample",
    "CB.C167_figures_partial",
    "CB.C167_grid",
    "CB.C167_pages",
    "CB.C167_raises",
    "CB.C167_style_restored"
   ],
   "note": "Settings, file, pages and grid proved. The claim about figures is false: an analysis that completes closes the figures of the user, one that raises leaves its own open."
  },
  {
   "property": "C168",
   "status": "partial",
   "theorems": [
    "CB.C168_dispersion_counterexample",
    "CB.C168_dispersion_partial",
    "CB.C168_dispersion_unchanged",
    "CB.C168_same_predictions",
    "CB.C168_unchanged_partial"
   ],
   "note": "Proved for all estimators but the dispersion model, which clips the column of prior predictions in place (counterexample); what it leaves is proved exactly."
  },
  {
   "property": "C169",
   "status": "partial",
   "theorems": [
    "CB.C169_any_schedule_partial",
    "CB.C169_finishes",
    "CB.C169_missing_price_counterexample",
    "CB.C169_price_counterexample",
    "CB.C169_same_prices_partial",
    "CB.C169_uninterrupted_partial"
   ],
   "note": "Holds for all estimators but the price model (C169_any_schedule_partial), with progress (C169_finishes). Price model: proved for uninterrupted threads and for equal prices without missing ones; false otherwise (C169_price_counterexample, C169_missing_price_counterexample)."
  },
  {
   "property": "C170",
   "status": "partial",
   "theorems": [
    "CB.C170_again",
    "CB.C170_colors",
    "CB.C170_first",
    "CB.C170_second",
    "CB.C170_unchanged_partial",
    "CB.C170_weights_counterexample"
   ],
   "note": "The marginal distributions, colour limits and repeated drawing are proved; the weights of empty bins are changed by the plot (C170_weights_counterexample), all others are kept (C170_unchanged_partial)."
  },
  {
   "property": "C171",
   "status": "partial",
   "theorems": [
    "CB.C171_again",
    "CB.C171_copied_partial",
    "CB.C171_in_place",
    "CB.C171_in_range_partial",
    "CB.C171_layout_counterexample",
    "CB.C171_training"
   ],
   "note": "Proved for arrays that are copied and for bin numbers in range (so for training, C171_training); false for adjacent 64 bit floats out of range (C171_in_place, C171_layout_counterexample)."
  },
  {
   "property": "C172",
   "status": "partial",
   "theorems": [
    "CB.C172_bars_partial",
    "CB.C172_curve_counterexample",
    "CB.C172_curve_partial",
    "CB.C172_log",
    "CB.C172_log_counterexample",
    "CB.C172_probability",
    "CB.C172_value"
   ],
   "note": "Proved for additive models and classifiers; false for multiplicative models (C172_log, C172_log_counterexample), and for the curves of features with a single bin (C172_curve_counterexample)."
  },
  {
   "property": "C173",
   "status": "partial",
   "theorems": [
    "CB.C173_between_features_partial",
    "CB.C173_counterexample",
    "CB.C173_estimators",
    "CB.C173_first_iteration",
    "CB.C173_forgets_partial",
    "CB.C173_last_update_partial",
    "CB.C173_prepared",
    "CB.C173_replaced_partial",
    "CB.C173_within_update"
   ],
   "note": "Proved: predict raises if the first iteration has not reached the last feature (C173_first_iteration); estimators with aggregate=False predict what training has reached, between iterations (C173_replaced_partial), between features (C173_between_features_partial) and after the smoother of a feature is fitted (C173_within_update); after the loop predict works as after a complete fit (C173_prepared). False for aggregate=True: the prediction is the prior prediction and the last update alone (C173_last_update_partial, C173_counterexample), and for the background-subtraction regressor it approaches the starting predictions (C173_forgets_partial). C173_estimators says which estimators meet the hypotheses."
  },
  {
   "property": "C174",
   "status": "partial",
   "theorems": [
    "CB.C174_counterexample",
    "CB.C174_inplace_partial",
    "CB.C174_inplace_repeat_partial",
    "CB.C174_interrupted_fit",
    "CB.C174_noticed",
    "CB.C174_raised",
    "CB.C174_repeat"
   ],
   "note": "false with inplace=True, where the table of the caller is half binned after an interruption and a repetition bins the bin numbers again (C174_counterexample); with inplace=False, and for interrupted fits, the claim is proved in full"
  },
  {
   "property": "C175",
   "status": "partial",
   "theorems": [
    "CB.C175_binner_raised",
    "CB.C175_counterexample",
    "CB.C175_refit",
    "CB.C175_refused_partial",
    "CB.C175_same_table",
    "CB.C175_steps"
   ],
   "note": "C175_refit (any history), C175_binner_raised and C175_same_table are proved in full; C175_refused_partial says what a fit leaves whose estimator refuses the targets. C175_counterexample is a pipeline that predicts 3/2 for the value 30, whose refit raises a KeyError, and which then predicts 1/2 for the same value."
  },
  {
   "property": "C176",
   "status": "proved",
   "theorems": [
    "CB.C176_columns",
    "CB.C176_refused"
   ],
   "note": "C176_columns is stated in one direction; the other one is the same theorem with the tables exchanged. Without feature groups the columns of the table are the features, in their order (C92_default_features)."
  }
 ]
}