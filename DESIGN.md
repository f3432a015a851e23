# Formal model of cyclic-boosting: design

The model is written in Lean 4 (4.33.0) with single Mathlib modules. It lives in `lean/Verif`.

* `Verif/Model/*.lean`   executable (or, where logarithms and hyperbolic functions are needed, real-valued) model of
  the Python code, function by function, each definition citing the file and lines it models.
* `Verif/Spec/*.lean`    small specifications, written without reference to the model.
* `Verif/Lemmas/*.lean`  helper lemmas.
* `Verif/Props/*.lean`   the property theorems, named `C01_...`, `C02_...`, with non-vacuity examples beside them.

## Trusted base

* Lean's kernel.
* Axioms: every property theorem depends on at most `propext`, `Classical.choice`, `Quot.sound`. No axiom is added,
  there is no `sorry`, no `native_decide` and no `bv_decide`.
* The reading of the Python source: the model is tied to the code only by the citations in the comments.
* Conventions of the model
  * float64 arithmetic is modelled by exact arithmetic in an arbitrary linearly ordered field (or in the real numbers
    where transcendental functions occur). Overflow and signed zero are not modelled; rounding is modelled for the training
    loop and the prediction only (Model/Rounded, C139: any arithmetic with bounded relative errors). Where NaN or infinities
    influence control flow they are explicit values of an inductive type `Flt`.
  * numpy arrays are lists or functions on indices; in-place mutation is a function returning the new value. Where
    aliasing with the caller's data matters it is stated.
  * Python exceptions are values (`Except`), out-of-range indexing is `none`.
  * scipy/sklearn optimisers, smoothers and special functions (erfinv, beta and gamma quantiles, isotonic regression,
    curve_fit, minimize) are parameters; each theorem says what it assumes about them.
* Not modelled: what matplotlib draws (the numbers handed to it, the figures and settings it leaves behind are: C116, C132,
  C167, C170, C172), logging and warnings (except where they raise), pickling other than the bin-value smoother (C135
  assumes that pickle restores the other attributes), numba compilation, pandas internals.

## Plan per property

| id | what is modelled | how it is proved |
|----|------------------|------------------|
| C01 | binary search `ge`, `ge_multi`, continuous branch of `_transform_one_feature` | loop invariant by recursion induction; the result is characterised by an independent "first index" specification |
| C02 | as C01 | corollary of the characterisation |
| C03 | `le`, `check_equal`, `eq_multi` with Python's negative index wrap-around | loop invariant, case analysis of the wrapped index |
| C04 | `_transform_one_feature` with explicit NaN/inf values and magic integers | case analysis plus C01/C03 |
| C05-C07 | `reduce_cdf_and_boundaries_to_nbins` with `ge_lim`, the modulo and the early exit | invariant over the loop |
| C08 | `le_interp` | characterisation of `le` plus field arithmetic |
| C09 | `calculate_cdf_from_weighted_data` | the alignment claim is false for zero weights: counterexample plus `_partial` theorem for positive weights |
| C10 | `_as_int_array_of_minimum_dtype` | integer arithmetic with two's-complement wrap |
| C11-C13 | `bin_steps`, `multidim_binnos_to_lexicographic_binnos`, `arange_multi` | mixed-radix induction on the dimensions; C13 is false when no row is valid: counterexample plus `_partial` |
| C14-C15 | `flags.py` on bit vectors / integers | bit reasoning for all integers; C15 is false: counterexample plus `_partial` |
| C16 | link functions on the reals | Mathlib's log/exp |
| C17 | learning rates | field arithmetic, tanh/exp for the logistic one |
| C18-C20 | training loop as a state machine with an arbitrary oracle for factor estimates, losses and clipping | invariant by induction over iterations and features; C20 is false with divergence: counterexample plus `_partial` |
| C21-C22 | loop control (`_check_stop_criteria`, `_check_convergence`) driven by an arbitrary history | induction with a counter argument |
| C23 | clipping in `visit_factors` | invariant over iterations |
| C24-C25 | `_predict_factors`, `predict_extended`, `get_feature_contributions` | algebra |
| C26-C27 | `UpdateMixin` as a state machine on columns | induction over feature list; C27 is false when the category column is absent: counterexample plus `_partial` |
| C28 | importances and normalisation | algebra; name collisions: counterexample plus `_partial` |
| C29 | `_check_len_data` | false: counterexample plus `_partial` |
| C30 | `calc_factors_generic` | completing the square |
| C31 | NBinom/Poisson parameter computation | algebra |
| C32 | `linear_regression` | normal equations, sum-of-squares argument |
| C33-C34 | regularisation functions | convexity; real square root |
| C35 | classifier outputs and quantile levels | algebra |
| C36 | pinball loss | convexity and subgradient at the weighted quantile |
| C37 | sort/split/insert logic of `CBGenericLoss.calc_parameters` | list induction |
| C38-C40 | J-QPD distributions on the reals with an arbitrary symmetric increasing base quantile function | hyperbolic identities; the symmetric-triplet cases fail: counterexamples plus `_partial` |
| C41-C43 | chain and transformations | exp/log algebra; C42 is false for the semi-bounded case: counterexample plus `_partial` |
| C44 | `newton_bisect` per bin with arbitrary oracle | loop invariant |
| C45 | dispersion grid, argmin, softmax average | list induction |
| C46 | GBS estimate | completing the square |
| C47 | `create_interactions` | combinatorics of sublists |
| C48 | `pipeline_CB` argument forwarding as records | false for some estimators: counterexamples plus `_partial` |
| C49-C51 | meta smoothers, bin-value smoothers | case analysis |
| C52 | `neutralize_one_dim_influence` | algebra on finite sums |
| C53 | smoother choice | case analysis over all flags |
| C54 | location regressors | algebra |
| C55 | link transformation of the generic optimum | algebra on the links; false for the classifier: counterexample plus `_partial` |
| C56 | `continuous_quantile_from_discrete` | counting argument on the cumulated weights; false in general: counterexamples plus `_partial` |
| C57 | empty bins of the Poisson/NBinom regressor | numerical bound on the median of a gamma distribution, by integrals, inside the kernel |
| C58 | `SinhLogistic`, `BaseDist`-like wrappers | hyperbolic identities, `HasDerivAt` |
| C59 | `newton_step`, exponent fit | `HasDerivAt` of the documented objective |
| C60 | price prediction | monotonicity of exp |
| C61 | feature lists and prediction columns of the price model | list induction |
| C62 | dispersion model on empty bins | induction over argmin; false in the default mode: counterexample plus `_partial` |
| C63 | `SectionSmoother` | list induction over the scatter of the two parts |
| C64 | loop condition after each iteration | invariant over traces of the training state machine |
| C65 | `visit_factors` while diverging | case analysis plus invariant over traces |
| C66 | one feature iteration | unfolding along the feature pass, with the trace invariants of C18 |
| C67 | parameters of the fitted negative binomial distribution | moments of the distribution from the binomial series |
| C68 | dispersion loss | moments as in C67 |
| C69 | gamma moment matching | Gamma integrals |
| C70 | orthogonal polynomial recursion | orthogonality by induction, Parseval decomposition of chi-squared |
| C71 | significance loop | first index of the search equals first sufficient degree |
| C72 | clamping, shift | case analysis; shift via uniqueness of the minimiser |
| C73 | smoother choice, isotonic smoother at the bin centers, training history, prediction | induction over traces: sums, clips and non-negative multiples keep the order |
| C74 | regression-type cut at the bin centers, training history, prediction | the cut selects exactly the bins without weight; induction over traces |
| C75 | link functions on floats with special values, weighted means, offset and fallback | real-number algebra with exp/log inverses; case analysis on special values; counterexample for a classifier with only positives |
| C76 | whole fit (Model/Fit) with the estimators' calc_parameters, scale and loss | simulation of two trainings: equal weighted row masses give equal bin sums, then induction over the iterations; counterexamples for the location estimators |
| C77 | whole fit | simulation with the permutation as relation between the sample numbers |
| C78 | whole fit | simulation of the two trainings |
| C79 | whole fit with the location estimator | simulation: the running predictions differ by c in every iteration |
| C80 | Whole GBS fits (Model/Fit) with the smoothers of the package (Model/BinSmoothers) | per-bin ridge step decreases a quadratic; induction over the features of a pass and the iterations; smoothers evaluated at bin centres |
| C81 | Model/BinSmoothers wrapped as in common_smoothers, evaluated at bin centres | convex combination; zero uncertainty traced through numpy's inf/inf; trace induction for the fit |
| C82 | bin table of an interaction, group selection, fit and prediction per group, choice of the inner smoother and its wrapping | positional digits of bin numbers; row-wise prediction at bin centres by induction on the kind of smoother |
| C83 | choice of the smoother, wrapping, normalization, regression | unique minimiser of the weighted squared error; shift of the intercept |
| C84 | generic-loss estimators in the model of a whole fit, with the optimiser and the user's costs left open | convexity per bin: the updated, smoothed and clipped bin value is part of the way from the current one to the optimum; induction over features and iterations |
| C85 | The composition of the models of binner (fit and transform) and estimator (whole fit and predict). | Composition of the binning theorems (C01, C02, C05) with C73 for whole fits; the last bin is shown to hold a training sample. |
| C86 | As C85. | Equivariance of the empirical cdf, of its reduction and of the search under strictly increasing and affine maps, by induction over the loops; then equality of the binned tables. |
| C87 | As C85. | The empirical cdf depends on the multiset of the values only; composition with C77. |
| C88 | As C85. | The bins of a discrete column depend on the set of its values only; composition with C76. A concrete counterexample for a continuous column. |
| C89 | As C85. | Composition of C03, C04 and C25 through the fitted bins. |
| C90 | `np.bincount` on the combined bin numbers of `bind_data` | sums over rows, exchange of sums, the bins of rows from C19 |
| C91 | estimator objects with their attributes, `fit` as a transition that may raise at several points | induction over histories: the feature groups are the only attribute that a fit reads |
| C92 | data frames with column names, missing columns raise | simulation of the two fits as for C76 and C77 |
| C93 | `fit_transform` and `transform` of estimator objects | case analysis; in-sample predictions by C19 |
| C94 | `_check_fitted` on estimator objects | induction over histories; counterexample for predictions |
| C95 | `CBNBinomC` in whole fits with `lgamma` as the logarithm of the gamma function | the log-probabilities are those of the distribution, hence the loss is not negative; per bin the chosen offset is not worse than 0 (C45), summed over bins, features and iterations |
| C96 | whole training of the price model with its two-part running prediction, on top of the training loop | bounds of the factors of external features by the invariant of the training loop (C23), then algebra of the exponential law |
| C97 | both whole trainings | the two oracles agree on every running prediction, so the runs agree |
| C98 | `digitize`, `npDigitize`, `calcLinearBins` (Model/Histogram) | counting boundaries not above the value in a sorted list; equidistant boundaries are sorted and contain minimum and maximum |
| C99 | `calcMeansMedians`, `evenStats`, `weightedStats`, `calcWeightedQuantile` (Model/Histogram) | sorted cumulative weights reach the share first at the quantile; permutation and scaling by uniqueness of the quantile |
| C100 | `inSampleHistograms`, `hasMean` (Model/Histogram) | groups of C99 are the bins of C98; counterexample for bins of weight zero |
| C101 | `observedLoop`, `observedFit`, `PlottingObserver` (Model/Observers) | induction over the loop; the observed loop projects to the loop of Model/Training; counterexamples for iteration N of N and for mid-run factors |
| C102 | `smearDiscreteCdftruth`, `smearDiscreteCdftruthQpd` (Model/Pit) | the image of the product measure has the distribution function of the uniform measure: telescoping sum over the targets |
| C103 | Whole fits (Setup.fit, FittedModel.predict), features bound to renumbered tables, weighted mean smoothers | simulation of the two trainings up to a permutation of the bins of each feature; estimators and weighted means are shown equivariant; combined bin numbers via encode/digits |
| C104 | the three fit functions, fit and predict with curve_fit as argument that satisfies a least-squares specification (shown satisfiable) | linear algebra of least squares, sums of roots of unity over a period, and the wrapping lemma of the meta smoothers |
| C105 | polyfit as argument with the documented least-squares property (shown satisfiable), Horner evaluation, both smoothers | induction for Horner's scheme; convexity of the error for the lines that do not fall; concrete values for the weights |
| C106 | fit and predict with the Lasso fit as an arbitrary argument | direct calculation with the four columns, sums over a period, and the values of the cosine at the two ends |
| C107 | Model/Selection: SelectKBest as stable argsort and mask, score function as argument, squared correlation (monotone in f_regression's F) as instance | sortedness and permutation of the argsort; order dependence and XOR case as concrete runs in the kernel |
| C108 | Model/QuantileFits: the three fits with curve_fit and the base distributions as arguments | weighted linear regression has a unique minimiser; its slope is positive for rising values; zero error forces reproduction |
| C109 | Model/ShapeFit: np.quantile, mquantiles, the mean absolute deviation and the shape fit with minimize_scalar as argument | affine change in internal space, scale invariance of the set of minimisers, sorting commutes with increasing maps |
| C110 | whole fit with quantileEstimator and genericEstimator | simulation of two runs whose running predictions differ by the constant; objective, uncertainty, global scale and loss are the same |
| C111 | the training loop with the estimates of each regressor; gammaincinv as an argument that computes gamma medians (specified by integrals; bounds proved in Lemmas/GammaMedian), optimiser as argument with its specification | the running prediction in the last visit of a feature differs from the final one by at most the tolerance per feature; a small change bounds the estimate, and the estimate is neutral exactly when the sums balance |
| C112 | the training loop as in C80 and C84 | invariant over the trace: running prediction equals the starting prediction, stored factors zero, loss constant, not diverging |
| C113 | Python objects as trees with addresses, deepcopy and clone with a counter for new addresses | mutual induction over the tree for content and freshness of addresses; changes at an address leave trees without it alone |
| C114 | `prepare_plots` of the base class for one feature (Model/Analysis) | sums over the samples of a bin, monotonicity of the logarithm |
| C115 | `prepare_plots` of the quantile regressors (groupby, `np.insert` for absent bins, appending) and the reshape of the two-dimensional plot (Model/Analysis) | induction over the bins; one-column features always complete; counterexample for two columns |
| C116 | the functions computing axes, limits and histogram bins (Model/PlotAxes), drawing itself is not modelled | termination and range of the tick loop, extent covers lowest and highest value; counterexamples for error bars and negative values |
| C117 | the fit of a single-feature model, reduced to the sequence of updates of one number per bin | induction over the iterations with the invariant that the aggregated factor of a bin is at most (at least) the target value, plus monotonicity of one update in the state and in the estimate |
| C118 | whole fits and predictions of the background-subtraction regressor with the smoothers of the package, as modelled before | simulation between the two runs: factors, predictions and uncertainties are multiplied by c, losses by c^2, and all stopping decisions are equal; induction over the kinds of smoothers, and over the degrees for the orthogonal polynomials |
| C119 | the whole fit (Setup.fit) with two columns of prior predictions | the offset absorbs the logarithm of c (or c), the baseline of every sample and of every new sample is the same, hence the same run of fitMain and the same fitted features |
| C120 | the whole fit of the classifier, quantile functions of the beta and normal distribution as arguments (specified by integrals of the densities, symmetries proved) | posterior parameters are exchanged, matched quantiles change sign, then simulation of the two runs of training (scaling by -1); the baseline is computed for both models |
| C121 | the training loop with its stop criteria and the GBS estimator (as in C80) | each visit decreases the squared error by at least twice the sum of the squares of the new factors; the squared mean factor change is bounded by these sums of two consecutive iterations; telescoping over the trace of the loop; equality of two loops that never reach their maximal number of iterations |
| C122 | three whole fits of the background-subtraction regressor | a relation between three training states that each update preserves (estimates, smoothing, learning rate and aggregation are linear, clipping does not happen and the training never diverges by C80), induction over the iterations, then linearity of prediction |
| C123 | whole fit (Fit, GenericFit) with the weights multiplied | all quantities an estimator computes are the same, so the two runs are the same function; the quantile regressors' global scale is not when targets repeat (counterexample), so the theorem for them asks for different targets |
| C124 | C80's model of the whole fit | visits are linear operators on the weighted residuals; each takes away at least its own square; compactness of the unit sphere of the additive vectors gives a contraction; induction over the iterations |
| C125 | C124's model | the set of additive models depends on the set of groups only; C124_limit for both trainings and the triangle inequality |
| C126 | C124's model | normal equations of the best additive model by perturbing one bin; Cauchy-Schwarz inequality for the distance to it |
| C127 | whole fit with the calibration of every feature | invariant of C54 per feature, summed over the features, plus the mean of the baseline with partly missing prior predictions |
| C128 | whole fits (Setup.fit) with every estimator; the factor of the missing-value bin | induction over the iterations: a missing-value update is the learning rate times the estimate of a bin without samples, which is 0, at most 6e-6, or computed exactly for the estimators where it is not neutral; counterexamples for the rest |
| C129 | the training loop, the GBS update and the combined bin numbers | the combined bin number determines every component (mixed-radix code is injective), so additive models in the components are additive models in the interaction; then C124 (convergence to the best additive model) for both models; the best additive model is calibrated and constant in a cell |
| C130 | the whole fit of the background-subtraction regressor (Model/Fit.lean, Model/Training.lean), with hypotheses PlainDescent, SuperposingSmoothers | the fit on the difference of the targets predicts the difference of the predictions (C122), its training error never exceeds the one of its starting predictions (C80), and the weighted mean is not worse than 0; then (a-b)^2 <= 2a^2 + 2b^2 |
| C131 | the whole fit of the background-subtraction regressor (Model/Fit.lean), with hypotheses PlainDescent and constant learning rates | a simulation: after k iterations of the second training every feature has collected what it has collected in the single training after M + k iterations minus what the first training collected, and the predictions for the training samples agree; by induction on k, used twice (first training against the single one, second training against the single one); predictions are sums of the collected values |
| C132 | the bin bounds handed to the plots, labels, tick positions and the positions of the factors (Model/PlotLabels), with the binner of Model/Binning | categorical: the rank lemma of C03 gives the position; continuous: C01 gives the bin, the midpoint lies in it up to the rounding. False for continuous columns (ticks are half a bin to the left of the factors) and if the binner has seen other categories than the estimator: counterexamples |
| C133 | the estimator objects of the API model, with tables whose rows are chosen by an index map | every step of the prediction reads one row, so choosing rows commutes with it |
| C134 | two trainings with the same data and reordered feature groups | the permutation of columns induces a permutation of the mixed-radix bin numbers under which all state of the training is related, through every smoother of interactions |
| C135 | fitted features with sparse bin values, estimator objects and pipelines; that pickle restores all other attributes is assumed | the sparse form is a bijection, and prediction reads no bin outside the stored array |
| C136 | Model/Training.lean, Model/Api.lean, Model/PriceFit.lean with other limits (Spec/Limits.lean) | induction over the iterations: an iteration does not read the limits, the loop condition is monotone in them |
| C137 | Model/Api, Model/Fit, Model/SmootherChoice; Spec/Rename defines what renaming does to tables, arguments and objects | each function commutes with the renaming; induction over features, groups and iterations |
| C138 | fit of the estimator object with all its checks, the global scale of every estimator and the training loop (a scale that is not finite counts as a failure; the code goes on with it) | induction over training histories: a pass leaves a feature without factors only in the hierarchical phase, and nothing has diverged there before; the loop follows every history, so each reason also leads to its exception |
| C139 | the training loop and the prediction a second time, with add, subtract and multiply of an arbitrary machine arithmetic; equal to the first model for exact arithmetic | potential function: size bound plus deviation grows by at most (1+u) per rounding, induction over features and histories; correctly rounded arithmetic with 53 binary digits as a witness |
| C140 | fit and transform as methods of an object with a state (the bins found so far, also if fit raises), over a memory of tables with addresses | induction over histories of calls, and over the columns in the loops of fit and transform |
| C141 | arrays with an element type, into which assigned numbers are converted; what a number out of range becomes is arbitrary | characterisation of every entry for all element types, equality with the table for float types and integer types with enough room, counterexamples for bytes with and without sign |
| C142 | a memory of arrays with element types, np.asarray copies only if the type is another one | invariants of the loop over the columns; the array is unchanged if its elements are integers, and a counterexample shows that an array of floats is overwritten |
| C143 | the pipeline model of C85 with the binner and the boosting model | the upper bounds of the bins are training values that are further apart than the tolerance of comparisons, so the bin of a value depends only on which training values are below it; predictions are made row by row from the bins |
| C144 | the estimator objects of C91 and C92 and the list of estimators | case distinction over the estimators, then the order of the checks in fit |
| C145 | the section smoother of C63 with the bin-value smoother of C51 | computation of both parts for a general number of bins |
| C146 | A transition system of threads with local memories, work queues and a shared memory for the two parallel loops, with arbitrary values and operations. | Invariant: memory together with the writes still pending in the open and queued iterations determines the result, each address is owned by one iteration; a measure that decreases with every step. Error bound by induction on the parts. |
| C147 | newtonBisect with the loops of _set_right_bound and newton_bisect (Model/Price.lean). | Invariant: the bracket contains the root and the parameter; induction on the iterations. |
| C148 | isotonicSmoother inside the wrappers of determine_meta_smoother; sklearn's regression is an argument with its documented property (best monotone fit for positive weights), which is shown to be satisfiable. | The wrappers shift values by a constant and back; projection onto a convex cone; existence by the projection theorem in finite dimension. |
| C149 | `chainFit` with estimator objects as arguments, exceptions and the state left behind | case analysis of the steps and induction on the table; mode B never trains: counterexample for all tables |
| C150 | `evalOuter`, `evalInner` with numpy's squeezing and broadcasting, generic in the function of one distribution and one level | case analysis on the sizes, induction on the rows for the chain |
| C151 | the reduction of a single-feature fit to one number per bin (as in C117), gammaincinv as an argument that is only assumed to compute the median of the gamma distribution | shape - 1/3 <= median <= shape proved from integrals; one step moves the log by a factor in [delta, 1] of the distance; induction over the iterations |
| C152 | the loop with list.remove (Model/ColumnNames) | induction over the excluded names; counterexample for a table with two columns of the same name |
| C153 | the reduction of a single-feature fit to one number per bin (as in C117) | induction over the iterations: the distance is multiplied with one factor per iteration; monotonicity from the formula |
| C154 | the reduction of a single-feature fit to one number per bin (as in C117), optimiser as argument with its specification | the estimate leads to a quantile (C36); quantiles form an interval; induction over the iterations |
| C155 | the reduction of a single-feature fit to one number per bin (as in C117), optimiser as argument with its specification | convexity of the costs along one update; induction over the iterations |
| C156 | the reduction of a single-feature fit to one number per bin (as in C117), limits of updates and factors as in the code, optimiser as argument with its specification | the optimal predictions form an interval; one limited update approaches it; induction over iterations |
| C157 | the computations of the parameters with floats that may be NaN or infinite, numpy's rules for division, logarithm and square root | equality with the model over the reals where no denominator is 0; NaN propagated through the sums otherwise |
| C158 | The uncertainties of all estimators on numbers, for additive losses also on floats | bounds of the logarithm, monotonicity, weighted means, sums of squares; the summary goes through the list of estimators |
| C159 | The list of features with its loops, the listing of smoothers and the constructor of smoother choices | induction over the list of features and over the dictionary |
| C160 | the fit of the generic estimator with squared costs (Model/Fit, GenericFit), the optimiser as a parameter | the optimum of a bin is the weighted mean of its residuals, so a visit applies a firmly nonexpansive operator to the vector of residuals; cyclic passes contract the additive vectors (Lemmas/CyclicDescent), no divergence by C84 |
| C161 | the quantile regressor inside the whole fit | proved for single-feature models: the prediction is a fixed mixture of the start value and a quantile of the bin, and quantiles of a bin increase with the level; refuted for two features by a training whose predictions for 0.55 and 0.7 are 1 and 0, for every optimiser that finds minima |
| C162 | tables as lists of named columns or as functions of row and column, with the indexing of pandas and numpy | induction over the labels; the columns a label means are specified independently |
| C163 | the additive cost estimators inside the whole fit | proved for single-feature models by summing the optimality of the bins (C155) over the bins; refuted for two features, for every number of iterations, by an invariant of the training: after the first pass all predictions are 0, where every bin is optimal but the model is not |
| C164 | memory as a sequence of cells, arrays as views with offset and stride, the loops reading the memory of the moment | induction over the loop with the memory as state: an element is never written before it is read; different columns of a matrix have no common cell; a shifted output shows that the condition is needed |
| C165 | the mask, the search of the masked values, the assignment through the mask and the second check, on lists | induction over the column; the searches of whole arrays are element by element by C164 |
| C166 | the attributes with one entry per sample as numbers of tables, fit and predict as lists of steps that may stop anywhere | induction over histories: everything kept stems from a fit that raised; closed form of the state after a completed fit; counterexamples for fits that raise, for the price model and for observers |
| C167 | plot functions as actions on the settings, figures and the file of matplotlib, that may raise | restoring by the definition of the context for arbitrary actions; induction over the features; arithmetic of the grid; counterexamples for the figures |
| C168 | arrays as buffers in memory, columns as views, operations in place and new arrays | the buffers of the caller stay a prefix of the memory, by composition and induction over histories; clipping is idempotent; counterexample for the dispersion model |
| C169 | The threads with program counters, the attribute with the prices they share, and schedules as lists of thread numbers | Invariants over schedules; counterexamples for the price model with different prices and with a missing price |
| C170 | The reshaped arrays, the filling of empty weights through the view of the array of the feature, the marginal distributions and the colour limits | Sums of positive numbers, idempotence of the filling; counterexample for empty bins |
| C171 | The array with its type and row distance, limiting in place if it is a view, and the cut on the array afterwards | Case distinction on sharing; limiting is idempotent; counterexample with one row |
| C172 | The drawn value and the lengths of the bar for the three links, and the points of the curves | Monotonicity of the logistic function; counterexamples for the logarithmic link and a single bin |
| C173 | what predict uses of each feature (learning rate, smoother, factor of the missing bin) at every step of the update of every feature, next to the state of the training loop (Model/Interrupted) | induction over the features of a pass and over the iterations: the features show their last updates; sums of last updates against the running prediction; a concrete training for the counterexample |
| C174 | fit and transform stopped after any number of columns, on top of the binner object and the memory of C140 | the loop over a prefix of the columns is the loop of a smaller table; without inplace the source table is not written, so that the outcome, which depends only on this table, is the same; with inplace the prefix is characterised column by column, and a concrete table shows that the repetition differs |
| C175 | The pipeline as an object whose steps are the binner object of C140 and the estimator object of C91, with fit and predict as scikit-learn's Pipeline calls them | Induction over the sequence of fits for the settings of the steps, then C140 and C91 for the last fit; a concrete fit, refit with a missing weight column and prediction as counterexample |
| C176 | The pipeline object of C175 | The bins of a column depend on this column only (C140_transform), so the binned tables agree on the columns that matter; then C92 for the estimator. Refusal by counting the columns with a property |

## Status per property

The theorems are in `lean/Verif/Props`; the names are those of MANIFEST.json without the prefix `CB.`.

* **C01** Continuous binning picks the right bin — proved. Binary search of the fitted upper boundaries, exact arithmetic.
  Theorems: `C01_bin_unique`, `C01_continuous_bin`.
* **C02** Continuous binning is monotone — proved. Follows for any two finite values of the same fitted column.
  Theorems: `C02_monotone`.
* **C03** Discrete binning enumerates seen values and rejects unseen ones — proved. C03_discrete_bin for any sorted list of stored values; C03_rank end to end through fit for every column with positive weights.
  Theorems: `C03_discrete_bin`, `C03_rank`.
* **C04** Missing values always become -1 and nothing else escapes the bin range — proved. Missing values give -1 and every result is in range.
  Theorems: `C04_magic_only_if_flagged`, `C04_missing`, `C04_range`.
* **C05** Bin reduction keeps at most n_bins bins — proved. For every column with positive weights, every n_bins, epsilon and non-negative tolerance.
  Theorems: `C05_reduced_bins`, `C05_too_few_bins`.
* **C06** Every bin carries its minimum share of the weight — proved. Holds for every bin including the last one.
  Theorems: `C06_min_weight`.
* **C07** The reduced binning covers the whole sample — proved. C07_covers under the epsilon condition of the property; C07_needs_small_epsilon shows the condition is necessary.
  Theorems: `C07_covers`, `C07_covers_exact`, `C07_needs_small_epsilon`.
* **C08** ECDF transform is monotone, bounded and exact at the boundaries — proved. For every sorted table and end to end through fit (C08_fitted).
  Theorems: `C08_bounded`, `C08_discrete`, `C08_exact`, `C08_extremes`, `C08_fitted`, `C08_missing`, `C08_monotone`.
* **C09** Weighted empirical CDF — partial. Proved when every observed value has positive total weight; false otherwise: a value with total weight zero keeps its entry in the value list but loses its cdf entry (C09_zero_weight_misaligned, C09_aligned_iff).
  Theorems: `C09_aligned_iff`, `C09_cdf_partial`, `C09_zero_weight_misaligned`.
* **C10** Bin numbers survive the narrowing to small integer types — proved. All lists of 64-bit integers.
  Theorems: `C10_narrowing_exact`.
* **C11** Multi-dimensional bins are numbered bijectively in lexicographic order — proved. For all numbers of dimensions, n_bins vectors (given or inferred) and rows: range, injectivity, lexicographic order and surjectivity of the combined bin number. Exact arithmetic, no int64 overflow.
  Theorems: `C11_bijective_ordered`, `C11_onto`.
* **C12** Bin centers enumerate all bins in combined-number order — proved. arange_multi is the inverse enumeration, in increasing lexicographic order.
  Theorems: `C12_increasing`, `C12_inverse`.
* **C13** Rows with a missing or out-of-range component use the dedicated missing bin — partial. Full statement for inferred numbers of bins (training). With given numbers of bins it is proved for tables with at least one usable row; for a table without any usable row the claim is false of the code (every row gets bin 0): C13_no_valid_row.
  Theorems: `C13_given_partial`, `C13_inferred`, `C13_no_valid_row`.
* **C14** Feature-property consistency check accepts exactly the documented combinations — proved. For every flag value.
  Theorems: `Flags.C14_accepts_iff`, `Flags.C14_implications`, `Flags.C14_union`.
* **C15** Every consistent feature property can be printed — partial. False of the code as stated: INCREASING, DECREASING and HAS_MAGIC_INT_MISSING are missing in the list of printable flags. Proved: the exact set of printable values, that printing loses nothing, and that the three flags never print.
  Theorems: `C15_text_identifies`, `Flags.C15_faithful`, `Flags.C15_increasing_not_printable`, `Flags.C15_printable_iff_partial`.
* **C16** Link functions are inverse pairs and predictions stay in the target domain — proved. On real numbers; the logit link of the end points 0 and 1 (admitted by is_in_range) is infinite and excluded.
  Theorems: `C16_identity`, `C16_log`, `C16_logit`.
* **C17** Learning-rate schedules stay in [0,1], never decrease and end at full rate — proved. On real numbers, for every maximal number of iterations.
  Theorems: `C17_constant`, `C17_half_linear`, `C17_linear`, `C17_logistic`, `C17_used`.
* **C18** Training bookkeeping: in-sample prediction equals prior plus the sum of the stored factors — proved. Running prediction = prior + stored factors after any history, including rolled back iterations; a rolled back iteration leaves stored factors and running prediction exactly unchanged.
  Theorems: `C18_bookkeeping`, `C18_rollback`.
* **C19** Fitted model reproduces the in-sample prediction — proved. With the proviso of the statement; C19_fraction_counterexample shows that it is needed (a fractional bin number is truncated in training and rounded at prediction). C19_pipeline: in a pipeline that bins all feature columns the proviso holds by itself. C19_price: the price model.
  Theorems: `C19_final_factors`, `C19_fraction_counterexample`, `C19_missing_bin`, `C19_pipeline`, `C19_predict_train`, `C19_price`.
* **C20** Non-aggregate mode keeps the same bookkeeping under divergence — partial. False under divergence (C20_divergence_counterexample); proved for histories without divergence.
  Theorems: `C20_divergence_counterexample`, `C20_replace_partial`.
* **C21** Training terminates within a bounded number of iterations — proved. Termination for every oracle, iteration counter, exact ConvergenceError condition; C21_fit for whole fits, C21_price for the price model.
  Theorems: `C21_convergence_error`, `C21_counter`, `C21_final_check`, `C21_fit`, `C21_price`, `C21_terminates`.
* **C22** Hierarchical phase trains only the hierarchical features and is never cut short — proved. Only hierarchical features change in the first phase; the phase is not cut short. Divergence during the phase makes fit fail (C22_divergence_fails).
  Theorems: `C22_divergence_fails`, `C22_not_cut_short`, `C22_only_hierarchical`.
* **C23** Multiplicative factors stay within the documented bounds — proved. For every history without divergence, with the constants of the code; C23_fit for whole fits, C23_price for the price model.
  Theorems: `C23_bounds_link`, `C23_factor_bounds`, `C23_fit`, `C23_price`.
* **C24** Predictions decompose into per-feature contributions — proved. Link-space decomposition for all feature lists and rows; multiplicative form over the reals; C24_key_collision shows the condition on distinct names is needed.
  Theorems: `C24_decomposition`, `C24_exponent_model`, `C24_key_collision`, `C24_link_space`, `C24_multiplicative`, `C24_price`.
* **C25** Missing and unseen bins at prediction time — proved. Missing, unseen and out-of-range rows; C25_fit for whole fits; C25_divergence_counterexample shows the non-divergence condition is needed.
  Theorems: `C25_divergence_counterexample`, `C25_fit`, `C25_missing`, `C25_missing_not_learned`, `C25_nearest_bin`, `C25_range_attained`, `C25_seen_range`, `C25_unseen`.
* **C26** Influence categories partition the prediction — proved. Partition for every assignment and feature list; KeyError iff an assignment is missing; C26_reserved_name shows the condition on the name is needed.
  Theorems: `C26_missing_assignment`, `C26_partition`, `C26_reserved_name`.
* **C27** Removing a contribution undoes adding it — partial. remove after add is exact. add after remove is exact only if the category column exists: counterexample C27_add_after_remove_counterexample.
  Theorems: `C27_add_after_remove_counterexample`, `C27_add_after_remove_partial`, `C27_remove_after_add`.
* **C28** Feature importances are a probability distribution — proved. Distribution, one entry per feature, meaning of the value; counterexamples for refits and colliding names.
  Theorems: `C28_distribution`, `C28_fit`, `C28_meaning`, `C28_name_collision`, `C28_price`, `C28_refit_counterexample`, `C28_refit_values`, `C28_unfitted`.
* **C29** Empty training data is rejected — partial. The check raises exactly if both are empty (C29_both_empty_partial); C29_counterexample shows that one empty argument passes.
  Theorems: `C29_both_empty_partial`, `C29_counterexample`, `C29_fit_empty`.
* **C30** Bin estimate is the penalised least-squares optimum — proved. Unique minimiser by completing the square; empty bins, range, variance, equivalence with the linear ansatz of the documentation.
  Theorems: `C30_between`, `C30_empty_bin`, `C30_linear_ansatz`, `C30_unique_minimiser`, `C30_variance_pos`.
* **C31** Poisson regression is the special case of negative binomial regression — proved. For every gammaincinv (the equality needs nothing about it; positivity needs it positive).
  Theorems: `C31_poisson_posterior`, `C31_poisson_special_case`, `C31_positive_posterior`.
* **C32** Weighted linear regression solves the normal equations — proved. Strict minimum, hence uniqueness; the determinant is shown positive.
  Theorems: `C32_unique_minimiser`.
* **C33** Regularisation towards the mean only shrinks — proved. For regularize_to_error_weighted_mean. The sliding-window version (default smoother of ordered features) satisfies it unless a bin and its neighbours have equal values, where it returns NaN (C33_neighbors_nan).
  Theorems: `C33_between`, `C33_monotone`, `C33_neighbors`, `C33_neighbors_nan`, `C33_ordered_feature`, `C33_range`, `C33_uncertain_shrinks_more`, `C33_unchanged`.
* **C34** Regularisation towards a prior expectation — proved. Over the reals.
  Theorems: `C34_formula`, `C34_insignificant`, `C34_meta_smoother`, `C34_monotone`, `C34_smoother`, `C34_smoother_multi`, `C34_strictly_between`.
* **C35** Classification outputs are probabilities — proved. Quantile functions of the beta and normal distribution are parameters, constrained only by monotonicity (and symmetry for C35_empty_bin_neutral). C35_actual_quantiles derives these constraints for the actual quantile functions, specified by integrals of the densities.
  Theorems: `C35_actual_quantiles`, `C35_boost_weights`, `C35_class`, `C35_empty_bin_neutral`, `C35_levels`, `C35_matching`, `C35_posterior`, `C35_probabilities`, `C35_probability_mono`, `C35_uncertainty_pos`.
* **C36** Quantile loss is minimised by the weighted quantile — proved. Includes that the weighted quantile function of utils.py returns a weighted quantile for every sorting.
  Theorems: `C36_computed_quantile_minimises`, `C36_convex`, `C36_meaning`, `C36_minimisers`, `C36_nonneg`, `C36_quantile_minimises`, `C36_weighted_quantile`.
* **C37** Generic-loss mode optimises each bin on exactly its own samples — proved. For every argsort, stable or not; relies on the ascending iteration order of the set of empty bins (C37_order_counterexample shows the dependence).
  Theorems: `C37_bins`, `C37_order_counterexample`.
* **C38** J-QPD-S distributions honour the given quantile triplet — partial. Proved for every triplet that is not exactly symmetric on the log scale; false of the code for every exactly log-symmetric triplet (every quantile is nan), proved in C38_log_symmetric_is_nan.
  Theorems: `C38_jqpd_s_partial`, `C38_log_symmetric_is_nan`, `C38_rejects_exactly_crossing`, `C38_version`.
* **C39** J-QPD-B distributions honour the given quantile triplet — partial. Proved for every triplet that is not exactly symmetric on the base scale; false of the code for every symmetric triplet (every quantile is nan), proved in C39_symmetric_is_nan.
  Theorems: `C39_jqpd_b_partial`, `C39_symmetric_is_nan`, `C39_symmetric_occurs`.
* **C40** Extended J-QPD distributions honour the given quantile triplet — partial. Proved for asymmetric triplets and all three ranges; false of the code for every symmetric triplet (both outer quantiles are overshot by the factor sinh 1), proved in C40_symmetric_misses.
  Theorems: `C40_extended_partial`, `C40_symmetric_misses`, `C40_version`, `C40_versions`.
* **C41** Quantile regressor chain never crosses quantiles — proved. All outputs of the estimators are arbitrary reals; also the returned distribution object reproduces the predicted triplet.
  Theorems: `C41_median_monotone`, `C41_modes`, `C41_no_crossing`, `C41_qpd_bounded`, `C41_qpd_semibounded`.
* **C42** Quantile regressor chain: training target and prediction are consistent — partial. Median, lower quantile (positive median) and upper quantile in mode B when no row is masked are proved; false of the code for mode S (missing factor), for mode B with masked rows (shape error) and for negative medians (wrong rows), each proved.
  Theorems: `C42_high_bounded_crashes`, `C42_high_bounded_partial`, `C42_high_bounded_row`, `C42_high_semibounded_iff`, `C42_low_negative_median`, `C42_low_partial`, `C42_median`.
* **C43** Bounded and semi-bounded transformations are inverse pairs — proved. Both directions, strict containment and monotonicity for the bounded, lower and upper semi-bounded transformations, and the behaviour exactly at the bound.
  Theorems: `C43_at_the_bound`, `C43_bounded`, `C43_semibound_lower`, `C43_semibound_upper`.
* **C44** Newton-bisection stays inside its bracket — proved. For every oracle, including NaN and infinite results; the inverse Hessian can only be NaN where the oracle's Hessian is NaN. maximal_iterations=0 raises (none in the model).
  Theorems: `C44_exponent_factors`, `C44_stays_in_bracket`, `C44_variance_positive`.
* **C45** Negative-binomial dispersion search never worsens the loss — proved. for every log probability function; adding the chosen offsets never increases the training loss
  Theorems: `C45_bayes_between`, `C45_bayes_softmax`, `C45_candidates`, `C45_candidates_bounded`, `C45_minimal`, `C45_never_worse`, `C45_uncertainty`, `C45_update_bounded`.
* **C46** Ridge estimate of the GBS mode — proved. ridge objective, shrinkage, variance; also exact condition for the loss denominator to vanish
  Theorems: `C46_at_most_residual`, `C46_empty_bin`, `C46_global_scale`, `C46_loss_denominator`, `C46_ridge_minimiser`, `C46_scale_minimises_loss`, `C46_shrinks`, `C46_variance`.
* **C47** Interaction candidates are complete and duplicate free — proved. complete, duplicate free, one candidate per feature set, count; plus injectivity of the binned interaction features
  Theorems: `C47_complete`, `C47_count`, `C47_interaction_column`, `C47_nodup`, `C47_one_per_set`.
* **C48** Pipelines forward every accepted argument — partial. Every documented pipeline constructor is total and passes its arguments on, except those named in C48_exponential_drops and in the findings of DESIGN.md (arguments that are silently dropped).
  Theorems: `C48_binner`, `C48_binner_ignores_weights`, `C48_common_arguments`, `C48_constructor`, `C48_effect`, `C48_estimator_partial`, `C48_exponential_drops`, `C48_helpers`, `C48_settable`, `C48_total`.
* **C49** Interpolating/extrapolating meta smoothers only replace what they promise — partial. Proved for every sub-smoother that does not write into the table: extrapolating, interpolating and one-column discontinuous features completely; several columns if at least one row of the table is in range. C49_no_row_in_range shows that the claim is false of the code otherwise. The polynomial smoother can write into the table: see C171.
  Theorems: `C49_discontinuous_1d`, `C49_discontinuous_multi_partial`, `C49_extrapolating`, `C49_interpolating`, `C49_interpolating_missing`, `C49_no_row_in_range`.
* **C50** Normalisation meta smoother is shift equivariant — proved. For every sub-smoother and every table with positive total weight.
  Theorems: `C50_interpolates`, `C50_norm_between`, `C50_normalised`, `C50_shift_equivariant`, `C50_shift_equivariant_reg`.
* **C51** Bin-value smoothers look up exactly the bin — proved. Both bin-value smoothers and their storage in sparse form.
  Theorems: `C51_multi_dim`, `C51_one_dim`, `C51_store_load`.
* **C52** Neutralisation removes one-dimensional projections — proved. Column sums for all positive weights, mixed differences for all weights, fixed points, and row sums for product weights.
  Theorems: `C52_columns_zero`, `C52_fixed_point`, `C52_mixed_differences`, `C52_passes`, `C52_rows_zero`, `C52_smoother`.
* **C53** Smoother selection is total and follows the documented precedence — proved. Exact condition for failure in C53_onedim; C53_increasing_alone_fails is a finding about inconsistent properties.
  Theorems: `C53_consistent_reportable`, `C53_explicit_innermost`, `C53_explicit_overrides`, `C53_features_total`, `C53_groupBy_last_property`, `C53_increasing_alone_fails`, `C53_onedim`, `C53_reg_type`, `C53_total`, `C53_wrapping`.
* **C54** Location regressors calibrate to the weighted mean — proved. C54_training covers every training history, diverging or not.
  Theorems: `C54_calibrated`, `C54_intercept_minimiser`, `C54_only_shifts`, `C54_poisson_nonneg`, `C54_poisson_shrinks`, `C54_poisson_uncertainty_pos`, `C54_training`, `C54_variance_pos`, `C54_variance_posterior`.
* **C55** Generic-loss parameters reproduce the optimised model — partial. Proved for the log and the identity link. False for CBGenericClassifier (C55_classifier_counterexample).
  Theorems: `C55_additive_partial`, `C55_classifier_counterexample`, `C55_multiplicative_partial`, `C55_small_optimum`.
* **C56** Continuous quantile stays next to the discrete quantile — partial. For unit weights the excess is at most 2, and at most 1 unless the level is a multiple of 1/n. Counterexamples for other weights and for the bound 1.
  Theorems: `C56_overshoot_counterexample`, `C56_unit_weights_partial`, `C56_weights_counterexample`.
* **C57** Empty bins are neutral in the Poisson and negative binomial regressors — proved. The median of the gamma distribution with shape 2 is specified by its integral and bounded numerically inside the kernel.
  Theorems: `C57_empty_bin`.
* **C58** The sinh-logistic base distribution is a proper distribution for every shape — proved. All shapes; derivative proved with Mathlib's HasDerivAt.
  Theorems: `C58_basedist`, `C58_basedist_pdf`, `C58_logistic`, `C58_normal`, `C58_normal_median`, `C58_sinhlogistic`, `C58_sinhlogistic_pdf`, `C58_versions`, `C58_versions_extended`.
* **C59** The exponent fit of the price model differentiates its documented objective — proved. Derivatives proved with HasDerivAt for every bin with positive parameter.
  Theorems: `C59_demand`, `C59_estimate`, `C59_fit_total`, `C59_hessian`, `C59_jacobian`, `C59_loss`, `C59_step`, `C59_training`, `C59_weights`, `C59_zero`.
* **C60** Price elasticity has the sign of the prior exponent — proved. For all learned parameters and all finite, missing or infinite price ratios.
  Theorems: `C60_fit_matches_predict`, `C60_model`, `C60_neutral_price`, `C60_price_direction`, `C60_price_effect`.
* **C61** Standard and external features of the price model are combined faithfully — proved. Exact characterisation of acceptance and of the result.
  Theorems: `C61_combine`, `C61_entries`, `C61_frame`.
* **C62** Dispersion model stays neutral for bins without samples — partial. true with Bayesian averaging; in the default mode the bin gets -10^(1/(iteration+1)) (counterexample theorem)
  Theorems: `C62_bayes_neutral_partial`, `C62_default_mode_not_neutral`.
* **C63** A section smoother uses exactly one sub-smoother per row — proved. For all sub-smoothers, split points and tables.
  Theorems: `C63_empty`, `C63_sections`.
* **C64** Training stops exactly when a stop criterion holds — proved. Exact stop condition for every history with finite losses; C64_constant_updates_stop shows that constant updates stop the training in aggregate mode.
  Theorems: `C64_constant_updates_stop`, `C64_stop_iff`, `C64_update_meaning`.
* **C65** Features that keep the training diverging are limited, then ignored — proved. Case distinction for one feature, freezing and permanence along histories; C65_rolled_back_counterexample shows that a neutralisation that is rolled back restores the factors. Hypothesis: identity calibration (the default) for the two history theorems.
  Theorems: `C65_diverging_update`, `C65_frozen`, `C65_neutral_for_good`, `C65_rolled_back_counterexample`.
* **C66** One update: cyclic order, learning rate and clipping — proved. Aggregate and non-aggregate mode, for identity calibration (the default).
  Theorems: `C66_update_aggregate`, `C66_update_replace`.
* **C67** Negative binomial quantile matching uses the right mean and variance — proved. Mean and variance from the probability mass function by the binomial series.
  Theorems: `C67_invalid`, `C67_nbinom_mean_variance`.
* **C68** The dispersion of the negative binomial model is what it says — proved. Mean and variance of the distribution from the binomial series; link bounds of the dispersion for every dispersion value.
  Theorems: `C68_dispersion`, `C68_link`.
* **C69** Gamma moment matching matches the moments — proved. Gamma integrals over the positive half line; the exact condition under which the variance is missing (C69_no_variance).
  Theorems: `C69_gamma_matching`, `C69_no_variance`.
* **C70** The default smoother of continuous features is a weighted least-squares polynomial — proved. optimality, uniqueness and reproduction; exact arithmetic
  Theorems: `C70_feature`, `C70_least_squares`, `C70_reproduces`, `C70_unique`, `C70_unique_between`.
* **C71** The degree of the default smoother is the first sufficient one — proved. selection by the best chi-squared of each degree; bounds
  Theorems: `C71_bounds`, `C71_selection`.
* **C72** The default smoother of continuous features extrapolates constantly and follows shifts — proved. clamping, totality, shift equivariance
  Theorems: `C72_clamped`, `C72_shift`, `C72_total`.
* **C73** Monotonic features with a direction get monotone factors and predictions — proved. C73_stored: order of the stored factors after every iteration without divergence; C73_prediction: end to end. The isotonic regression itself (scikit-learn) is assumed to give functions in the requested direction. C73_without_direction shows that the plain IS_MONOTONIC flag does not give this.
  Theorems: `C73_chosen`, `C73_fit`, `C73_prediction`, `C73_stored`, `C73_without_direction`.
* **C74** Bins without training weight stay neutral for categorical features — proved. C74_chosen: which groups get the cut; C74_stored: neutral after every iteration without divergence; C74_prediction: no contribution to predictions.
  Theorems: `C74_chosen`, `C74_fit`, `C74_prediction`, `C74_stored`.
* **C75** Baseline before features equals the target mean, individualised by prior predictions — proved. for all samples, weights and prior columns in exact real arithmetic with IEEE special values; `C75_logit` gives the exact condition under which the classifier has a finite global scale, `C75_classifier_all_ones` and `C75_prior_all_missing` document the edge cases; overflow not modelled
  Theorems: `C75_classifier_all_ones`, `C75_fit`, `C75_fit_gbs`, `C75_fit_prior_identity`, `C75_fit_prior_log`, `C75_fit_prior_logit`, `C75_fit_prior_missing`, `C75_identity`, `C75_log`, `C75_logit`, `C75_pipeline`, `C75_pipeline_prior_identity`, `C75_pipeline_prior_log`, `C75_prior_all_missing`, `C75_prior_identity`, `C75_prior_log`, `C75_prior_missing`.
* **C76** Sample weights act as repetition counts for Poisson, negative binomial and classification models — proved. Whole fit. Equivalence for Poisson, negative binomial and classification; the English property states that it is false for the location estimators, shown by counterexamples.
  Theorems: `C76_locPoisson_counterexample`, `C76_location_counterexample`, `C76_quantile_counterexample`, `C76_repetition`, `C76_unweighted`, `C76_weighted_rows`.
* **C77** The order of the samples does not matter — proved. Whole fit, all modelled estimators including the price model, exact arithmetic.
  Theorems: `C77_optimising`, `C77_order`, `C77_price`.
* **C78** Samples of weight zero do not influence the fit — proved. All modelled estimators; EstimatesNumbers excludes the cases in which the added samples make the code divide by zero (C157).
  Theorems: `C78_zero_weight`.
* **C79** The additive location model follows shifts of the target — proved. Whole fit of CBLocationRegressor; tables are predicted with a prior column if and only if training had one.
  Theorems: `C79_shift`.
* **C80** Background-subtraction regressor training never increases the squared error — proved. Main theorems for all smoothers that shrink (ShrinkingSmoothers); C80_no_smoothing and C80_weighted_mean show which smoother choices qualify, using the modelled smoothers of the package. Normalization in the weighted mean choice is not covered. Real arithmetic.
  Theorems: `C80_fit_succeeds`, `C80_never_increases`, `C80_no_smoothing`, `C80_training_error`, `C80_weighted_mean`.
* **C81** Weighted mean smoothing neither overshoots nor loses bins — partial. Betweenness always; definedness for positive uncertainties (C81_defined_partial). False of CBGBSRegressor: a bin without samples has uncertainty 0, all smoothed values become NaN and the whole feature is not learned (C81_zero_uncertainty, C81_gbs_empty_bin, C81_gbs_not_learned).
  Theorems: `C81_between`, `C81_defined_partial`, `C81_estimators`, `C81_gbs_empty_bin`, `C81_gbs_not_learned`, `C81_zero_uncertainty`.
* **C82** Group-by smoothing treats each group as a feature of its own — proved. For every smoother kind of the package (the explicit and seasonal ones under the hypothesis RowWise).
  Theorems: `C82_groups`, `C82_interaction`.
* **C83** Linear features get the weighted least-squares line — proved. The single-bin case is a NaN in the code, which training replaces by the neutral factor.
  Theorems: `C83_exact`, `C83_line`, `C83_single_bin`.
* **C84** Quantile and generic-loss regression never gets worse during training — proved. covers CBMultiplicative/AdditiveQuantileRegressor and CBMultiplicative/AdditiveGenericCRegressor; scipy's optimiser is a parameter of which only 'not worse than the start value' is assumed. Not claimed for CBGenericClassifier, which optimises prob*param but applies odds*param (C55_classifier_counterexample)
  Theorems: `C84_fit_succeeds`, `C84_never_increases`, `C84_training_cost`.
* **C85** A pipeline predicts for every input, monotonically in the raw values of a monotonic column — proved. Hypotheses of C85_monotone beside those of C73: epsilon and the tolerance are in [0,1) and epsilon is smaller than (1 - tolerance) / number of bins; with magic missing integers, some training value exceeds -9.
  Theorems: `C85_monotone`, `C85_predict_succeeds`.
* **C86** The units of continuous columns do not matter — proved. For epsilon < (1 - tolerance) / number of bins, and columns without magic missing integers (these are fixed numbers, so a unit change cannot be expected to respect them).
  Theorems: `C86_boundaries`, `C86_units`.
* **C87** The order of the raw training rows does not matter for a pipeline — proved. Equality of the results of the two fits, including errors.
  Theorems: `C87_optimising`, `C87_order`.
* **C88** Weights as repetitions in pipelines — proved. C88_continuous_counterexample shows that the restriction to columns that are not continuous is needed.
  Theorems: `C88_continuous_counterexample`, `C88_repetition`.
* **C89** A pipeline treats all unusable raw values alike — proved. For 0 <= epsilon < 1 and tolerance >= 0. Unseen means: farther from every training value than epsilon times some distance of two training values (than epsilon if there is one value only).
  Theorems: `C89_alike`, `C89_neutral`.
* **C90** Bin weights account for all training weight — proved. bincount of the bound features; training uses exactly these weights
  Theorems: `C90_bin_weights`, `C90_training_weights`.
* **C91** A refit forgets earlier fits — proved. explicit feature groups: any history; default groups: equal columns; what happens otherwise is proved too (C91_stale_columns); C91_price for the price model
  Theorems: `C91_price`, `C91_refit`, `C91_refit_default`, `C91_stale_columns`.
* **C92** Only the required columns matter — partial. False as stated for CBNBinomC (C92_dispersion_counterexample): its fit needs the column of the means, which required_columns does not list. Proved for all other modelled estimators, including the price model: fit, predict, required_columns, missing columns.
  Theorems: `C92_default_features`, `C92_dispersion_counterexample`, `C92_fit_columns_partial`, `C92_missing`, `C92_predict_columns`, `C92_price_fit`, `C92_price_missing`, `C92_price_predict`, `C92_price_required`, `C92_required_partial`.
* **C93** transform adds one column and nothing else — partial. False as stated for CBNBinomC (C93_dispersion_counterexample) and for CBExponential with external features (C93_price_counterexample): fit_transform raises. Proved for all other modelled estimators; fit_transform equals fit and transform for integer bin numbers (what binners produce) in aggregate mode.
  Theorems: `C93_dispersion_after_fit`, `C93_dispersion_counterexample`, `C93_fit_transform_partial`, `C93_no_overwrite`, `C93_price_counterexample`, `C93_transform`.
* **C94** An estimator that was not fitted says so — partial. false for predictions (C94_counterexample: the check never fires); proved for the importances
  Theorems: `C94_counterexample`, `C94_importances_partial`.
* **C95** Training the dispersion model never worsens the likelihood — proved. whole trainings; lgamma is the exact logarithm of the gamma function, arithmetic is exact
  Theorems: `C95_fit_succeeds`, `C95_log_pmf`, `C95_never_increases`, `C95_object`, `C95_order`, `C95_range`, `C95_start`, `C95_training_cost`.
* **C96** Fitted price models follow the exponential demand law — proved. whole trainings of the price model; prior exponents are finite and not 0
  Theorems: `C96_direction`, `C96_elasticity`.
* **C97** Without price information the price model is the negative binomial model — proved. whole trainings, exact arithmetic
  Theorems: `C97_no_prices`, `C97_predict`.
* **C98** Histogram bins contain the values assigned to them — proved. NaN is not a number: it gets an index outside of the bins (C98_nan).
  Theorems: `C98_bin`, `C98_digitize`, `C98_infinite`, `C98_monotone`, `C98_nan`, `C98_range`.
* **C99** Grouped means, medians and errors are those of the groups — proved. Counterexamples for stronger readings: counts are numbers of samples for equal weights (C99_uniform_counts), medians are not continuous in the weights (C99_median_jump).
  Theorems: `C99_counts`, `C99_errors`, `C99_even_errors`, `C99_even_median`, `C99_groups`, `C99_mean`, `C99_median`, `C99_median_jump`, `C99_order`, `C99_quantile`, `C99_scale`, `C99_uniform_counts`.
* **C100** The in-sample histogram is complete and aligned — partial. C100_aligned_partial assumes positive weights; C100_zero_weight shows lists of different length for a bin of weight zero.
  Theorems: `C100_aligned_partial`, `C100_binary`, `C100_complete`, `C100_errors`, `C100_exists`, `C100_values`, `C100_zero_weight`.
* **C101** Observers see the training and do not change it — partial. C101_last_iteration: the observer for iteration N of an N-iteration fit stays empty; C101_updates: snapshots in between hold the last updates, not the factors of the model. Calls, default observer and independence of the fit are proved.
  Theorems: `C101_calls`, `C101_default`, `C101_default_factors`, `C101_feature_calls`, `C101_iteration_partial`, `C101_last_iteration`, `C101_refit`, `C101_same_fit`, `C101_updates`, `C101_zero`.
* **C102** Smeared values of a correct discrete distribution are uniform — proved. For targets on the natural numbers; C102_negative shows that it fails for negative targets.
  Theorems: `C102_bounds`, `C102_negative`, `C102_qpd`, `C102_uniform`.
* **C103** The numbers an encoder gives to categories do not matter — proved. Columns whose categories are renumbered must hold every category 0..m-1 in a training row without missing entries in the feature's columns (as an encoder guarantees for single columns).
  Theorems: `C103_declared`, `C103_numbering`.
* **C104** Seasonal features get the best wave, and its level follows the normalization setting — proved. curve_fit is an argument with a least-squares specification; exists_isCurveFit shows that such a fit exists.
  Theorems: `C104_best`, `C104_declared`, `C104_declared_few`, `C104_exact`, `C104_few`, `C104_level`, `C104_offset`, `C104_order`, `C104_periodic`.
* **C105** Polynomial and linear smoothing give the best polynomial, with weights of one over the fourth power of the uncertainty — proved. polyfit is an argument with its documented specification (exists_isPolyFit). C105_not_usual_weights shows that the usual weights, one over the squared uncertainty, are not what is minimised.
  Theorems: `C105_best`, `C105_exact`, `C105_increasing`, `C105_line`, `C105_missing`, `C105_not_usual_weights`, `C105_single`, `C105_spline`.
* **C106** The Lasso season is a wave around zero whose period is the last bin number — proved. The Lasso fit is an arbitrary argument. C106_not_the_year records that the period is one bin shorter than the year of SeasonalSmoother.
  Theorems: `C106_ends`, `C106_few`, `C106_mean`, `C106_not_the_year`, `C106_used`, `C106_wave`.
* **C107** Interaction selection returns the k best scoring candidates — proved. SelectKBest modelled as argsort of the scores; f_regression enters as squared correlation, which orders candidates the same way.
  Theorems: `C107_best`, `C107_count`, `C107_order_matters`, `C107_pure_interaction_missed`, `C107_score_range`, `C107_score_units`, `C107_target_units`.
* **C108** Parametric quantile fits return the closest distribution — proved. Relative to curve_fit returning a best fit where one exists (shown to exist in principle); real arithmetic.
  Theorems: `C108_gamma_exact`, `C108_gaussian_best`, `C108_gaussian_exact`, `C108_gaussian_units`, `C108_inverse`, `C108_mode`, `C108_nbinom_exact`.
* **C109** Quantile-parameterised distributions and the fitted shape change units with their quantiles — proved. Relative to minimize_scalar returning a minimiser that depends only on the set of minimisers; 999 levels (arange without rounding).
  Theorems: `C109_at_the_bound`, `C109_bounded`, `C109_empirical`, `C109_extended`, `C109_modes`, `C109_semibounded`, `C109_shape_best`, `C109_shape_units`.
* **C110** Additive quantile and generic-loss regression follows shifts of the target — proved. No assumption on the optimiser.
  Theorems: `C110_generic_shift`, `C110_multiplicative_depends_on_unit`, `C110_quantile_shift`.
* **C111** A settled model is calibrated in every bin — proved. The exact coverage claim of the multiplicative quantile regressor is the one weighted with predictions; C111_multiplicative_weight_share shows that sample weights alone do not suffice. gammaincinv is only assumed to compute the median of the gamma distribution (Spec.GammaMedian, by integrals; its bounds and its existence are proved in Lemmas/GammaMedian). The optimiser is an argument with a specification that is shown satisfiable.
  Theorems: `C111_gbs`, `C111_location`, `C111_multiplicative_weight_share`, `C111_nbinom_fixed`, `C111_no_smoothing`, `C111_poisson`, `C111_poisson_fixed`, `C111_quantile_additive`, `C111_quantile_multiplicative`.
* **C112** A prediction that is already right is left alone — proved. SmoothersKeepZero holds for NoSmootherChoice and weighted means (C80).
  Theorems: `C112_constant`, `C112_fit_succeeds`, `C112_gbs`, `C112_left_alone`, `C112_neutral`, `C112_quantile`, `C112_settled`.
* **C113** A clone is an unfitted, independent estimator with the same settings — proved. The constructor is taken to keep its arguments and nothing else, as scikit-learn requires. Objects are trees: an object that occurs twice is copied twice. Fitted estimators inside a dictionary parameter are copied with their state (C113_not_unfitted_in_dictionaries), which is what the code does.
  Theorems: `C113_features_apart`, `C113_independent`, `C113_not_unfitted_in_dictionaries`, `C113_original_unchanged`, `C113_settings`, `C113_succeeds`, `C113_unfitted`.
* **C114** The deviations in an analysis have the sign of the errors of the predictions — proved. Sums per bin, sign of the deviation, bins without weight, means over the finite bins. Exact numbers.
  Theorems: `C114_additive`, `C114_curves`, `C114_curves_multiplicative`, `C114_empty_bin`, `C114_mean`, `C114_multiplicative`.
* **C115** The analysis of a quantile regressor has an entry for every bin — partial. Every bin with samples is at its place and the arrays have equal lengths (C115_bins, C115_absent, C115_exists); for one-column features they are complete (C115_one_column). False for features of several columns whose last combination has no samples and that have no missing values: the arrays are too short and the two-dimensional plot raises (C115_length_partial, C115_counterexample). The set of absent bins is taken to be run through in ascending order.
  Theorems: `C115_absent`, `C115_analysis_exists`, `C115_bins`, `C115_counterexample`, `C115_curves`, `C115_exists`, `C115_length_partial`, `C115_one_column`, `C115_unit_weights`.
* **C116** The axes of analysis plots show everything that is plotted — partial. All plotted values are shown (C116_values_shown), numbers of ticks and bins, centering. False for error bars: the uncertainties are not those of the values they are added to, C116_errors_counterexample; and for losses that are negative, C116_negative_counterexample.
  Theorems: `C116_errors_counterexample`, `C116_extension`, `C116_histogram_bins`, `C116_loss_shown_partial`, `C116_missing_box`, `C116_negative_counterexample`, `C116_neutral_centered`, `C116_ticks`, `C116_ticks_inside`, `C116_values_shown`.
* **C117** Single-feature models neither overshoot nor reorder the groups — proved. Order and range of the predictions per bin for single-feature CBGBSRegressor and CBPoissonRegressor models, for fits that do not diverge (for background subtraction C80 shows that they never do). gammaincinv is only assumed to compute the median of the gamma distribution; that the median rises with the shape is proved. The negative binomial regressor is left out of the order claim because its moment estimate jumps at a threshold.
  Theorems: `C117_gbs_order`, `C117_gbs_range`, `C117_poisson_order`, `C117_poisson_range`.
* **C118** The background-subtraction regressor follows the units and the sign of the target — proved. Whole fits and predictions in other units and with the other sign; C118_smoothers_units and C118_smoothers_mirror show which smoothers of the package follow, C118_weighted_mean_units_fail where it ends.
  Theorems: `C118_mirror`, `C118_smoothers_mirror`, `C118_smoothers_units`, `C118_units`, `C118_weighted_mean_units_fail`.
* **C119** Only the relative sizes of prior predictions matter — proved. fit_same_start: equal baselines give equal fits; C119_multiplicative, C119_additive; C119_mean_not_positive shows that the condition on the mean is needed; C119_regressors lists the regressors.
  Theorems: `C119_additive`, `C119_mean_not_positive`, `C119_multiplicative`, `C119_regressors`.
* **C120** Swapping the two classes mirrors the probabilities — partial. Training is the exact mirror image (C120_bins, C120_training_partial, C120_smoothers); the symmetries of the quantile functions it assumes are proved of the actual ones in C120_quantiles. Missing: the complete fit; it is false of the code (C120_baseline, C120_full_claim_fails: the starting probabilities of the two models sum to 1.002).
  Theorems: `C120_baseline`, `C120_bins`, `C120_full_claim_fails`, `C120_generic_uncertainty`, `C120_quantiles`, `C120_smoothers`, `C120_training_partial`.
* **C121** Training of the background-subtraction regressor settles by itself — proved. Bound on the number of iterations, independence of maximal_iterations above it, and success of the fit within it. Exact arithmetic; the learning rate function is fixed.
  Theorems: `C121_fit_succeeds`, `C121_iterations`, `C121_maximal_iterations`.
* **C122** Background subtraction is a subtraction — proved. C122_superposition is the general form for equally many iterations, C122_fixed_iterations shows that switching off early stopping guarantees them (and that all three fits succeed), C122_subtraction is the form in the documentation of the class, C122_no_smoothing shows that NoSmootherChoice meets the condition on smoothers. Smoothers whose weights depend on the uncertainties (polynomials, weighted means) are not covered: the uncertainties depend on the target.
  Theorems: `C122_fixed_iterations`, `C122_no_smoothing`, `C122_subtraction`, `C122_superposition`.
* **C123** Only the relative sizes of the weights matter for quantile and generic-loss estimators — partial. Proved in full for regressors and classifiers with their own scale-free costs. For the quantile regressors it is proved if no two targets are equal; with repeated targets it is false, because the continuous quantile uses the cumulated weight as an index (C123_ties_counterexample: two samples with target 0 and the weights 1 or 100 are predicted 1 or 100 for a new category).
  Theorems: `C123_classifier`, `C123_generic`, `C123_no_smoothing`, `C123_quantile_costs`, `C123_quantile_partial`, `C123_ties_counterexample`.
* **C124** Training of the background-subtraction regressor converges to the least-squares fit — proved. One rate for all targets, priors and stop rules (C124_convergence), the goal exists (C124_best_exists), limit for growing maximal_iterations (C124_limit), where it applies (C124_no_smoothing).
  Theorems: `C124_best_exists`, `C124_convergence`, `C124_limit`, `C124_no_smoothing`.
* **C125** In the limit neither the order of the features nor the regularization matters, and more features never hurt in-sample — proved. C125_same_limit, C125_more_features.
  Theorems: `C125_more_features`, `C125_same_limit`.
* **C126** Long training of the background-subtraction regressor calibrates every bin — proved. C126_calibrated per bin, C126_total for all samples.
  Theorems: `C126_calibrated`, `C126_total`.
* **C127** The mean prediction of CBLocationRegressor is the mean target plus 0.001 — proved. Any smoothers, learning rates and prior predictions; in aggregate mode.
  Theorems: `C127_mean`.
* **C128** A missing value that training has not seen contributes nothing — partial. False for CBLocationRegressor, CBGenericClassifier and CBNBinomC without Bayesian averaging (C128_location_counterexample, C128_generic_classifier_drift, C128_dispersion_drift); exactly true for the other estimators but the Poisson and negative binomial regressors, where the contribution is at most 6e-6 per iteration. That the optimiser of the generic losses returns its start value on constant costs is a hypothesis.
  Theorems: `C128_dispersion_drift`, `C128_generic_classifier_drift`, `C128_location_counterexample`, `C128_neutral_partial`, `C128_poisson_partial`.
* **C129** An interaction makes its components redundant and fits the mean of every cell — proved. Needs bin numbers (no missing values) in the columns of the comprising feature: a missing component sends the whole row to the one bin of missing values, so the interaction does not determine its components there.
  Theorems: `C129_cell_means`, `C129_components_redundant`.
* **C130** Noise in the target is not amplified by the background-subtraction regressor — proved. For setups whose smoothers turn combinations of bin values into combinations (shown for no smoothing) and with early stopping switched off.
  Theorems: `C130_noise`.
* **C131** Training of the background-subtraction regressor can be continued through prior predictions — proved. Constant learning rate and early stopping switched off (negative minimal changes); no divergence follows from C80.
  Theorems: `C131_continued`.
* **C132** Factor plots write the values of a bin under its factor — partial. Proved for categorical columns. False for continuous columns: every label stands half a bin to the left of its factor (C132_continuous_shifted), and what the label is worth is C132_continuous_partial. If the binner and the estimator have seen different categories labels can be wrong (C132_wrong_label, C132_mismatch).
  Theorems: `C132_categorical`, `C132_continuous_partial`, `C132_continuous_shifted`, `C132_last_binner`, `C132_mismatch`, `C132_wrong_label`.
* **C133** Predictions are made row by row — proved. Estimator objects of the API model (fitted, unfitted, interrupted), the width regressor, the elasticity model and the pipeline with a binner.
  Theorems: `C133_dispersion`, `C133_estimator`, `C133_pipeline`, `C133_pipeline_whole`, `C133_price`.
* **C134** The order of the columns of an interaction does not matter — proved. C134_column_order for the default choice of smoothers and for no smoothing, with explicit smoothers for single columns only; hierarchical feature groups must not distinguish the orders. C134_group_by shows that the group-by choice is rightly excluded.
  Theorems: `C134_column_order`, `C134_group_by`.
* **C135** A model predicts the same after it was stored and loaded again — proved. C135_estimator, C135_state and C135_pipeline; C135_feature is the statement for one feature. That pickle restores all attributes without a format of their own is assumed.
  Theorems: `C135_estimator`, `C135_feature`, `C135_pipeline`, `C135_state`.
* **C136** Stopping criteria only decide when training stops — proved. For the default learning rate, which rises until half of maximal_iterations, the claim about maximal_iterations does not apply (example beside the theorems).
  Theorems: `C136_dispersion`, `C136_larger_limit`, `C136_looser`, `C136_not_converging`, `C136_price`, `C136_same_number`.
* **C137** The names of columns do not matter — proved. For a permutation of names; transform needs that the empty name stays as it is (an empty output column counts as none). C137_joined_names shows what the names decide in get_feature_importances.
  Theorems: `C137_construct`, `C137_estimators`, `C137_fit`, `C137_joined_names`, `C137_names`, `C137_predict`, `C137_price_construct`, `C137_price_fit`, `C137_price_predict`, `C137_transform`.
* **C138** The reasons why fit can fail are a closed list — proved. Complete list of reasons as an inductive specification (Spec/Failure.lean); fit succeeds iff none of them holds. A starting value that is not finite counts as a failure in the model, the code goes on with it. Finding: the multiplicative quantile regressor takes the logarithm of 0 if the quantile of the targets is 0.
  Theorems: `C138_baseline`, `C138_baseline_classifier`, `C138_baseline_quantile`, `C138_binning`, `C138_fit`, `C138_only_divergence`, `C138_pipeline`, `C138_quantile_zero_counterexample`, `C138_training`.
* **C139** Rounding errors do not pile up in the predictions — proved. Standard model of floating-point arithmetic without overflow (Spec/Rounded.lean), for the bookkeeping of predictions and factors; the rounding inside estimates, smoothers, calibration and loss is arbitrary.
  Theorems: `C139_bookkeeping`, `C139_clipped`, `C139_exact`, `C139_linear`, `C139_predict`.
* **C140** The binner as an object with a history — proved. The binner as an object over a memory of tables; histories of calls are arbitrary lists of fits and transforms, also failing ones.
  Theorems: `C140_categories`, `C140_failed_fit`, `C140_inplace`, `C140_pipeline_fit`, `C140_pipeline_transform`, `C140_refit`, `C140_transform`, `C140_unfitted`, `C140_untouched`, `C140_untouched_history`.
* **C141** Arrays are binned like tables — partial. Proved for float types and for signed integer types with room for all bin numbers. False for the other element types: the numbers overflow (C141_unsigned_counterexample, C141_int8_counterexample); C141_array says exactly what happens.
  Theorems: `C141_array`, `C141_int8_counterexample`, `C141_like_table_partial`, `C141_unsigned_counterexample`.
* **C142** Cumulative probabilities are computed without changing the input — partial. Proved for arrays of integers and for all arrays other than the one passed. False for arrays of floats, which are overwritten (C142_overwritten, C142_counterexample). Data frames are not modelled here.
  Theorems: `C142_counterexample`, `C142_others`, `C142_overwritten`, `C142_result`, `C142_unchanged_partial`.
* **C143** Predictions do not extrapolate and are constant between training values — proved. 
  Theorems: `C143_above`, `C143_below`, `C143_between`.
* **C144** Every estimator refuses exactly the targets it is not made for — proved. Targets are numbers in the model; NaN is not modelled.
  Theorems: `C144_accepted`, `C144_dispersion`, `C144_not_refused`, `C144_price`, `C144_refused`.
* **C145** Splitting with smoothers that keep the values of bins keeps the values of bins — partial. The claim is false above the split point (C145_counterexample); C145_upper says what is predicted there.
  Theorems: `C145_counterexample`, `C145_lower_partial`, `C145_upper`.
* **C146** The number of threads and their interleaving do not change the dispersion model — proved. Interleaving semantics of the two prange loops; determinism for arbitrary arithmetic, race freedom, progress and termination; the sum of the mean loss is bounded under rounding (an example shows that it is not bit-identical across splits).
  Theorems: `C146_estimates`, `C146_finishes`, `C146_losses`, `C146_mean`, `C146_mean_rounded`, `C146_outside`, `C146_race_free`, `C146_samples`, `C146_terminates`.
* **C147** The exponent search approaches the root — proved. For derivatives with a sign change in the bin; that the loop ends early when all bins are content, even if only because of a nearby end of the bracket, is part of the statement.
  Theorems: `C147_bisection`, `C147_bracket`, `C147_not_backwards`, `C147_quadratic`.
* **C148** Monotonic smoothing changes the factors as little as possible — proved. Relative to the documented property of sklearn.isotonic.IsotonicRegression, which bestIsotonic_exists shows to be satisfiable.
  Theorems: `C148_best`, `C148_keeps`, `C148_mean`, `C148_range`, `C148_truth`.
* **C149** The quantile chain trains each model on its own side of the median — partial. In mode B training never succeeds with estimators that refuse empty tables and unequal lengths (C149_bounded_never_trains); in mode S the claims hold except that the targets of the upper model lack a factor (C42).
  Theorems: `C149_bounded_never_trains`, `C149_coverage`, `C149_no_crossing`, `C149_predict`, `C149_training`, `C149_trains_semibounded_partial`.
* **C150** Evaluating many distributions and levels at once equals evaluating them one by one — proved. Batch evaluation equals evaluation one by one for all sizes; axes of length one are dropped.
  Theorems: `C150_chain`, `C150_inner`, `C150_inner_fails_iff`, `C150_inner_one_level`, `C150_one_level`, `C150_one_sample`, `C150_outer`, `C150_single_row`.
* **C151** Single-feature Poisson models converge to a known value, at a known rate — proved. Poisson only. The hypothesis that the fit does not diverge is needed: with constant targets and single-sample groups the limit (0.996 for target 1) can be further from the targets than the start (1.001), which the loss check reports as divergence.
  Theorems: `C151_converges`, `C151_limit_near_mean`, `C151_rate`.
* **C152** Listing the feature columns leaves out exactly the excluded ones — partial. Proved for tables with distinct column names (C152_distinct_partial); for all tables the result is a sublist (C152_order) and the number of columns left of every name is known (C152_count). Missing: tables with repeated names, where the claim is false of the code, because list.remove takes away one column only (C152_full_claim_fails).
  Theorems: `C152_count`, `C152_distinct_partial`, `C152_full_claim_fails`, `C152_order`.
* **C153** Single-feature background-subtraction models have a closed form — proved. Exact formula (C153_closed_form), geometric rate (C153_rate) and monotonicity in the targets (C153_monotone). That such trainings do not diverge is C80.
  Theorems: `C153_closed_form`, `C153_monotone`, `C153_rate`.
* **C154** Single-feature additive quantile models predict the quantile of every group — proved. The optimiser is only assumed to find minima; the multiplicative regressor, which limits its steps and the size of its factors, is in C156. That such trainings do not diverge is C84 (for optimisers that do not worsen their start value).
  Theorems: `C154_exact`, `C154_rate`.
* **C155** Single-feature additive models minimise the costs of every group — proved. The optimiser is only assumed to find minima. That such trainings do not diverge is C84 (for optimisers that do not worsen their start value).
  Theorems: `C155_excess`, `C155_optimal`.
* **C156** Single-feature multiplicative models minimise the costs of every group — proved. The optimiser is only assumed to find minima. That such trainings do not diverge is C84 (for optimisers that do not worsen their start value and find no negative factors). The bounds are those of the code: 0.01 and 1000 for features of one column, 0.1 and 100 otherwise.
  Theorems: `C156_optimal`, `C156_quantile`, `C156_rate`.
* **C157** The estimates of every bin are numbers — proved. Exact arithmetic with NaN and infinities, without rounding and overflow. C157_estimates is the summary; the _nan and _counterexample theorems show that each exception occurs.
  Theorems: `C157_calibration`, `C157_classifier`, `C157_estimates`, `C157_gbs`, `C157_gbs_counterexample`, `C157_locPoisson`, `C157_locPoisson_nan`, `C157_location`, `C157_location_nan`, `C157_nbinom`, `C157_nbinom_counterexample`, `C157_poisson`.
* **C158** The uncertainties of bins are positive and fall with the amount of data — proved. for the estimators of the package with valid targets; background subtraction and the Poisson location regressor are characterised exactly
  Theorems: `C158_beta`, `C158_gamma`, `C158_gaussian`, `C158_gaussian_float`, `C158_gbs`, `C158_locPoisson`, `C158_locPoisson_unit`, `C158_location`, `C158_location_prior`, `C158_nbinom`, `C158_poisson`, `C158_poisson_anti`, `C158_positive`.
* **C159** Features are found by the names they were declared with, and explicit smoothers are used for them — proved. columns are strings
  Theorems: `C159_declared`, `C159_duplicates`, `C159_explicit`, `C159_explicit_used`, `C159_external`, `C159_get_feature`, `C159_iter_fitting`, `C159_lookup`, `C159_subestimators`, `C159_unknown`.
* **C160** With squared costs the generic additive regressor converges to the least-squares fit — proved. additive generic regressor with squared costs; no prior predictions; optimiser is a parameter that finds minima
  Theorems: `C160_calibrated`, `C160_convergence`, `C160_limit`, `C160_same_as_gbs`.
* **C161** Quantile predictions in the order of the levels — partial. Single-feature models keep the order of the levels (with equal learning rates and numbers of iterations and ordered start values, or with one full step). With two features the code does not: a training set of four samples gets the prediction 1 for the level 0.55 and 0 for the level 0.7 (C161_crossing_counterexample). The start values themselves can be in the wrong order because of the interpolation between equal targets (C161_start_counterexample).
  Theorems: `C161_crossing_counterexample`, `C161_full_steps_partial`, `C161_one_feature_partial`, `C161_start_counterexample`.
* **C162** Columns are picked by their name or position — proved. Names of frames are assumed to be different; a name that occurs twice gives a matrix (shown in the witness).
  Theorems: `C162_fails_iff`, `C162_frame_as_array`, `C162_index`, `C162_index_fails_iff`, `C162_many`, `C162_one`, `C162_order`.
* **C163** Long training reaches the best additive fit — partial. holds for single-feature models (C163_one_feature_partial); false for two features: C163_stuck_counterexample shows a training that stays at the costs 1 for every number of iterations while an additive model has the costs 0. C160 is the result for squared costs and any number of features.
  Theorems: `C163_one_feature_partial`, `C163_stuck_counterexample`.
* **C164** Array searches may write into their input — proved. The tables to search in have to hold finite numbers and to be outside the output. C164_overlap_counterexample shows that outputs that overlap the input otherwise give wrong results.
  Theorems: `C164_columns_separate`, `C164_equal`, `C164_greater`, `C164_interpolation`, `C164_overlap_counterexample`, `C164_transform`.
* **C165** Binning a column is binning its values — proved. The whole-array searches are written element by element; C164 proves that the loops in memory do this.
  Theorems: `C165_entries`, `C165_no_value_error`, `C165_row_independent`, `C165_rows`.
* **C166** A trained estimator keeps no per-sample data — partial. Proved for all estimators but the price model, without observers: what is kept comes from fits that raised. Counterexamples: a fit that raises leaves data in the importances; the price model keeps weights and prices; an observer keeps the binned samples.
  Theorems: `C166_completed_partial`, `C166_observer_counterexample`, `C166_only_after_raise_partial`, `C166_own_attributes_partial`, `C166_price_counterexample`, `C166_raised_counterexample`.
* **C167** Plots leave the plotting environment as it was — partial. Settings, file, pages and grid proved. The claim about figures is false: an analysis that completes closes the figures of the user, one that raises leaves its own open.
  Theorems: `C167_analysis_partial`, `C167_figures_counterexample`, `C167_figures_partial`, `C167_grid`, `C167_pages`, `C167_raises`, `C167_style_restored`.
* **C168** Fits and predictions do not change the table of the caller — partial. Proved for all estimators but the dispersion model, which clips the column of prior predictions in place (counterexample); what it leaves is proved exactly.
  Theorems: `C168_dispersion_counterexample`, `C168_dispersion_partial`, `C168_dispersion_unchanged`, `C168_same_predictions`, `C168_unchanged_partial`.
* **C169** Predictions with one estimator may run at the same time — partial. Holds for all estimators but the price model (C169_any_schedule_partial), with progress (C169_finishes). Price model: proved for uninterrupted threads and for equal prices without missing ones; false otherwise (C169_price_counterexample, C169_missing_price_counterexample).
  Theorems: `C169_any_schedule_partial`, `C169_finishes`, `C169_missing_price_counterexample`, `C169_price_counterexample`, `C169_same_prices_partial`, `C169_uninterrupted_partial`.
* **C170** Plots of interactions show the means of the factors and leave the feature as it was — partial. The marginal distributions, colour limits and repeated drawing are proved; the weights of empty bins are changed by the plot (C170_weights_counterexample), all others are kept (C170_unchanged_partial).
  Theorems: `C170_again`, `C170_colors`, `C170_first`, `C170_second`, `C170_unchanged_partial`, `C170_weights_counterexample`.
* **C171** Smoothing of continuous features does not depend on how the bin numbers are stored — partial. Proved for arrays that are copied and for bin numbers in range (so for training, C171_training); false for adjacent 64 bit floats out of range (C171_in_place, C171_layout_counterexample).
  Theorems: `C171_again`, `C171_copied_partial`, `C171_in_place`, `C171_in_range_partial`, `C171_layout_counterexample`, `C171_training`.
* **C172** Error bars show the range of a factor — partial. Proved for additive models and classifiers; false for multiplicative models (C172_log, C172_log_counterexample), and for the curves of features with a single bin (C172_curve_counterexample).
  Theorems: `C172_bars_partial`, `C172_curve_counterexample`, `C172_curve_partial`, `C172_log`, `C172_log_counterexample`, `C172_probability`, `C172_value`.
* **C173** Predictions after a fit that did not finish — partial. Proved: predict raises if the first iteration has not reached the last feature (C173_first_iteration); estimators with aggregate=False predict what training has reached, between iterations (C173_replaced_partial), between features (C173_between_features_partial) and after the smoother of a feature is fitted (C173_within_update); after the loop predict works as after a complete fit (C173_prepared). False for aggregate=True: the prediction is the prior prediction and the last update alone (C173_last_update_partial, C173_counterexample), and for the background-subtraction regressor it approaches the starting predictions (C173_forgets_partial). C173_estimators says which estimators meet the hypotheses.
  Theorems: `C173_between_features_partial`, `C173_counterexample`, `C173_estimators`, `C173_first_iteration`, `C173_forgets_partial`, `C173_last_update_partial`, `C173_prepared`, `C173_replaced_partial`, `C173_within_update`.
* **C174** A binner whose fit or transform did not finish — partial. false with inplace=True, where the table of the caller is half binned after an interruption and a repetition bins the bin numbers again (C174_counterexample); with inplace=False, and for interrupted fits, the claim is proved in full
  Theorems: `C174_counterexample`, `C174_inplace_partial`, `C174_inplace_repeat_partial`, `C174_interrupted_fit`, `C174_noticed`, `C174_raised`, `C174_repeat`.
* **C175** A fit of a pipeline forgets everything before, and a fit that raises leaves the pipeline as it was — partial. C175_refit (any history), C175_binner_raised and C175_same_table are proved in full; C175_refused_partial says what a fit leaves whose estimator refuses the targets. C175_counterexample is a pipeline that predicts 3/2 for the value 30, whose refit raises a KeyError, and which then predicts 1/2 for the same value.
  Theorems: `C175_binner_raised`, `C175_counterexample`, `C175_refit`, `C175_refused_partial`, `C175_same_table`, `C175_steps`.
* **C176** A pipeline finds the columns of its tables by their names — proved. C176_columns is stated in one direction; the other one is the same theorem with the tables exchanged. Without feature groups the columns of the table are the features, in their order (C92_default_features).
  Theorems: `C176_columns`, `C176_refused`.

## Findings about the code

Facts that came out of modelling and proving. Where a theorem states the fact, it is named.

Binning
* `calculate_cdf_from_weighted_data` drops values without weight from the cdf but not from the value list (`C09_zero_weight_misaligned`).
* Magic integers (-9, -999) are not excluded when the cdf is fitted, only when data are transformed.
* `ECdfTransformer.transform` writes into the caller's float array.
* `minimal_difference` and the width of epsilon: with a large epsilon a fitted value can fall outside the last bin (`C07_needs_small_epsilon`).
* `multidim_binnos_to_lexicographic_binnos` with given numbers of bins puts every row into bin 0 if no row is usable (`C13_no_valid_row`); the same pattern makes `not_seen_events` treat rows out of range as bin 0 (`C49_no_row_in_range`).

Flags and smoother choice
* `flags_to_string` does not know INCREASING, DECREASING and HAS_MAGIC_INT_MISSING (`C15_increasing_not_printable`), and `_simplify_flags` therefore raises ValueError for such a property alone (`C53_increasing_alone_fails`).
* `SmootherChoiceGroupBy.wrap_smoother` uses `super(self.__class__, self)`, which recurses without end in subclasses.

Training
* Without aggregation, the bookkeeping is wrong after a rolled back iteration (`C20_divergence_counterexample`).
* In aggregate mode, `minimal_factor_change` compares successive updates: constant updates stop the training (`C64_constant_updates_stop`).
* A feature that is neutralised while training diverges ("will be ignored") keeps its old factors if that iteration is rolled back, and is then never learned again (`C65_rolled_back_counterexample`).
* The limitation of factors while diverging can push stored factors beyond the limits of the feature, and can make the factor of missing values non-neutral although MISSING_NOT_LEARNED is set (`C25_divergence_counterexample`).
* Divergence during the hierarchical phase ends in a TypeError instead of a ConvergenceError as soon as there is a feature outside of the hierarchical groups (`C22_divergence_fails`, `C138_training`).
* `_check_convergence` compares with twice the initial loss, which is smaller than the initial loss if that is negative.
* `_check_len_data` is a chained comparison: one empty argument passes (`C29_counterexample`).
* The multiplicative quantile regressor takes the logarithm of 0 if the quantile of its (valid) targets is 0 (`C138_quantile_zero_counterexample`).
* `maximal_iterations=0`, `minimal_factor_change >= 100` or `minimal_loss_change >= 1e20` end in a TypeError (`C138_training`), and `maximal_iterations=0` leaves variables unset; hierarchical feature groups override the learn rate of the user.
* `BaseObserver.observe_iterations` lacks the argument `delta` with which it is called.
* `training_iterations_hierarchical_features` cannot be set through the pipelines.

Prediction
* Features of one column round bin numbers at prediction but truncate them in training (`C19_fraction_counterexample`).
* Contributions are keyed by joined names, which can collide (`C24_key_collision`, `C28_name_collision`).
* Feature importances are not reset by a second fit (`C28_refit_counterexample`).
* A category called "factors" is counted twice (`C26_reserved_name`); removing from an absent category stores the contribution with the wrong sign (`C27_add_after_remove_counterexample`).
* IS_MONOTONIC without a direction does not give monotone factors: each iteration may choose another direction (`C73_without_direction`).

Estimators
* `CBGenericClassifier` takes the logarithm of a multiplicative parameter although its link is the logit (`C55_classifier_counterexample`).
* `continuous_quantile_from_discrete` uses the sum of weights as an index (`C56_weights_counterexample`, `C56_overshoot_counterexample`). As a result, with repeated targets the fitted quantile model depends on the unit of the weights (`C123_ties_counterexample`).
* `CBGenericLoss.calc_parameters` inserts empty bins in the iteration order of a set (`C37_order_counterexample`).
* Negative binomial dispersion: a bin without samples gets the offset -10^(1/(iteration+1)) in the default mode (`C62_default_mode_not_neutral`); sample weights are not used; the caller's prior column is clipped in place.
* `CBGBSRegressor.loss` divides by the weight of the samples with non-zero target, 0/0 if there are none (`C46_loss_denominator`).
* `CBLocPoissonRegressor`: a constant target divides by zero (`C157_locPoisson_nan`); `precalc_variance_y` is NaN for bins whose samples all have weight 0 (`C157_location_nan`), so that for `CBLocationRegressor` a sample of weight 0 can spoil a fit; `calibrate_to_weighted_mean` is NaN if only the missing bin has weight.
* The uncertainty that `CBLocPoissonRegressor` reports for a bin with samples of weight 1 is always 1, however many there are (`C158_locPoisson_unit`); the additive quantile regressors report NaN for bins whose samples all have weight 0 (`C158_gaussian_float`).
* Sliding-window mean: NaN if a bin and its neighbours have equal values (`C33_neighbors_nan`).
* `neutralize_one_dim_influence` uses the uncertainties as weights.
* `SectionSmoother` ignores `nan_representation`. With an upper smoother that looks values up by bin number (`BinValuesSmoother` and others), the bins above the split point get the values of bins further up, or NaN (`C145_counterexample`, `C145_upper`). `PredictingBinValueMixin` (multidim) lacks `_bin_steps` for one dimension. `np.product` is gone in NumPy 2.
* `OrthogonalPolynomialSmoother.predict` clamps in place; `np.ascontiguousarray(X[:, 0])` can be a view of the array of the caller. Its significance test never considers a constant or linear fit for three or more bins (`C71_selection`).
* `PolynomialSmoother` and `LinearSmoother` pass `1 / sigma**2` as weights to `np.polyfit`, which squares weights again. `SeasonalLassoSmoother` uses the last bin center as period, one less than the number of bins. `WeightedMeanSmoother.fit` (one- and multidimensional) and `GroupBySmoother.fit` return `None`.
* Global scale: 0.001 is added for every link, so a classifier whose weighted share of positives exceeds 0.999 gets a NaN global scale and NaN predictions (`C75_logit`, `C75_classifier_all_ones`). If no prior prediction of the training sample is valid, the code warns that no individualization is done, but positive prior predictions at prediction time are multiplied by the whole global scale (`C75_prior_all_missing`).
* Sample weights are not repetition counts for `CBLocationRegressor` and `CBLocPoissonRegressor` (`C76_location_counterexample`, `C76_locPoisson_counterexample`), whose uncertainties use squared weights; the variance of `CBGBSRegressor` also uses squared weights, and the dispersion model ignores weights.
* Pipelines do not pass the weight column to the binner. The bins of continuous columns ignore the weights: rows that are told apart when one of them has weight 3 can share one bin when it is repeated three times (`C88_continuous_counterexample`). Without feature properties the binner also bins the weight and prior prediction columns.
* With weighted mean smoothing (the default for categorical features and interactions), one bin without samples keeps a whole feature of `CBGBSRegressor` from being learned: its uncertainty is 0, its weight infinite, and all smoothed values become NaN (`C81_gbs_not_learned`). Interactions usually have such bins.

- C84 holds for the quantile and generic regressors, because the optimiser starts from the neutral parameter, i.e. from the current
  costs. It is not claimed for `CBGenericClassifier`: it starts from 0.5 and minimises the costs of `prob * param`, but the stored
  value is applied to the odds. In the multiplicative mode an optimum of -1e-5 or less has no logarithm, and the factor becomes NaN;
  C84 assumes this does not happen.

Estimator objects
* `_check_fitted` never fires: the constructor already makes the list of features, so `predict` of an estimator that was not fitted fails later, in the features (`C94_counterexample`).
* Without `feature_groups`, the first fit stores the columns of its table in `self.feature_groups`; a refit on another table uses these (`C91_stale_columns`).
* The importances of earlier fits stay in the total, so after a refit importances do not sum to 1 (`C28_refit_values`, `C28_refit_counterexample`).

Price model
* `newton_bisect` with `maximal_iterations=0` raises UnboundLocalError; `_set_right_bound` uses the global `newton_step` whatever function is passed; empty bins have inverse Hessian inf.
* `CBExponential.fit_transform` is the one of the base class, whose running prediction has no exponents: with external features it raises an AttributeError (`C93_price_counterexample`).
* `CBExponential.fit` keeps `self.weights` after the fit and does not convert `y` to an array. The documentation of `_init_external_column` promises a ValueError for price ratios that are not positive; none is raised.
* Rows without price still influence the exponents: the prior term is averaged over all rows of the bin (`bin_counts`). C76 and C78 do not hold for the price model.
* A prior exponent of 0 gives NaN in the prior term (excluded in the model).

Quantile matching
* `J_QPD_S` and `J_QPD_B` give NaN for every symmetric triplet (`C38_log_symmetric_is_nan`, `C39_symmetric_is_nan`); the extended class overshoots by sinh 1 (`C40_symmetric_misses`).
* `QPD_RegressorChain`: in mode "S" the upper quantile lacks a factor (`C42_high_semibounded_iff`), in mode "B" training of the upper quantile fails if a row is masked (`C42_high_bounded_crashes`), negative medians select the wrong rows (`C42_low_negative_median`). With estimators that refuse empty tables and unequal lengths, `fit` in mode "B" raises for every table (`C149_bounded_never_trains`).
* `ppf` and `cdf` drop axes of length one: a table with one row gives a plain number instead of an array with one entry (`C150_single_row`).
* The documentation of `QPD_RegressorChain` says that the extended distributions with a fitted shape are used; `predict` uses `J_QPD_S` and `J_QPD_B`, and `fit_sinhlogistic_shape` is not called.
* A lower quantile equal to the lower bound (an everyday case for demands) is replaced by a distance of 1e-12 from the bound in all units, so that the extended distribution depends on the unit (`C109_at_the_bound`).
* `quantile_fit_nbinom` fits mean and variance without constraint; a variance at or below the mean gives no valid distribution (`C67_invalid`).

Pipelines
* `CBExponential` drops `a`, `c`, `hierarchical_feature_groups`, `aggregate` (`C48_exponential_drops`); `CBNBinomC` drops `hierarchical_feature_groups` and `aggregate`, and its default learning rate is replaced; `CBGBSRegressor` drops `prior_prediction_column`; the binner never gets `weight_column` (`C48_binner_ignores_weights`).

Dispersion model (`CBNBinomC`)
* `required_columns` does not list the column of the means, which `fit` needs (`C92_dispersion_counterexample`); without feature groups this column becomes a feature.
* `fit_transform` is the one of the base class and never sets the means, so that it raises (`C93_dispersion_counterexample`); after a fit that raised, it would use the means of that fit.
* Prior dispersions outside (0, 1) count as 1/2, they are not moved to the nearer end (`C95_start`).
* `_get_prior_predictions` clips the array of prior predictions in place, which changes the caller's table (`C168_dispersion_counterexample`).

Analysis output
* `digitize` gives NaN the index len(bins), which is no bin (`C98_nan`).
* Uniform sample weights other than 1: the counts of `calc_means_medians` are numbers of samples, not weights (`C99_uniform_counts`), and its medians jump when one weight changes by any amount (`C99_median_jump`).
* A bin of the in-sample histogram whose samples all have weight 0 keeps a NaN mean but loses its centre, so that the plot gets lists of different length (`C100_zero_weight`). Its error bars are relative to the median but are drawn around the mean.
* A `PlottingObserver` for iteration N of a fit with N iterations is never filled (`C101_last_iteration`); snapshots in the middle of the training show the last updates instead of the factors of the model (`C101_updates`); predictions and losses passed after each feature are from before the iteration (`C101_feature_calls`); losses of earlier fits are kept (`C101_refit`).
* The smeared values of `smear_discrete_cdftruth` are uniform only for distributions on the natural numbers (`C102_negative`).
* `prepare_plots` of quantile regressors fills the arrays up to the highest bin number that occurs: for a feature of two columns whose last combination has no samples they are too short, and `plot_analysis` raises in `np.reshape` (`C115_counterexample`).
* The y axis of a factor plot replaces the first two factors by the lowest and the highest value, but not their uncertainties: error bars can be cut off (`C116_errors_counterexample`). The limits of the loss plot cut off negative losses (`C116_negative_counterexample`). Where both fit, the number of ticks per unit is the largest, not the smallest as documented.

Curves fitted to bin values
* `PolynomialSmoother` and `LinearSmoother` pass one over the squared uncertainty to `polyfit`, which squares it again: bins are weighted by one over the fourth power (`C105_not_usual_weights`).
* `SeasonalLassoSmoother` divides by the number of the last bin, so that its year is one bin shorter than that of `SeasonalSmoother` and the first and the last bin always agree (`C106_ends`, `C106_not_the_year`).

Interaction selection
* The score of an interaction is the linear correlation with its combined bin number: listing the features in another order can change the selection (`C107_order_matters`), and a pure interaction (exclusive or) has score zero and is missed (`C107_pure_interaction_missed`).

Calibration
* `CBMultiplicativeQuantileRegressor` minimises costs in the factor, so that the coverage of a settled model holds with samples weighted by weight times prediction; with the sample weights alone three of four targets can be below a median (`C111_multiplicative_weight_share`).
* For tied targets the global scale of quantile regressors can leave the ties: the median of 1, 1, 3, 3 becomes 3 (witness of C111).

Cloning
* `clone` deep-copies every parameter that has no `get_params`, dictionaries included: a fitted estimator in a dictionary parameter (explicit smoothers, for example) is still fitted in the clone (`C113_not_unfitted_in_dictionaries`).

Units of the target
* `minimal_factor_change` is an absolute number for additive estimators, and the weighted-mean smoothers compare bin values with the neutral factor up to an absolute 1e-8: training in other units can stop at another iteration, and bin values of the size 1e-9 are not regularised while the same values in larger units are (`C118_weighted_mean_units_fail`). The linear extrapolator adds an absolute 1e-4 to the variances.

Names of the classes
* The 0.001 that is added to the share of class 1 is added for both ways to name the classes: the probabilities of two classifiers trained with swapped classes do not sum to 1 but, where no feature contributes, to 1.002 (`C120_baseline`, `C120_full_claim_fails`).

Missing values that training has not seen
* They are not neutral if they are to be learned: in `CBLocationRegressor` the calibration of every iteration shifts them against the other bins (`C128_location_counterexample`), in `CBGenericClassifier` every iteration halves the odds (`C128_generic_classifier_drift`), and in `CBNBinomC` without Bayesian averaging iteration k moves the dispersion by -10^(1/k) in logit space (`C128_dispersion_drift`). More iterations make it worse.

Labels of factor plots
* Continuous columns: the labels are the middles of the bins, but the ticks are shifted by half a bin to the left, as if the labels were the lower bounds; the factors are drawn without the shift. Every label stands half a bin to the left of its factor (`C132_continuous_shifted`).
* If the binner has seen one category more than the training data of the estimator, the factor for missing values gets the label of the last category (`C132_wrong_label`); with two categories more the plot raises (`C132_mismatch`).

Binning of numpy arrays
* `BinNumberTransformer.transform` writes the bin numbers into a copy of the array with the element type of the caller. A type without sign cannot hold the -1 of unknown categories, which then become some non-negative bin number (`C141_unsigned_counterexample`); with more than 128 categories in an array of signed bytes the numbers overflow, and known categories become -1, the number of missing values (`C141_int8_counterexample`).
* `ECdfTransformer.transform` overwrites the array it is called with if its elements are 64 bit floats, as `np.asarray` does not copy it (`C142_overwritten`). Calling it twice with the same array gives other results the second time (`C142_counterexample`).

Order of quantiles
* Additive quantile regressions for two levels, trained on the same data, can predict more for the lower level than for the higher one, even for samples of the training data and with exact minimisation (`C161_crossing_counterexample`). The start values can be in the wrong order too: for the targets 0, 0 and 1/10 training starts with 1 for the level 0.6 and with 1/10 for the level 0.9, because the interpolation between equal targets adds up to 1 whatever the next target is (`C161_start_counterexample`).

Optimality with several features
* Additive median regression with two features can stop improving at once: for six samples all predictions are 0 after the first feature of the first iteration and stay there, whatever the number of iterations, with the costs 1, although an additive model fits the targets exactly (`C163_stuck_counterexample`). Coordinate-wise minimisation of costs with kinks is not joint minimisation. For squared costs it is (C160).
* A price model keeps the weights of its training samples and the prices of the table it predicted last (`C166_price_counterexample`). A fit that raises in its last check leaves the binned samples in the importances, where later fits do not remove them (`C166_raised_counterexample`). An observer, which is stored with the estimator, keeps copies of the features with the binned training samples (`C166_observer_counterexample`).
* `plot_analysis` closes all figures, also those of the user, if it completes, and leaves its own open if it raises (`C167_figures_counterexample`). Its pages of features are drawn with the settings of the user, the other pages with the style of the package (`C167_pages`).
* `predict` of a price model is not safe in several threads: it keeps the prices of the table in an attribute of the estimator between setting and using it. A thread may get the predictions for the prices of another thread (`C169_price_counterexample`), and with the same table a missing price that has been replaced may come back (`C169_missing_price_counterexample`). All other estimators write nothing while they predict.
* The plot of a feature with two columns writes 1 into the weights of its empty bins, because `np.reshape` gives a view of the array of the feature (`C170_weights_counterexample`).
* `OrthogonalPolynomialSmoother.predict` limits the bin numbers in place if they are 64 bit floats that follow each other directly in memory. The meta smoother around it looks for bin numbers out of range afterwards and finds none: such rows get the value at the border for floats, and no value for integers (`C171_layout_counterexample`). Predictions of estimators are not affected: training smooths only bins in range (`C171_training`), and prediction looks the factors up.
* The plots of multiplicative models draw the factors on the scale of the predictions but their uncertainties in link space: error bars of small factors reach below zero (`C172_log_counterexample`). With a single bin the curves of target and prediction have a second point, that of missing values (`C172_curve_counterexample`).
- C173: `predict` of an estimator whose fit was interrupted (or ended with a `ConvergenceError`) after the first iteration raises nothing. With the default `aggregate=True` it adds only the last update of each feature to the prior prediction, because the smoothers hold the last update and `fitted_aggregated` is used only by `prepare_feature` after the loop; a converged training then predicts the mean. With `aggregate=False` the predictions are those of the training so far.
- C174: `BinNumberTransformer(inplace=True).transform` replaces the columns of the caller's table one after the other. If it is
  interrupted, or raises KeyError because a later column is missing, the table is left half binned, and a repetition takes the bin
  numbers for values (`C174_counterexample`: category 10 becomes 0, and 0, an unknown category, becomes -1).
- C175: a pipeline whose `fit` raises in the estimator keeps the bins of the new table together with the old model, and predicts without a
  warning (`C175_counterexample`: 3/2 before and 1/2 after a refit that failed because the weight column was missing).
- C176: a pipeline that was fitted to a table with a column that has a property but is in no feature needs this column for predictions, too
  (`C176_refused`), because the binner counts the columns with a property.

## Modelled and not modelled code

For every file the functions whose body is cited by a definition of the model (completely or in part; the comment of the definition gives the lines and the simplifications), and those that have no counterpart in the model.

### `cyclic_boosting/GBSregression.py`

Modelled: `CBGBSRegressor.calc_parameters`, `CBGBSRegressor._check_y`, `CBGBSRegressor._init_global_scale`, `CBGBSRegressor.loss`.

Not modelled: `CBGBSRegressor.__init__`, `CBGBSRegressor.precalc_parameters`.

### `cyclic_boosting/base.py`

Modelled: `get_influence_category`, `UpdateMixin.__init__`, `UpdateMixin.include_price_contrib`, `UpdateMixin.include_factor_contrib`, `UpdateMixin.remove_price_contrib`, `UpdateMixin.remove_factor_contrib`, `UpdateMixin.update_predictions`, `UpdateMixin.remove_predictions`, `CBLinkPredictionsFactors.__init__`, `CBLinkPredictionsFactors.predict_link`, `CBLinkPredictionsFactors.factors`, `_predict_factors`, `_factors_deviation`, `CyclicBoostingBase.__init__`, `CyclicBoostingBase.loss`, `CyclicBoostingBase.global_scale_`, `CyclicBoostingBase.learning_rate`, `CyclicBoostingBase._init_weight_column`, `CyclicBoostingBase._init_default_feature_groups`, `CyclicBoostingBase._init_global_scale`, `CyclicBoostingBase._check_weights`, `CyclicBoostingBase._init_features`, `CyclicBoostingBase._get_prior_predictions`, `CyclicBoostingBase.is_diverged`, `CyclicBoostingBase._check_convergence`, `CyclicBoostingBase._update_loss`, `CyclicBoostingBase._call_observe_feature_iterations`, `CyclicBoostingBase._call_observe_iterations`, `CyclicBoostingBase.get_state`, `CyclicBoostingBase.remove_preds`, `CyclicBoostingBase._set_factors_per_feature`, `CyclicBoostingBase.visit_factors`, `CyclicBoostingBase.feature_iteration`, `CyclicBoostingBase.cb_features`, `CyclicBoostingBase.fit`, `CyclicBoostingBase._init_fit`, `CyclicBoostingBase._fit_main`, `CyclicBoostingBase.prepare_plots`, `CyclicBoostingBase._fit_predict`, `CyclicBoostingBase._pred_feature`, `CyclicBoostingBase.predict`, `CyclicBoostingBase.predict_extended`, `CyclicBoostingBase.fit_transform`, `CyclicBoostingBase.transform`, `CyclicBoostingBase._check_stop_criteria`, `CyclicBoostingBase._check_parameters`, `CyclicBoostingBase._check_fitted`, `CyclicBoostingBase._check_len_data`, `CyclicBoostingBase.get_subestimators_as_items`, `CyclicBoostingBase.set_feature_importances`, `CyclicBoostingBase.get_feature_importances`, `CyclicBoostingBase.calc_parameters`, `CyclicBoostingBase.precalc_parameters`, `CyclicBoostingBase.required_columns`, `CyclicBoostingBase.calibrate_to_weighted_mean`, `_coefficient_for_gaussian_matching_by_quantiles`, `gaussian_matching_by_quantiles`, `calc_factors_generic`.

Not modelled: `ZeroSmoother.fit`, `ZeroSmoother.predict`, `CyclicBoostingBase._feature_contribution`, `CyclicBoostingBase._log_iteration_info`, `CyclicBoostingBase._check_y`, `CyclicBoostingBase.get_feature_contributions`.

### `cyclic_boosting/binning/_binary_search.py`

Modelled: `le`, `ge`, `eq_multi`, `ge_multi`, `le_interp`, `le_interp_multi`, `ge_lim`, `check_equal`.

### `cyclic_boosting/binning/_utils.py`

Modelled: `_read_feature_property`, `minimal_difference`, `get_column_index`, `check_frame_empty`.

Not modelled: `get_bin_bounds`.

### `cyclic_boosting/binning/bin_number_transformer.py`

Modelled: `BinNumberTransformer.__init__`, `BinNumberTransformer._transform_one_feature`, `BinNumberTransformer.transform`, `BinNumberTransformer.get_feature_bin_boundaries`, `column_selector`, `_as_int_array_of_minimum_dtype`, `column_setter`.

### `cyclic_boosting/binning/ecdf_transformer.py`

Modelled: `ECdfTransformer.__init__`, `ECdfTransformer._normalize_bins`, `ECdfTransformer.fit`, `ECdfTransformer._check_input_for_transform`, `ECdfTransformer.transform`, `get_feature_column_names_or_indices`, `get_weight_column`, `reduce_cdf_and_boundaries_to_nbins`, `get_X_column`, `calculate_cdf_from_weighted_data`.

Not modelled: `ConstFunction.__init__`, `ConstFunction.__call__`.

### `cyclic_boosting/classification.py`

Modelled: `get_beta_priors`, `boost_weights`, `CBClassifier._check_y`, `CBClassifier.precalc_parameters`, `CBClassifier._get_posterior_dist_from_prior_dist`, `CBClassifier._get_percentiles_from_distribution_parameters`, `CBClassifier.calc_parameters`, `CBClassifier.predict_proba`, `CBClassifier.predict`.

### `cyclic_boosting/common_smoothers.py`

Modelled: `_simplify_flags`, `_default_smoother_types`, `determine_reg_type`, `determine_meta_smoother`, `SmootherChoice.__init__`, `SmootherChoice._validate_explicit_smoothers`, `SmootherChoice.choice_fct`, `SmootherChoice.get_onedim_smoother`, `SmootherChoice.wrap_smoother`, `SmootherChoiceWeightedMean.get_raw_smoother`, `SmootherChoiceGroupBy.wrap_smoother`, `SmootherChoiceGroupBy.get_raw_smoother`, `NoSmootherChoice.choice_fct`.

Not modelled: `SmootherChoice.get_raw_smoother`.

### `cyclic_boosting/features.py`

Modelled: `Feature.__init__`, `Feature.dim`, `Feature.is_1dim`, `Feature.missing_not_learned`, `Feature.n_bins`, `Feature.n_bins_finite`, `Feature.bin_centers`, `Feature.finite_bin_weightsums`, `Feature.bind_data`, `Feature.unfitted_factor_link_nan_bin`, `Feature.factor_link_nan_bin`, `Feature.unbind_data`, `Feature.unbind_factor_data`, `Feature._get_data_for_smoother`, `Feature.update_factors`, `Feature.prepare_feature`, `Feature.set_feature_bin_deviations_from_neutral`, `create_feature_id`, `FeatureList.iter_fitting`, `FeatureList.__getitem__`, `FeatureList.get_feature`, `create_features`.

Not modelled: `Feature.nan_bin_weightsum`, `Feature.clear_feature_reference`, `FeatureList.__init__`, `FeatureList.feature_groups`, `FeatureList.feature_ids`, `FeatureList.__iter__`, `FeatureList.__len__`.

### `cyclic_boosting/flags.py`

Modelled: `is_continuous_set`, `is_ordered_set`, `is_unordered_set`, `is_monotonic_set`, `increasing_set`, `decreasing_set`, `has_magic_missing_set`, `has_missing_set`, `missing_not_learned_set`, `is_linear_set`, `is_seasonal_set`, `check_flags_consistency`, `flags_to_string`, `_convert_flags_to_string`, `read_feature_property`.

### `cyclic_boosting/generic_loss.py`

Modelled: `CBGenericLoss.calc_parameters`, `CBGenericLoss.optimization`, `CBGenericLoss.objective_function`, `CBQuantileRegressor.__init__`, `CBQuantileRegressor.loss`, `CBQuantileRegressor._init_global_scale`, `CBQuantileRegressor.costs`, `CBQuantileRegressor.prepare_plots`, `CBQuantileRegressor._call_observe_iterations`, `CBQuantileRegressor.quantile_costs`, `CBQuantileRegressor.quantile_global_scale`, `CBMultiplicativeQuantileRegressor.__init__`, `CBMultiplicativeQuantileRegressor._check_y`, `CBMultiplicativeQuantileRegressor.model`, `CBMultiplicativeQuantileRegressor.uncertainty`, `CBAdditiveQuantileRegressor.__init__`, `CBAdditiveQuantileRegressor._check_y`, `CBAdditiveQuantileRegressor.model`, `CBAdditiveQuantileRegressor.uncertainty`, `model_multiplicative`, `model_additive`, `uncertainty_gamma`, `uncertainty_gaussian`, `uncertainty_beta`, `check_y_multiplicative`, `check_y_additive`, `CBMultiplicativeGenericCRegressor.__init__`, `CBMultiplicativeGenericCRegressor.loss`, `CBMultiplicativeGenericCRegressor._check_y`, `CBMultiplicativeGenericCRegressor.costs`, `CBMultiplicativeGenericCRegressor.model`, `CBMultiplicativeGenericCRegressor.uncertainty`, `CBAdditiveGenericCRegressor.__init__`, `CBAdditiveGenericCRegressor.loss`, `CBAdditiveGenericCRegressor._check_y`, `CBAdditiveGenericCRegressor.costs`, `CBAdditiveGenericCRegressor.model`, `CBAdditiveGenericCRegressor.uncertainty`, `CBGenericClassifier.__init__`, `CBGenericClassifier.loss`, `CBGenericClassifier._check_y`, `CBGenericClassifier.costs`, `CBGenericClassifier.model`, `CBGenericClassifier.uncertainty`.

Not modelled: `CBGenericLoss.precalc_parameters`, `CBGenericLoss.costs`, `CBGenericLoss.model`, `CBGenericLoss.uncertainty`, `check_y_classification`.

### `cyclic_boosting/interaction_selection.py`

Modelled: `create_interactions`, `build_binned_interaction_features`, `select_interaction_terms_anova`.

### `cyclic_boosting/learning_rate.py`

Modelled: `constant_learn_rate_one`, `linear_learn_rate`, `logistic_learn_rate`, `half_linear_learn_rate`.

### `cyclic_boosting/link.py`

Modelled: `LinkFunction.is_in_range`, `LinkFunction.link_func`, `LinkFunction.unlink_func`, `LogLinkMixin.unlink_func`, `LogLinkMixin.is_in_range`, `LogLinkMixin.link_func`, `LogitLinkMixin.is_in_range`, `LogitLinkMixin.link_func`, `LogitLinkMixin.unlink_func`, `IdentityLinkMixin.is_in_range`, `IdentityLinkMixin.link_func`, `IdentityLinkMixin.unlink_func`.

### `cyclic_boosting/location.py`

Modelled: `CBLocPoissonRegressor.precalc_parameters`, `CBLocPoissonRegressor._check_y`, `CBLocPoissonRegressor._regularize_summands`, `CBLocPoissonRegressor.calc_parameters`, `CBLocPoissonRegressor.predict`, `precalc_variance_y`, `calc_parameters_intercept`, `CBLocationRegressor._check_y`, `CBLocationRegressor.precalc_parameters`, `CBLocationRegressor.calc_parameters`, `CBLocationRegressor.calibrate_to_weighted_mean`.

### `cyclic_boosting/nbinom.py`

Modelled: `_try_compile_parallel_func`, `CBNBinomC.__init__`, `CBNBinomC._check_y`, `CBNBinomC.precalc_parameters`, `CBNBinomC.calc_parameters`, `CBNBinomC.loss`, `CBNBinomC.fit`, `CBNBinomC._get_prior_predictions`, `CBNBinomC._init_global_scale`, `get_new_c_link_for_iteration`, `nbinom_log_pmf`, `loss_nbinom_c`, `binned_loss_nbinom_c`, `compute_2d_loss`, `bayes_result`, `calc_parameters_nbinom_c`.

### `cyclic_boosting/observers.py`

Modelled: `PlottingObserver.__init__`, `PlottingObserver.observe_iterations`, `PlottingObserver.observe_feature_iterations`, `PlottingObserver.check_fitted`, `calc_in_sample_histograms`.

### `cyclic_boosting/pipelines.py`

Modelled: `pipeline_CB`, `pipeline_CBPoissonRegressor`, `pipeline_CBNBinomRegressor`, `pipeline_CBClassifier`, `pipeline_CBLocationRegressor`, `pipeline_CBExponential`, `pipeline_CBLocPoissonRegressor`, `pipeline_CBNBinomC`, `pipeline_CBGBSRegressor`, `pipeline_CBMultiplicativeQuantileRegressor`, `pipeline_CBAdditiveQuantileRegressor`, `pipeline_CBMultiplicativeGenericCRegressor`.

Not modelled: `pipeline_CBAdditiveGenericCRegressor`, `pipeline_CBGenericClassifier`.

### `cyclic_boosting/plots/_1dplots.py`

Modelled: `_get_x_axis`, `_get_optimal_number_of_ticks`, `_get_y_axis`, `_plot_factors`, `_plot_axes`, `plot_factor_1d`.

Not modelled: `_format_tick`, `_ensure_tuple`, `_plot_smoothed_factors`, `_plot_missing_factor`.

### `cyclic_boosting/plots/_2dplots.py`

Modelled: `bin_boundaries_for_factor_histograms`, `plot_factor_2d`.

Not modelled: `_no_finite_samples`, `_imshow_factors_2d`, `_plot_factors_histogram`.

### `cyclic_boosting/plots/__init__.py`

Modelled: `_guess_suitable_number_of_histogram_bins`, `_factor_plots_y_limits`, `plot_iteration_info`, `plot_factor_change`, `plot_loss`, `plot_in_sample_diagonal_plot`, `plot_analysis`, `plot_factors`, `_plot_one_feature_group`.

Not modelled: `_format_groupname_with_type`, `plot_factor_histogram`.

### `cyclic_boosting/plots/plot_utils.py`

Modelled: `calc_extent_with_missing_values_box`, `_nbpy_style`, `append_extension`.

Not modelled: `add_missing_values_box`, `fill_missing_values_box`, `colorful_histogram`, `blue_cyan_green_cmap`, `_colormap_gen`, `_nbpy_style_figure`.

### `cyclic_boosting/price.py`

Modelled: `combine_lists_of_feature_groups`, `_check_feature_groups`, `_set_right_bound`, `newton_bisect`, `newton_step`, `CBExponential.__init__`, `CBExponential.required_columns`, `CBExponential._init_external_column`, `CBExponential._get_prior_exponent`, `CBExponential.calc_parameters`, `CBExponential._calc_parameters_exponent`, `CBExponential.predict`, `CBExponential.predict_extended`, `CBExponential.fit`, `gamma_momemt_matching`, `CBLinkPredictions.__init__`, `CBLinkPredictions.predict_link`, `CBLinkPredictions.factors`, `CBLinkPredictions.exponents`, `CBLinkPredictions.prior_exponents`, `CBLinkPredictions.base`.

### `cyclic_boosting/quantile_matching.py`

Modelled: `J_QPD_S.__init__`, `J_QPD_S.ppf`, `J_QPD_S.cdf`, `J_QPD_B.__init__`, `J_QPD_B.ppf`, `J_QPD_B.cdf`, `SinhLogistic.__init__`, `SinhLogistic.ppf`, `SinhLogistic.cdf`, `SinhLogistic.pdf`, `BaseDist.__init__`, `BaseDist.ppf`, `BaseDist.cdf`, `BaseDist.pdf`, `unconstrained_calc`, `J_QPD_extended_U.__init__`, `J_QPD_extended_U.ppf`, `J_QPD_extended_U.cdf`, `J_QPD_extended_S.__init__`, `J_QPD_extended_S.ppf`, `J_QPD_extended_S.cdf`, `J_QPD_extended_B.__init__`, `J_QPD_extended_B.ppf`, `J_QPD_extended_B.cdf`, `transform_from_bounds`, `back_transform_in_bounds`, `transform_from_semibound_lower`, `back_transform_in_semibound_lower`, `transform_from_semibound_upper`, `back_transform_in_semibound_upper`, `fit_sinhlogistic_shape`, `QPD_RegressorChain.__init__`, `QPD_RegressorChain.fit`, `QPD_RegressorChain.predict`, `quantile_fit_gaussian`, `quantile_fit_gamma`, `_nbinom_cdf_mu_var`, `quantile_fit_nbinom`.

Not modelled: `quantile_fit_spline`.

### `cyclic_boosting/regression.py`

Modelled: `_calc_factors_from_posterior`, `_calc_factors_and_uncertainties`, `get_gamma_priors`, `CBBaseRegressor._check_y`, `CBNBinomRegressor.__init__`, `CBNBinomRegressor.precalc_parameters`, `CBNBinomRegressor.calc_parameters`, `CBPoissonRegressor.precalc_parameters`, `CBPoissonRegressor.calc_parameters`.

Not modelled: `CBBaseRegressor.calc_parameters`, `CBBaseRegressor.precalc_parameters`.

### `cyclic_boosting/smoothing/base.py`

Modelled: `SetNBinsMixin.set_n_bins`.

### `cyclic_boosting/smoothing/extrapolate.py`

Modelled: `LinearExtrapolator.__init__`, `LinearExtrapolator._check_fitted`, `LinearExtrapolator.fit`, `LinearExtrapolator.predict`.

### `cyclic_boosting/smoothing/meta_smoother.py`

Modelled: `NormalizationSmoother.calc_norm`, `NormalizationSmoother.fit`, `NormalizationSmoother.predict`, `_selected_events_interpolating`, `RegressionTypeSmoother.apply_cut`, `RegressionTypeSmoother.fit`, `RegressionTypeSmoother.predict`, `NormalizationRegressionTypeSmoother.__init__`, `NormalizationRegressionTypeSmoother.fit`, `NormalizationRegressionTypeSmoother.predict`, `SectionSmoother._split_condition`, `SectionSmoother.fit`, `SectionSmoother.predict`.

Not modelled: `check_reg_type`, `not_interpolating`, `not_extrapolating`, `NormalizationSmoother.__init__`, `RegressionTypeSmoother.__init__`, `SectionSmoother.__init__`, `SectionSmoother._reset_smoother_status`.

### `cyclic_boosting/smoothing/multidim.py`

Modelled: `PredictingBinValueMixin.predict`, `BinValuesSmoother.fit`, `BinValuesSmoother.__getstate__`, `BinValuesSmoother.__setstate__`, `RegularizeToPriorExpectationSmoother.__init__`, `RegularizeToPriorExpectationSmoother.fit`, `WeightedMeanSmoother.__init__`, `WeightedMeanSmoother.fit`, `PriorExpectationMetaSmoother.fit`, `_fit_est_on_group`, `_predict_groups`, `GroupBySmoother.n_group_columns`, `GroupBySmoother.__init__`, `GroupBySmoother.fit`, `GroupBySmoother.predict`, `GroupBySmootherCB.__init__`, `Neutralize2DMetaSmoother.fit`.

Not modelled: `RegularizeToOneSmoother.__init__`, `PriorExpectationMetaSmoother.__init__`, `Neutralize2DMetaSmoother.__init__`.

### `cyclic_boosting/smoothing/onedim.py`

Modelled: `PredictingBinValueMixin.predict`, `BinValuesSmoother.__getstate__`, `BinValuesSmoother.__setstate__`, `RegularizeToPriorExpectationSmoother.__init__`, `RegularizeToPriorExpectationSmoother.fit`, `WeightedMeanSmoother.__init__`, `WeightedMeanSmoother.fit`, `WeightedMeanSmootherNeighbors.fit`, `OrthogonalPolynomialSmoother.fit`, `OrthogonalPolynomialSmoother.predict`, `_choose_default_fit_function`, `_seasonality_first_order`, `_seasonality_second_order`, `_seasonality_third_order`, `SeasonalSmoother.__init__`, `SeasonalSmoother.transform_X`, `SeasonalSmoother.fit`, `SeasonalSmoother.predict`, `SeasonalLassoSmoother.__init__`, `SeasonalLassoSmoother.prepare_X`, `SeasonalLassoSmoother._fallback_predict`, `SeasonalLassoSmoother.predict`, `SeasonalLassoSmoother.fit`, `PriorExpectationMetaSmoother.__init__`, `PriorExpectationMetaSmoother.fit`, `PolynomialSmoother.__init__`, `PolynomialSmoother.fit`, `PolynomialSmoother.predict`, `LinearSmoother.__init__`, `LinearSmoother.fit`, `LSQUnivariateSpline.__init__`, `LSQUnivariateSpline.fit`, `LSQUnivariateSpline.predict`, `IsotonicRegressor.fit`, `IsotonicRegressor.predict`.

Not modelled: `BinValuesSmoother.fit`, `RegularizeToOneSmoother.__init__`, `UnivariateSplineSmoother.__init__`, `UnivariateSplineSmoother.fit`, `UnivariateSplineSmoother.predict`, `IsotonicRegressor.__init__`.

### `cyclic_boosting/smoothing/orthofit.py`

Modelled: `cy_orthogonal_poly_fit_equidistant`, `fit_orthogonal_poly_`, `significant_parameters_`, `custom_clip`, `reduce_to_signifcant_parameters`, `cy_apply_orthogonal_poly_fit_equidistant`.

### `cyclic_boosting/utils.py`

Modelled: `not_seen_events`, `get_X_column`, `slice_finite_semi_positive`, `multidim_binnos_to_lexicographic_binnos`, `bin_steps`, `arange_multi`, `calc_linear_bins`, `digitize`, `calc_means_medians`, `calc_weighted_quantile`, `_calc_means_medians_evenly_weighted`, `_calc_means_medians_with_weights`, `_weighted_quantile_of_dataframe`, `_weighted_median_of_dataframe`, `_weighted_mean_of_dataframe`, `_weighted_size_of_dataframe`, `weighted_stddev`, `clone`, `regularize_to_prior_expectation`, `regularize_to_error_weighted_mean`, `regularize_to_error_weighted_mean_neighbors`, `neutralize_one_dim_influence`, `get_bin_bounds`, `generator_to_decorator`, `linear_regression`, `get_feature_column_names`, `continuous_quantile_from_discrete_pdf`, `get_normalized_values`, `smear_discrete_cdftruth`, `smear_discrete_cdftruth_qpd`.

Not modelled: `nans`, `ConvergenceParameters.set_loss_change`, `ConvergenceParameters.set_delta`.

## Axioms per theorem

Output of `#print axioms` for every theorem of MANIFEST.json.

* `propext, Classical.choice, Quot.sound`: `C01_continuous_bin`, `C02_monotone`, `C03_discrete_bin`, `C03_rank`, `C04_magic_only_if_flagged`, `C04_missing`, `C04_range`, `C05_reduced_bins`, `C05_too_few_bins`, `C06_min_weight`, `C07_covers`, `C07_covers_exact`, `C07_needs_small_epsilon`, `C08_bounded`, `C08_discrete`, `C08_exact`, `C08_extremes`, `C08_fitted`, `C08_missing`, `C08_monotone`, `C09_aligned_iff`, `C09_cdf_partial`, `C09_zero_weight_misaligned`, `C100_aligned_partial`, `C100_complete`, `C100_errors`, `C100_exists`, `C100_values`, `C100_zero_weight`, `C101_calls`, `C101_default`, `C101_default_factors`, `C101_feature_calls`, `C101_iteration_partial`, `C101_last_iteration`, `C101_updates`, `C102_bounds`, `C102_negative`, `C102_qpd`, `C102_uniform`, `C103_declared`, `C103_numbering`, `C104_best`, `C104_declared`, `C104_declared_few`, `C104_exact`, `C104_few`, `C104_level`, `C104_offset`, `C104_order`, `C104_periodic`, `C105_best`, `C105_exact`, `C105_increasing`, `C105_line`, `C105_missing`, `C105_not_usual_weights`, `C105_single`, `C105_spline`, `C106_ends`, `C106_few`, `C106_mean`, `C106_not_the_year`, `C106_used`, `C106_wave`, `C107_best`, `C107_count`, `C107_order_matters`, `C107_pure_interaction_missed`, `C107_score_range`, `C107_score_units`, `C107_target_units`, `C108_gamma_exact`, `C108_gaussian_best`, `C108_gaussian_exact`, `C108_gaussian_units`, `C108_inverse`, `C108_mode`, `C108_nbinom_exact`, `C109_at_the_bound`, `C109_bounded`, `C109_empirical`, `C109_extended`, `C109_modes`, `C109_semibounded`, `C109_shape_best`, `C109_shape_units`, `C10_narrowing_exact`, `C110_generic_shift`, `C110_multiplicative_depends_on_unit`, `C110_quantile_shift`, `C111_gbs`, `C111_location`, `C111_multiplicative_weight_share`, `C111_nbinom_fixed`, `C111_no_smoothing`, `C111_poisson`, `C111_poisson_fixed`, `C111_quantile_additive`, `C111_quantile_multiplicative`, `C112_constant`, `C112_fit_succeeds`, `C112_gbs`, `C112_left_alone`, `C112_neutral`, `C112_quantile`, `C112_settled`, `C113_features_apart`, `C113_independent`, `C113_original_unchanged`, `C114_additive`, `C114_curves`, `C114_curves_multiplicative`, `C114_empty_bin`, `C114_mean`, `C114_multiplicative`, `C115_absent`, `C115_analysis_exists`, `C115_bins`, `C115_counterexample`, `C115_curves`, `C115_exists`, `C115_length_partial`, `C115_one_column`, `C115_unit_weights`, `C116_errors_counterexample`, `C116_histogram_bins`, `C116_loss_shown_partial`, `C116_missing_box`, `C116_negative_counterexample`, `C116_neutral_centered`, `C116_ticks`, `C116_ticks_inside`, `C116_values_shown`, `C117_gbs_order`, `C117_gbs_range`, `C117_poisson_order`, `C117_poisson_range`, `C118_mirror`, `C118_smoothers_mirror`, `C118_smoothers_units`, `C118_units`, `C118_weighted_mean_units_fail`, `C119_additive`, `C119_mean_not_positive`, `C119_multiplicative`, `C119_regressors`, `C11_bijective_ordered`, `C11_onto`, `C120_baseline`, `C120_bins`, `C120_full_claim_fails`, `C120_generic_uncertainty`, `C120_quantiles`, `C120_smoothers`, `C120_training_partial`, `C121_fit_succeeds`, `C121_iterations`, `C121_maximal_iterations`, `C122_fixed_iterations`, `C122_no_smoothing`, `C122_subtraction`, `C122_superposition`, `C123_classifier`, `C123_generic`, `C123_no_smoothing`, `C123_quantile_costs`, `C123_quantile_partial`, `C123_ties_counterexample`, `C124_best_exists`, `C124_convergence`, `C124_limit`, `C124_no_smoothing`, `C125_more_features`, `C125_same_limit`, `C126_calibrated`, `C126_total`, `C127_mean`, `C128_dispersion_drift`, `C128_generic_classifier_drift`, `C128_location_counterexample`, `C128_neutral_partial`, `C128_poisson_partial`, `C129_cell_means`, `C129_components_redundant`, `C12_increasing`, `C12_inverse`, `C130_noise`, `C131_continued`, `C132_categorical`, `C132_continuous_partial`, `C132_continuous_shifted`, `C132_mismatch`, `C132_wrong_label`, `C133_dispersion`, `C133_estimator`, `C133_pipeline`, `C133_pipeline_whole`, `C133_price`, `C134_column_order`, `C135_estimator`, `C135_feature`, `C135_pipeline`, `C135_state`, `C136_dispersion`, `C136_larger_limit`, `C136_looser`, `C136_not_converging`, `C136_price`, `C136_same_number`, `C137_construct`, `C137_estimators`, `C137_fit`, `C137_joined_names`, `C137_names`, `C137_predict`, `C137_price_construct`, `C137_price_fit`, `C137_price_predict`, `C137_transform`, `C138_baseline`, `C138_baseline_classifier`, `C138_baseline_quantile`, `C138_binning`, `C138_fit`, `C138_only_divergence`, `C138_pipeline`, `C138_quantile_zero_counterexample`, `C138_training`, `C139_bookkeeping`, `C139_clipped`, `C139_linear`, `C139_predict`, `C13_given_partial`, `C13_inferred`, `C13_no_valid_row`, `C140_categories`, `C140_failed_fit`, `C140_inplace`, `C140_pipeline_fit`, `C140_pipeline_transform`, `C140_refit`, `C140_transform`, `C140_unfitted`, `C140_untouched`, `C140_untouched_history`, `C141_array`, `C141_int8_counterexample`, `C141_like_table_partial`, `C141_unsigned_counterexample`, `C142_counterexample`, `C142_others`, `C142_overwritten`, `C142_result`, `C142_unchanged_partial`, `C143_above`, `C143_below`, `C143_between`, `C144_accepted`, `C144_dispersion`, `C144_not_refused`, `C144_price`, `C144_refused`, `C145_counterexample`, `C145_lower_partial`, `C145_upper`, `C146_estimates`, `C146_finishes`, `C146_losses`, `C146_mean`, `C146_mean_rounded`, `C146_outside`, `C146_race_free`, `C146_samples`, `C146_terminates`, `C147_bisection`, `C147_bracket`, `C147_not_backwards`, `C147_quadratic`, `C148_best`, `C148_keeps`, `C148_mean`, `C148_range`, `C148_truth`, `C149_bounded_never_trains`, `C149_coverage`, `C149_no_crossing`, `C149_predict`, `C149_training`, `C149_trains_semibounded_partial`, `C150_chain`, `C150_inner`, `C150_inner_fails_iff`, `C150_inner_one_level`, `C150_one_level`, `C150_one_sample`, `C150_outer`, `C150_single_row`, `C151_converges`, `C151_limit_near_mean`, `C151_rate`, `C152_count`, `C152_distinct_partial`, `C153_closed_form`, `C153_monotone`, `C153_rate`, `C154_exact`, `C154_rate`, `C155_excess`, `C155_optimal`, `C156_optimal`, `C156_quantile`, `C156_rate`, `C157_calibration`, `C157_classifier`, `C157_estimates`, `C157_gbs`, `C157_gbs_counterexample`, `C157_locPoisson`, `C157_locPoisson_nan`, `C157_location`, `C157_location_nan`, `C157_nbinom`, `C157_nbinom_counterexample`, `C157_poisson`, `C158_beta`, `C158_gamma`, `C158_gaussian`, `C158_gaussian_float`, `C158_gbs`, `C158_locPoisson`, `C158_locPoisson_unit`, `C158_location`, `C158_location_prior`, `C158_nbinom`, `C158_poisson`, `C158_poisson_anti`, `C158_positive`, `C15_text_identifies`, `C160_calibrated`, `C160_convergence`, `C160_limit`, `C160_same_as_gbs`, `C161_crossing_counterexample`, `C161_full_steps_partial`, `C161_one_feature_partial`, `C161_start_counterexample`, `C162_fails_iff`, `C162_frame_as_array`, `C162_index`, `C162_many`, `C162_one`, `C162_order`, `C163_one_feature_partial`, `C163_stuck_counterexample`, `C164_columns_separate`, `C164_equal`, `C164_greater`, `C164_interpolation`, `C164_overlap_counterexample`, `C164_transform`, `C165_entries`, `C165_no_value_error`, `C165_row_independent`, `C165_rows`, `C166_completed_partial`, `C166_only_after_raise_partial`, `C167_grid`, `C168_dispersion_counterexample`, `C168_dispersion_partial`, `C168_dispersion_unchanged`, `C168_same_predictions`, `C168_unchanged_partial`, `C169_any_schedule_partial`, `C169_finishes`, `C169_missing_price_counterexample`, `C169_price_counterexample`, `C169_same_prices_partial`, `C169_uninterrupted_partial`, `C16_identity`, `C16_log`, `C16_logit`, `C170_again`, `C170_colors`, `C170_first`, `C170_second`, `C170_unchanged_partial`, `C170_weights_counterexample`, `C171_again`, `C171_copied_partial`, `C171_in_place`, `C171_in_range_partial`, `C171_layout_counterexample`, `C171_training`, `C172_bars_partial`, `C172_curve_counterexample`, `C172_log`, `C172_log_counterexample`, `C172_probability`, `C172_value`, `C173_between_features_partial`, `C173_counterexample`, `C173_estimators`, `C173_forgets_partial`, `C173_replaced_partial`, `C174_counterexample`, `C174_inplace_partial`, `C174_inplace_repeat_partial`, `C174_interrupted_fit`, `C174_noticed`, `C174_raised`, `C174_repeat`, `C175_binner_raised`, `C175_counterexample`, `C175_refit`, `C175_refused_partial`, `C175_same_table`, `C175_steps`, `C176_columns`, `C176_refused`, `C17_constant`, `C17_half_linear`, `C17_linear`, `C17_logistic`, `C17_used`, `C18_bookkeeping`, `C18_rollback`, `C19_final_factors`, `C19_fraction_counterexample`, `C19_missing_bin`, `C19_pipeline`, `C19_predict_train`, `C19_price`, `C20_divergence_counterexample`, `C20_replace_partial`, `C21_convergence_error`, `C21_counter`, `C21_final_check`, `C21_fit`, `C21_price`, `C21_terminates`, `C22_divergence_fails`, `C22_only_hierarchical`, `C23_bounds_link`, `C23_factor_bounds`, `C23_fit`, `C23_price`, `C24_decomposition`, `C24_exponent_model`, `C24_key_collision`, `C24_multiplicative`, `C24_price`, `C25_divergence_counterexample`, `C25_fit`, `C25_missing_not_learned`, `C25_nearest_bin`, `C25_range_attained`, `C25_seen_range`, `C25_unseen`, `C26_missing_assignment`, `C26_partition`, `C26_reserved_name`, `C27_add_after_remove_counterexample`, `C28_distribution`, `C28_fit`, `C28_meaning`, `C28_name_collision`, `C28_price`, `C28_refit_counterexample`, `C28_refit_values`, `C29_both_empty_partial`, `C29_fit_empty`, `C30_between`, `C30_empty_bin`, `C30_linear_ansatz`, `C30_unique_minimiser`, `C30_variance_pos`, `C31_poisson_posterior`, `C31_poisson_special_case`, `C31_positive_posterior`, `C32_unique_minimiser`, `C33_between`, `C33_monotone`, `C33_neighbors`, `C33_neighbors_nan`, `C33_ordered_feature`, `C33_range`, `C33_uncertain_shrinks_more`, `C33_unchanged`, `C34_formula`, `C34_insignificant`, `C34_meta_smoother`, `C34_monotone`, `C34_smoother`, `C34_smoother_multi`, `C34_strictly_between`, `C35_actual_quantiles`, `C35_boost_weights`, `C35_class`, `C35_empty_bin_neutral`, `C35_levels`, `C35_matching`, `C35_posterior`, `C35_probabilities`, `C35_probability_mono`, `C35_uncertainty_pos`, `C36_computed_quantile_minimises`, `C36_convex`, `C36_meaning`, `C36_minimisers`, `C36_nonneg`, `C36_quantile_minimises`, `C36_weighted_quantile`, `C37_bins`, `C38_jqpd_s_partial`, `C38_log_symmetric_is_nan`, `C38_rejects_exactly_crossing`, `C38_version`, `C39_jqpd_b_partial`, `C39_symmetric_is_nan`, `C39_symmetric_occurs`, `C40_extended_partial`, `C40_symmetric_misses`, `C40_version`, `C40_versions`, `C41_median_monotone`, `C41_modes`, `C41_no_crossing`, `C41_qpd_bounded`, `C41_qpd_semibounded`, `C42_high_bounded_crashes`, `C42_high_bounded_partial`, `C42_high_bounded_row`, `C42_high_semibounded_iff`, `C42_low_negative_median`, `C42_low_partial`, `C42_median`, `C43_at_the_bound`, `C43_bounded`, `C43_semibound_lower`, `C43_semibound_upper`, `C44_exponent_factors`, `C44_stays_in_bracket`, `C44_variance_positive`, `C45_bayes_between`, `C45_bayes_softmax`, `C45_candidates`, `C45_candidates_bounded`, `C45_minimal`, `C45_never_worse`, `C45_uncertainty`, `C45_update_bounded`, `C46_at_most_residual`, `C46_empty_bin`, `C46_global_scale`, `C46_loss_denominator`, `C46_ridge_minimiser`, `C46_scale_minimises_loss`, `C46_shrinks`, `C46_variance`, `C47_complete`, `C47_count`, `C47_interaction_column`, `C47_nodup`, `C47_one_per_set`, `C49_discontinuous_1d`, `C49_discontinuous_multi_partial`, `C49_interpolating`, `C49_interpolating_missing`, `C49_no_row_in_range`, `C50_norm_between`, `C50_normalised`, `C50_shift_equivariant`, `C50_shift_equivariant_reg`, `C51_multi_dim`, `C51_store_load`, `C52_columns_zero`, `C52_fixed_point`, `C52_mixed_differences`, `C52_passes`, `C52_rows_zero`, `C52_smoother`, `C53_explicit_innermost`, `C54_calibrated`, `C54_intercept_minimiser`, `C54_only_shifts`, `C54_poisson_nonneg`, `C54_poisson_shrinks`, `C54_poisson_uncertainty_pos`, `C54_training`, `C54_variance_pos`, `C54_variance_posterior`, `C55_additive_partial`, `C55_classifier_counterexample`, `C55_multiplicative_partial`, `C55_small_optimum`, `C56_overshoot_counterexample`, `C56_unit_weights_partial`, `C56_weights_counterexample`, `C57_empty_bin`, `C58_basedist`, `C58_basedist_pdf`, `C58_logistic`, `C58_normal`, `C58_normal_median`, `C58_sinhlogistic`, `C58_sinhlogistic_pdf`, `C58_versions`, `C58_versions_extended`, `C59_demand`, `C59_estimate`, `C59_fit_total`, `C59_hessian`, `C59_jacobian`, `C59_loss`, `C59_step`, `C59_training`, `C59_weights`, `C59_zero`, `C60_fit_matches_predict`, `C60_model`, `C60_neutral_price`, `C60_price_direction`, `C60_price_effect`, `C61_combine`, `C61_entries`, `C61_frame`, `C62_bayes_neutral_partial`, `C62_default_mode_not_neutral`, `C63_sections`, `C64_constant_updates_stop`, `C64_stop_iff`, `C64_update_meaning`, `C65_diverging_update`, `C65_frozen`, `C65_neutral_for_good`, `C65_rolled_back_counterexample`, `C66_update_aggregate`, `C66_update_replace`, `C67_invalid`, `C67_nbinom_mean_variance`, `C68_dispersion`, `C68_link`, `C69_gamma_matching`, `C69_no_variance`, `C70_feature`, `C70_least_squares`, `C70_reproduces`, `C70_unique`, `C70_unique_between`, `C71_bounds`, `C71_selection`, `C72_clamped`, `C72_shift`, `C72_total`, `C73_fit`, `C73_prediction`, `C73_stored`, `C73_without_direction`, `C74_fit`, `C74_prediction`, `C74_stored`, `C75_classifier_all_ones`, `C75_fit`, `C75_fit_gbs`, `C75_fit_prior_identity`, `C75_fit_prior_log`, `C75_fit_prior_logit`, `C75_fit_prior_missing`, `C75_identity`, `C75_log`, `C75_logit`, `C75_pipeline`, `C75_pipeline_prior_identity`, `C75_pipeline_prior_log`, `C75_prior_all_missing`, `C75_prior_identity`, `C75_prior_log`, `C75_prior_missing`, `C76_locPoisson_counterexample`, `C76_location_counterexample`, `C76_quantile_counterexample`, `C76_repetition`, `C76_unweighted`, `C76_weighted_rows`, `C77_optimising`, `C77_order`, `C77_price`, `C78_zero_weight`, `C79_shift`, `C80_fit_succeeds`, `C80_never_increases`, `C80_no_smoothing`, `C80_training_error`, `C80_weighted_mean`, `C81_between`, `C81_defined_partial`, `C81_estimators`, `C81_gbs_empty_bin`, `C81_gbs_not_learned`, `C81_zero_uncertainty`, `C82_groups`, `C82_interaction`, `C83_exact`, `C83_line`, `C83_single_bin`, `C84_fit_succeeds`, `C84_never_increases`, `C84_training_cost`, `C85_monotone`, `C85_predict_succeeds`, `C86_boundaries`, `C86_units`, `C87_optimising`, `C87_order`, `C88_continuous_counterexample`, `C88_repetition`, `C89_alike`, `C89_neutral`, `C90_bin_weights`, `C90_training_weights`, `C91_price`, `C91_refit`, `C91_refit_default`, `C91_stale_columns`, `C92_default_features`, `C92_dispersion_counterexample`, `C92_fit_columns_partial`, `C92_missing`, `C92_predict_columns`, `C92_price_fit`, `C92_price_missing`, `C92_price_predict`, `C92_price_required`, `C92_required_partial`, `C93_dispersion_after_fit`, `C93_dispersion_counterexample`, `C93_fit_transform_partial`, `C93_no_overwrite`, `C93_price_counterexample`, `C93_transform`, `C94_counterexample`, `C94_importances_partial`, `C95_fit_succeeds`, `C95_log_pmf`, `C95_never_increases`, `C95_object`, `C95_order`, `C95_range`, `C95_start`, `C95_training_cost`, `C96_direction`, `C96_elasticity`, `C97_no_prices`, `C97_predict`, `C98_bin`, `C98_digitize`, `C98_monotone`, `C98_range`, `C99_counts`, `C99_errors`, `C99_even_errors`, `C99_even_median`, `C99_groups`, `C99_mean`, `C99_median`, `C99_median_jump`, `C99_order`, `C99_quantile`, `C99_scale`, `C99_uniform_counts`.
* `propext, Quot.sound`: `C01_bin_unique`, `C100_binary`, `C101_refit`, `C101_same_fit`, `C101_zero`, `C113_succeeds`, `C116_extension`, `C132_last_binner`, `C139_exact`, `C159_declared`, `C159_duplicates`, `C159_explicit`, `C159_explicit_used`, `C159_external`, `C159_iter_fitting`, `C159_lookup`, `C159_subestimators`, `C162_index_fails_iff`, `C166_observer_counterexample`, `C166_own_attributes_partial`, `C166_price_counterexample`, `C166_raised_counterexample`, `C167_analysis_partial`, `C167_figures_counterexample`, `C167_figures_partial`, `C167_pages`, `C167_raises`, `C172_curve_partial`, `C173_first_iteration`, `C173_last_update_partial`, `C173_prepared`, `C173_within_update`, `C22_not_cut_short`, `C24_link_space`, `C25_missing`, `C27_add_after_remove_partial`, `C27_remove_after_add`, `C28_unfitted`, `C48_binner`, `C48_binner_ignores_weights`, `C48_constructor`, `C48_effect`, `C48_estimator_partial`, `C48_exponential_drops`, `C48_helpers`, `C48_settable`, `C48_total`, `C49_extrapolating`, `C50_interpolates`, `C51_one_dim`, `C53_consistent_reportable`, `C53_explicit_overrides`, `C53_features_total`, `C53_groupBy_last_property`, `C53_increasing_alone_fails`, `C53_onedim`, `C53_reg_type`, `C53_total`, `C53_wrapping`, `C63_empty`, `C73_chosen`, `C74_chosen`, `C98_infinite`, `C98_nan`, `Flags.C14_accepts_iff`, `Flags.C14_implications`, `Flags.C14_union`, `Flags.C15_faithful`, `Flags.C15_increasing_not_printable`, `Flags.C15_printable_iff_partial`.
* `propext`: `C113_not_unfitted_in_dictionaries`, `C113_settings`, `C113_unfitted`, `C134_group_by`, `C152_full_claim_fails`, `C152_order`, `C159_unknown`, `C29_counterexample`, `C37_order_counterexample`, `C48_common_arguments`.
* `none`: `C159_get_feature`, `C167_style_restored`.
