import Verif.Model.Training
import Verif.Model.Estimators
import Mathlib.Analysis.Real.Sqrt

/-!
# Model of the location regressors

Covers cyclic_boosting/location.py and `weighted_stddev` of cyclic_boosting/utils.py.
Arrays over the `n` samples are functions of the index; `codes` are the combined bin
numbers of the feature.  Divisions by zero give 0 in the model and NaN or infinity in
the code; `Verif/Model/FloatEstimates.lean` models these, and C157 says where they occur.
-/

set_option autoImplicit false

open Finset

namespace CB

section
variable {K : Type*} [Field K] [LinearOrder K]

/-- The prior variance: the weighted variance of the target, or 1 without variation.
Models: cyclic_boosting/location.py:111-114. -/
def variancePrior (n : ℕ) (y w : ℕ → K) : K :=
  let mean := (∑ i ∈ range n, y i * w i) / ∑ i ∈ range n, w i
  let v := (∑ i ∈ range n, (y i - mean) * (y i - mean) * w i) / ∑ i ∈ range n, w i
  if v ≤ 1 / 10 ^ 9 then 1 else v

/-- `precalc_variance_y` with `n_prior = 1`: the variance estimate of bin `b`.
Models: cyclic_boosting/location.py:82-127. -/
def precalcVarianceY (n : ℕ) (codes : ℕ → ℕ) (y w : ℕ → K) (b : ℕ) : K :=
  let prior := variancePrior n y w
  let sumY := binSum n codes fun i => w i * y i
  let sumW := binSum n codes w
  let meanY := fun i => sumY (codes i) / sumW (codes i)
  let res := binSum n codes fun i => w i * (y i - meanY i) ^ 2
  let a0 := 1 / 2 * (1 : K)
  let b0 := a0 * prior
  (b0 + 1 / 2 * res b) / (a0 + 1 / 2 * sumW b)

/-- `calc_parameters_intercept`: the intercept of bin `b`.
Models: cyclic_boosting/location.py:130-160. -/
def interceptParameter (n : ℕ) (codes : ℕ → ℕ) (pred y varY w : ℕ → K) (b : ℕ) : K :=
  let w' := fun i => w i / varY i
  calcFactorsGeneric n codes (fun i => w' i * (y i - pred i)) w' 0 (1 / 100) b

/-- `CBLocationRegressor.calc_parameters`.
Models: cyclic_boosting/location.py:187-216. -/
def locationParameter (n : ℕ) (codes : ℕ → ℕ) (pred y w : ℕ → K) (b : ℕ) : K :=
  let variance := precalcVarianceY n codes y w
  interceptParameter n codes pred y (fun i => variance (codes i)) w b

/-- `CBLocationRegressor.calibrate_to_weighted_mean`; `bw` are the weight sums of the bins.
Models: cyclic_boosting/location.py:218-230. -/
def locCalibrate (cfg : FeatureCfg) (bw : ℕ → K) (factors : ℕ → K) (b : ℕ) : K :=
  if cfg.missingNotLearned then
    if b < cfg.nFinite then
      factors b - (∑ c ∈ range cfg.nFinite, factors c * bw c) / ∑ c ∈ range cfg.nFinite, bw c
    else 0
  else
    factors b - (∑ c ∈ range (cfg.nFinite + 1), factors c * bw c) / ∑ c ∈ range (cfg.nFinite + 1), bw c

end

/-- `weighted_stddev`.
Models: cyclic_boosting/utils.py:650-668. -/
noncomputable def weightedStddev (n : ℕ) (x w : ℕ → ℝ) : ℝ :=
  let mean := (∑ i ∈ range n, w i * x i) / ∑ i ∈ range n, w i
  Real.sqrt ((∑ i ∈ range n, w i * (x i - mean) ^ 2) / ∑ i ∈ range n, w i)

/-- `_regularize_summands` for one bin. Simplification: for a constant target (`std = 0`) the code divides by zero and gets NaN,
the model 0.
Models: cyclic_boosting/location.py:36-49. -/
noncomputable def regularizeSummand (bincount summand unc std : ℝ) : ℝ :=
  1 / (bincount / unc ^ 2 + 1 / std ^ 2) * (bincount * summand / unc ^ 2 + 0 / std ^ 2)

/-- `CBLocPoissonRegressor.calc_parameters` for bin `b`: summand and uncertainty.
Models: cyclic_boosting/location.py:21-29, 51-75. -/
noncomputable def locPoissonParameter (n : ℕ) (codes : ℕ → ℕ) (predLink y w : ℕ → ℝ) (b : ℕ) : ℝ × ℝ :=
  let prediction := fun i => if 0 < predLink i then predLink i else 0
  let std := weightedStddev n y w
  let bincount := binSum n codes w b
  let variance := fun i => if prediction i ≤ 0 then 1 else prediction i
  let numerator := binSum n codes (fun i => w i * (y i - prediction i) / variance i) b
  let denominator := binSum n codes (fun i => w i / variance i) b
  let uncNumerator := binSum n codes (fun i => w i ^ 2 / variance i) b
  let denominator := if 0 < denominator then denominator else 1
  let summand := numerator / denominator
  let unc := uncNumerator / denominator
  let unc := if 0 < unc then unc else std
  (regularizeSummand bincount summand unc std, unc)

/-- `CBLocPoissonRegressor.predict` for the link-space prediction of one sample (identity link).
Models: cyclic_boosting/location.py:77-79. -/
noncomputable def locPoissonPredict (predLink : ℝ) : ℝ := if 0 < predLink then predLink else 0

end CB
