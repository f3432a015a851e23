import Verif.Model.QuantileMatching

/-!
# Model of the parametric quantile fits

Covers `quantile_fit_gaussian`, `quantile_fit_gamma` and `quantile_fit_nbinom` in cyclic_boosting/quantile_matching.py.
`scipy.optimize.curve_fit` and the distributions of `scipy.stats` are arguments.
-/

set_option autoImplicit false

namespace CB

/-- A fit function with two parameters; `none` is the NaN of `scipy.stats` for invalid parameters.
Models: cyclic_boosting/quantile_matching.py:852-853, 891-892, 905-926. -/
abbrev PairFunction := ℝ → ℝ → ℝ → Option ℝ

/-- `scipy.optimize.curve_fit` for a function with two parameters and points (x, y); `none` is an exception.
Models: cyclic_boosting/quantile_matching.py:855, 894, 953. -/
abbrev PairFit := PairFunction → List (ℝ × ℝ) → Option (ℝ × ℝ)

/-- What a quantile fit returns: a function, or with mode "dist" a distribution with both functions.
Models: cyclic_boosting/quantile_matching.py:856-863. -/
inductive QuantileResult where
  | function (f : ℝ → Option ℝ)
  | distribution (ppf cdf : ℝ → Option ℝ)

/-- The choice by `mode`.
Models: cyclic_boosting/quantile_matching.py:856-863, 895-902, 956-963. -/
def quantileMode (mode : String) (ppf cdf : ℝ → Option ℝ) : Except String QuantileResult :=
  if mode = "ppf" then .ok (.function ppf)
  else if mode = "dist" then .ok (.distribution ppf cdf)
  else if mode = "cdf" then .ok (.function cdf)
  else .error "Exception: Invalid mode."

/-- `norm(loc=mu, scale=sigma).ppf(x)`; `ppf` is the one of the standard normal distribution.
Models: cyclic_boosting/quantile_matching.py:852-853. -/
noncomputable def gaussianPpf (ppf : ℝ → ℝ) : PairFunction := fun x mu sigma =>
  if 0 < sigma then some (mu + sigma * ppf x) else none

/-- `norm(mu, sigma).cdf(x)`.
Models: cyclic_boosting/quantile_matching.py:861. -/
noncomputable def gaussianCdf (cdf : ℝ → ℝ) : PairFunction := fun x mu sigma =>
  if 0 < sigma then some (cdf ((x - mu) / sigma)) else none

/-- `quantile_fit_gaussian`.
Models: cyclic_boosting/quantile_matching.py:827-863. -/
noncomputable def quantileFitGaussian (fit : PairFit) (ppf cdf : ℝ → ℝ) (quantiles values : List ℝ) (mode : String) :
    Except String QuantileResult :=
  match fit (gaussianPpf ppf) (quantiles.zip values) with
  | none => .error "curve_fit"
  | some (mu, sigma) => quantileMode mode (fun x => gaussianPpf ppf x mu sigma) fun x => gaussianCdf cdf x mu sigma

/-- `gamma(alpha, scale=1 / beta).ppf(x)`; `ppf alpha` is the one for scale 1.
Models: cyclic_boosting/quantile_matching.py:891-892. -/
noncomputable def gammaPpf (ppf : ℝ → ℝ → ℝ) : PairFunction := fun x alpha beta =>
  if 0 < alpha ∧ 0 < beta then some (1 / beta * ppf alpha x) else none

/-- `gamma(alpha, scale=1 / beta).cdf(x)`.
Models: cyclic_boosting/quantile_matching.py:900. -/
noncomputable def gammaCdf (cdf : ℝ → ℝ → ℝ) : PairFunction := fun x alpha beta =>
  if 0 < alpha ∧ 0 < beta then some (cdf alpha (x / (1 / beta))) else none

/-- `quantile_fit_gamma`.
Models: cyclic_boosting/quantile_matching.py:866-902. -/
noncomputable def quantileFitGamma (fit : PairFit) (ppf cdf : ℝ → ℝ → ℝ) (quantiles values : List ℝ) (mode : String) :
    Except String QuantileResult :=
  match fit (gammaPpf ppf) (quantiles.zip values) with
  | none => .error "curve_fit"
  | some (alpha, beta) => quantileMode mode (fun x => gammaPpf ppf x alpha beta) fun x => gammaCdf cdf x alpha beta

/-- `_nbinom_cdf_mu_var` for a distribution function with the parameters `n` and `p`, which must be valid.
Models: cyclic_boosting/quantile_matching.py:905-926. -/
noncomputable def nbinomMuVar (f : ℝ → ℝ → ℝ → ℝ) : PairFunction := fun x mu var =>
  let n := (nbinomParams mu var).1
  let p := (nbinomParams mu var).2
  if 0 < n ∧ 0 < p ∧ p ≤ 1 then some (f n p x) else none

/-- `quantile_fit_nbinom`; here the distribution function is fitted, so the values are the positions.
Models: cyclic_boosting/quantile_matching.py:929-963. -/
noncomputable def quantileFitNbinom (fit : PairFit) (ppf cdf : ℝ → ℝ → ℝ → ℝ) (quantiles values : List ℝ) (mode : String) :
    Except String QuantileResult :=
  match fit (nbinomMuVar cdf) (values.zip quantiles) with
  | none => .error "curve_fit"
  | some (mu, var) => quantileMode mode (fun x => nbinomMuVar ppf x mu var) fun x => nbinomMuVar cdf x mu var

end CB
