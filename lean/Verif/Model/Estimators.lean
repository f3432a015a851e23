import Mathlib.Algebra.BigOperators.Group.Finset.Basic
import Mathlib.Algebra.Order.Field.Basic
import Mathlib.Analysis.SpecialFunctions.Log.Basic
import Mathlib.Analysis.SpecialFunctions.Sqrt

set_option autoImplicit false

/-!
Model of the estimators of the parameters of one feature: `calc_factors_generic` (`base.py`), the regressors
(`regression.py`) and `linear_regression` (`utils.py`).

Sample arrays of length `n` are functions `ℕ → K` of which the first `n` values are used; `codes` is the array of bin numbers
of the feature. Arrays over bins are functions of the bin.
-/
namespace CB
open Finset

section
variable {K : Type*} [Field K]

/-- `np.bincount(codes, weights=w, minlength=...)[b]`.
Models: cyclic_boosting/base.py:1369, regression.py:160, location.py:27-28 and every other call of `np.bincount`. -/
def binSum (n : ℕ) (codes : ℕ → ℕ) (w : ℕ → K) (b : ℕ) : K :=
  ∑ i ∈ range n, if codes i = b then w i else 0

/-- The weighted mean of `calc_factors_generic`, `base.py` lines 1368-1380. -/
def calcFactorsGeneric (n : ℕ) (codes : ℕ → ℕ) (wx w : ℕ → K) (x0 w0 : K) (b : ℕ) : K :=
  (binSum n codes wx b + w0 * x0) / (binSum n codes w b + w0)

/-- The variance of the weighted mean of `calc_factors_generic`, `base.py` lines 1368-1380 (the function returns its square
root). `v` are the external weights. -/
def calcVarianceGeneric (n : ℕ) (codes : ℕ → ℕ) (w v : ℕ → K) (w0 : K) (b : ℕ) : K :=
  (binSum n codes (fun i => v i * w i) b + w0) / (binSum n codes w b + w0) ^ 2

/-- `linear_regression`, `utils.py` lines 992-1017. -/
def linearRegression (n : ℕ) (x y w : ℕ → K) : K × K :=
  let sw := ∑ i ∈ range n, w i
  let swx := ∑ i ∈ range n, w i * x i
  let swxx := ∑ i ∈ range n, x i ^ 2 * w i
  let swy := ∑ i ∈ range n, w i * y i
  let swxy := ∑ i ∈ range n, w i * x i * y i
  let det := sw * swxx - swx * swx
  ((swxx * swy - swx * swxy) / det, (sw * swxy - swx * swy) / det)

end

/-- `get_gamma_priors`, `regression.py` lines 55-59. -/
noncomputable def gammaPriors : ℝ × ℝ := (2, 1.67834)

/-- `_calc_factors_from_posterior` for one bin, `regression.py` lines 21-38. `gammaincinv a` stands for
`scipy.special.gammaincinv(a, 0.5)`, the median of the gamma distribution with shape `a` and rate 1. -/
noncomputable def calcFactorFromPosterior (gammaincinv : ℝ → ℝ) (alpha beta : ℝ) : ℝ :=
  Real.log (if alpha ≤ 1e12 ∧ beta ≤ 1e12 then gammaincinv alpha / beta else alpha / beta)

/-- `_calc_factors_and_uncertainties` for one bin, `regression.py` lines 41-52, with the log link of `CBBaseRegressor`. -/
noncomputable def calcFactorsAndUncertainties (gammaincinv : ℝ → ℝ) (alpha beta : ℝ) : ℝ × ℝ :=
  let ap := alpha + gammaPriors.1
  let bp := beta + gammaPriors.2
  (calcFactorFromPosterior gammaincinv ap bp, Real.sqrt (Real.log (1 + ap) - Real.log ap))

/-- `CBBaseRegressor._check_y`, `regression.py` lines 69-74 (without NaN). -/
def regressorCheckY (n : ℕ) (y : ℕ → ℝ) : Prop := ∀ i < n, 0 ≤ y i

/-- `CBNBinomRegressor.calc_parameters`, `regression.py` lines 146-163, for the bin `b`: `predLink` is the in-sample prediction
without this feature in link space. -/
noncomputable def nbinomCalcParameters (gammaincinv : ℝ → ℝ) (a c : ℝ) (n : ℕ) (codes : ℕ → ℕ) (y weights predLink : ℕ → ℝ)
    (b : ℕ) : ℝ × ℝ :=
  let prediction : ℕ → ℝ := fun i => Real.exp (predLink i)
  let alpha := binSum n codes (fun i => weights i * y i / (a + c * prediction i)) b
  let beta := binSum n codes (fun i => weights i * prediction i / (a + c * prediction i)) b
  calcFactorsAndUncertainties gammaincinv alpha beta

/-- `CBPoissonRegressor.precalc_parameters`, `regression.py` lines 175-176. -/
noncomputable def poissonPrecalc (n : ℕ) (codes : ℕ → ℕ) (y weights : ℕ → ℝ) : ℕ → ℝ :=
  binSum n codes (fun i => y i * weights i)

/-- `CBPoissonRegressor.calc_parameters`, `regression.py` lines 178-187. -/
noncomputable def poissonCalcParameters (gammaincinv : ℝ → ℝ) (n : ℕ) (codes : ℕ → ℕ) (weights predLink : ℕ → ℝ)
    (prefit : ℕ → ℝ) (b : ℕ) : ℝ × ℝ :=
  calcFactorsAndUncertainties gammaincinv (prefit b) (binSum n codes (fun i => weights i * Real.exp (predLink i)) b)

end CB
