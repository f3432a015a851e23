import Verif.Model.Fit
import Verif.Model.GenericLoss

/-!
# The estimators of `generic_loss.py` for the model of a whole fit

The numerical optimiser `scipy.optimize.minimize` is left open: it is a function of the objective and the start value. So are the
costs of the estimators that take them as a parameter.
-/

set_option autoImplicit false

namespace CB
open Finset

/-- `quantile_costs` on samples (prediction, target, weight) as a float: NaN if the weights sum to 0.
Models: cyclic_boosting/generic_loss.py:324-353. -/
noncomputable def quantileCostsFlt (quantile : ℝ) (l : List (ℝ × ℝ × ℝ)) : Flt ℝ :=
  if 0 < l.length then
    quotientFlt (l.map (fun s => pinball quantile s.1 s.2.1 * s.2.2)).sum (l.map (fun s => s.2.2)).sum
  else .fin 0

/-- `uncertainty_gamma` on samples (target, weight).
Models: cyclic_boosting/generic_loss.py:540-546. -/
noncomputable def uncertaintyGamma (l : List (ℝ × ℝ)) : ℝ :=
  let alpha := (l.map fun s => s.2 * s.1).sum + 2
  Real.sqrt (Real.log (1 + alpha) - Real.log alpha)

/-- `uncertainty_gaussian` on samples (target, weight). Simplification: with a sum of weights of 0 the code computes with NaN,
which has no effect for a bin without samples; for samples of weight 0 it returns NaN.
Models: cyclic_boosting/generic_loss.py:549-573. -/
noncomputable def uncertaintyGaussian (l : List (ℝ × ℝ)) : ℝ :=
  let sumWeights := (l.map fun s => s.2).sum
  let mean := (l.map fun s => s.1 * s.2).sum / sumWeights
  let residuals := (l.map fun s => s.2 * (s.1 - mean) ^ 2).sum
  let variancePrior := if residuals / sumWeights ≤ 1e-9 then 1 else residuals / sumWeights
  let a := 0.5 + 0.5 * sumWeights
  let b := 0.5 * variancePrior + 0.5 * residuals
  let varianceY := b / a
  let sumW := (l.map fun s => s.2 / varianceY).sum + 1e-2
  let sumVW := (l.map fun s => s.2 * (s.2 / varianceY)).sum + 1e-2
  Real.sqrt (sumVW / sumW ^ 2)

/-- `uncertainty_beta` on samples (target, weight); `betaPpf` and `coef` as in `classifierCalcParameters`.
Models: cyclic_boosting/generic_loss.py:576-587. -/
noncomputable def uncertaintyBeta (betaPpf : ℝ → ℝ → ℝ → ℝ) (coef : ℝ → ℝ) (l : List (ℝ × ℝ)) : ℝ :=
  let alpha := (l.map fun s => s.2 * s.1).sum + betaPriors.1
  let beta := (l.map fun s => s.2 * (1 - s.1)).sum + betaPriors.2
  let perc := percentiles alpha beta
  (gaussianMatching (betaPpf alpha beta) logitLink.link coef perc.1 perc.2).2

/-- The numbers of the samples in bin `b`; that the code optimises each bin on exactly these samples is C37.
Models: cyclic_boosting/generic_loss.py:68-81. -/
def binMembers (n : ℕ) (codes : ℕ → ℕ) (b : ℕ) : List ℕ := (List.range n).filter fun i => decide (codes i = b)

/-- `objective_function` for bin `b` as a function of the parameter.
Models: cyclic_boosting/generic_loss.py:127-151. -/
noncomputable def binObjective (costs : List (ℝ × ℝ × ℝ) → Flt ℝ) (link : Link) (multiplicative : Bool) (n : ℕ) (codes : ℕ → ℕ)
    (y w pred : ℕ → ℝ) (b : ℕ) (param : ℝ) : Flt ℝ :=
  costs ((binMembers n codes b).map fun i => (genericModel multiplicative param (link.unlink (pred i)), y i, w i))

/-- `calc_parameters` for bin `b`: the optimiser starts from `unlink_func(neutral_factor_link)`. A parameter of at most -1e-5 has
no logarithm: the code stores NaN then.
Models: cyclic_boosting/generic_loss.py:38-125. -/
noncomputable def genericParameters (costs : List (ℝ × ℝ × ℝ) → Flt ℝ) (minimize : (ℝ → Flt ℝ) → ℝ → ℝ)
    (uncertainty : List (ℝ × ℝ) → ℝ) (link : Link) (multiplicative : Bool) (n : ℕ) (codes : ℕ → ℕ) (y w pred : ℕ → ℝ) (b : ℕ) :
    ℝ × ℝ :=
  (genericParamLink link (minimize (binObjective costs link multiplicative n codes y w pred b) (link.unlink 0)),
    uncertainty ((binMembers n codes b).map fun i => (y i, w i)))

/-- The loss of these estimators: the costs of all samples.
Models: cyclic_boosting/generic_loss.py:233-253,661-662. -/
noncomputable def genericTotal (costs : List (ℝ × ℝ × ℝ) → Flt ℝ) (n : ℕ) (prediction y w : ℕ → ℝ) : Flt ℝ :=
  costs ((List.range n).map fun i => (prediction i, y i, w i))

open Classical in
/-- The global scale of the quantile regressors (`sort` by target); NaN where the code raises because no sample reaches the
quantile.
Models: cyclic_boosting/generic_loss.py:255-258,376-382, utils.py:1043-1060. -/
noncomputable def quantileScale (link : LinkKind) (quantile : ℝ) (n : ℕ) (y w : ℕ → ℝ) : Flt ℝ :=
  match continuousQuantile quantile (((List.range n).map fun i => (y i, w i)).mergeSort fun a b => decide (a.1 ≤ b.1)) with
  | some q => linkFlt link (.fin q)
  | none => .nan

/-- `CBMultiplicativeQuantileRegressor` and `CBAdditiveQuantileRegressor`.
Models: cyclic_boosting/generic_loss.py:182-529,590-600. -/
noncomputable def quantileEstimator (multiplicative : Bool) (quantile : ℝ) (minimize : (ℝ → Flt ℝ) → ℝ → ℝ) : Estimator where
  link := if multiplicative then .log else .identity
  valid y := multiplicative = true → 0 ≤ y
  scale := quantileScale (if multiplicative then .log else .identity) quantile
  shiftPrior := true
  parameters _ := genericParameters (quantileCostsFlt quantile) minimize
    (if multiplicative then uncertaintyGamma else uncertaintyGaussian)
    (if multiplicative then LinkKind.log else LinkKind.identity).toLink multiplicative
  calibrate _ _ factors := factors
  loss := genericTotal (quantileCostsFlt quantile)

/-- `CBMultiplicativeGenericCRegressor` and `CBAdditiveGenericCRegressor`.
Models: cyclic_boosting/generic_loss.py:612-739. -/
noncomputable def genericEstimator (multiplicative : Bool) (costs : List (ℝ × ℝ × ℝ) → Flt ℝ)
    (minimize : (ℝ → Flt ℝ) → ℝ → ℝ) : Estimator where
  link := if multiplicative then .log else .identity
  valid y := multiplicative = true → 0 ≤ y
  scale := globalScaleLink (if multiplicative then .log else .identity)
  shiftPrior := true
  parameters _ := genericParameters costs minimize
    (if multiplicative then uncertaintyGamma else uncertaintyGaussian)
    (if multiplicative then LinkKind.log else LinkKind.identity).toLink multiplicative
  calibrate _ _ factors := factors
  loss := genericTotal costs

/-- `CBGenericClassifier`.
Models: cyclic_boosting/generic_loss.py:742-803. -/
noncomputable def genericClassifierEstimator (betaPpf : ℝ → ℝ → ℝ → ℝ) (coef : ℝ → ℝ) (costs : List (ℝ × ℝ × ℝ) → Flt ℝ)
    (minimize : (ℝ → Flt ℝ) → ℝ → ℝ) : Estimator where
  link := .logit
  valid y := y = 0 ∨ y = 1
  scale := globalScaleLink .logit
  shiftPrior := true
  parameters _ := genericParameters costs minimize (uncertaintyBeta betaPpf coef) logitLink true
  calibrate _ _ factors := factors
  loss := genericTotal costs

end CB
